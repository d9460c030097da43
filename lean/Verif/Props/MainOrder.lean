import Verif.Proof.Main
/-! C110: the order of options. -/
namespace Bpak

/-- Options of different letters can be read in either order. -/
def Commutes {σ : Type} (step : Char → Bytes → σ → Option σ) : Prop := ∀ c d a b s, c ≠ d → (step c a s).bind (step d b) = (step d b s).bind (step c a)

theorem optLoop_cons {σ : Type} (step : Char → Bytes → σ → Option σ) (c : Char) (a : Bytes) (es : List OptEv) (s : σ) (hh : c ≠ 'h') (hv : c ≠ 'v') :
    optLoop step (.opt c a :: es) s = match step c a s with | none => .error .failed | some s => optLoop step es s := by
  conv => lhs; unfold optLoop
  rw [if_neg hh, if_neg hv]
  rfl

theorem optLoop_v {σ : Type} (step : Char → Bytes → σ → Option σ) (a : Bytes) (es : List OptEv) (s : σ) : optLoop step (.opt 'v' a :: es) s = optLoop step es s := by
  conv => lhs; unfold optLoop
  rw [if_neg (by decide), if_pos rfl]

theorem optLoop_congr {σ : Type} (step : Char → Bytes → σ → Option σ) (e : OptEv) (es es' : List OptEv) (h : ∀ s, optLoop step es s = optLoop step es' s) (s : σ) :
    optLoop step (e :: es) s = optLoop step (e :: es') s := by
  cases e with
  | bad => rfl
  | opt c a =>
    by_cases hh : c = 'h'
    · subst hh; unfold optLoop; rw [if_pos rfl, if_pos rfl]
    · by_cases hv : c = 'v'
      · subst hv; rw [optLoop_v, optLoop_v, h]
      · rw [optLoop_cons _ _ _ _ _ hh hv, optLoop_cons _ _ _ _ _ hh hv]
        cases step c a s with
        | none => rfl
        | some s' => exact h s'

theorem optLoop_swap {σ : Type} (step : Char → Bytes → σ → Option σ) (hs : Commutes step) (c d : Char) (a b : Bytes) (es : List OptEv) (s : σ) (hcd : c ≠ d) (hc : c ≠ 'h') (hd : d ≠ 'h') :
    optLoop step (.opt c a :: .opt d b :: es) s = optLoop step (.opt d b :: .opt c a :: es) s := by
  by_cases hcv : c = 'v'
  · subst hcv
    rw [optLoop_v]
    exact (optLoop_congr step (.opt d b) (.opt 'v' a :: es) es (fun s => optLoop_v step a es s) s).symm
  · by_cases hdv : d = 'v'
    · subst hdv
      rw [optLoop_v]
      exact optLoop_congr step (.opt c a) (.opt 'v' b :: es) es (fun s => optLoop_v step b es s) s
    · have h := hs c d a b s hcd
      rw [optLoop_cons _ _ _ _ _ hc hcv, optLoop_cons _ _ _ _ _ hd hdv]
      rcases h1 : step c a s with _ | s1 <;> rcases h2 : step d b s with _ | s2 <;> rw [h1, h2] at h <;>
        simp only [Option.bind_none, Option.bind_some] at h ⊢
      · rw [optLoop_cons _ _ _ _ _ hc hcv, ← h]
      · rw [optLoop_cons _ _ _ _ _ hd hdv, h]
      · rw [optLoop_cons _ _ _ _ _ hc hcv, optLoop_cons _ _ _ _ _ hd hdv, h]

theorem optLoop_front {σ : Type} (step : Char → Bytes → σ → Option σ) (hs : Commutes step) (c : Char) (a : Bytes) (hc : c ≠ 'h') (post : List OptEv) :
    ∀ (pre : List OptEv) (s : σ), (∀ e ∈ pre, ∃ d b, e = .opt d b ∧ d ≠ c ∧ d ≠ 'h') →
      optLoop step (pre ++ .opt c a :: post) s = optLoop step (.opt c a :: (pre ++ post)) s := by
  intro pre
  induction pre with
  | nil => intro s _; rfl
  | cons e pre ih =>
    intro s hp
    obtain ⟨d, b, rfl, hd, hh⟩ := hp _ (List.mem_cons_self ..)
    have ih' := fun s => ih s (fun e he => hp e (List.mem_cons_of_mem _ he))
    rw [List.cons_append, optLoop_congr step (.opt d b) _ _ ih' s, optLoop_swap step hs d c b a _ s hd hh hc]
    rfl

theorem argsOf_append (c : Char) (xs ys : List OptEv) : argsOf c (xs ++ ys) = argsOf c xs ++ argsOf c ys := by
  unfold argsOf; rw [List.filterMap_append]

/-- The first of an option. -/
theorem argsOf_split (c : Char) (a : Bytes) (r : List Bytes) : ∀ (evs : List OptEv), argsOf c evs = a :: r → OptEv.bad ∉ evs →
    ∃ pre post, evs = pre ++ .opt c a :: post ∧ (∀ e ∈ pre, ∃ d b, e = .opt d b ∧ d ≠ c) ∧ argsOf c post = r := by
  intro evs
  induction evs with
  | nil => intro h; cases h
  | cons e es ih =>
    intro h hb
    cases e with
    | bad => exact absurd (List.mem_cons_self ..) hb
    | opt d b =>
      by_cases hd : d = c
      · subst hd
        have : argsOf d (.opt d b :: es) = b :: argsOf d es := by simp [argsOf]
        rw [this] at h
        injection h with h1 h2
        subst h1
        exact ⟨[], es, rfl, fun e he => (by cases he), h2⟩
      · have : argsOf c (.opt d b :: es) = argsOf c es := by simp [argsOf, hd]
        rw [this] at h
        obtain ⟨pre, post, rfl, h2, h3⟩ := ih h (fun h => hb (List.mem_cons_of_mem _ h))
        refine ⟨.opt d b :: pre, post, rfl, ?_, h3⟩
        intro e he
        rcases List.mem_cons.1 he with he | he
        · exact ⟨d, b, he, hd⟩
        · exact h2 e he

theorem sameOptions_help {evs evs' : List OptEv} (h : SameOptions evs evs') (hh : ¬ AsksHelp evs) : ¬ AsksHelp evs' := by
  rintro ⟨a, ha⟩
  have : a ∈ argsOf 'h' evs' := List.mem_filterMap.2 ⟨_, ha, by simp⟩
  rw [← h 'h'] at this
  obtain ⟨e, he, hx⟩ := List.mem_filterMap.1 this
  cases e with
  | bad => cases hx
  | opt d b =>
    simp only at hx
    split at hx
    · rename_i hd; subst hd; exact hh ⟨b, he⟩
    · cases hx

theorem optLoop_same {σ : Type} (step : Char → Bytes → σ → Option σ) (hs : Commutes step) : ∀ (evs evs' : List OptEv) (s : σ),
    OptEv.bad ∉ evs → OptEv.bad ∉ evs' → ¬ AsksHelp evs → SameOptions evs evs' → optLoop step evs s = optLoop step evs' s := by
  intro evs
  induction evs with
  | nil =>
    intro evs' s _ hb' _ h
    cases evs' with
    | nil => rfl
    | cons e es =>
      cases e with
      | bad => exact absurd (List.mem_cons_self ..) hb'
      | opt c a =>
        have := h c
        simp [argsOf] at this
  | cons e es ih =>
    intro evs' s hb hb' hh h
    cases e with
    | bad => exact absurd (List.mem_cons_self ..) hb
    | opt c a =>
      have hh' := sameOptions_help h hh
      have hc : c ≠ 'h' := by intro e; subst e; exact hh ⟨a, List.mem_cons_self ..⟩
      have hca : argsOf c evs' = a :: argsOf c es := by rw [← h c]; simp [argsOf]
      obtain ⟨pre, post, rfl, hpre, hpost⟩ := argsOf_split c a _ evs' hca hb'
      have hpre' : ∀ e ∈ pre, ∃ d b, e = .opt d b ∧ d ≠ c ∧ d ≠ 'h' := by
        intro e he
        obtain ⟨d, b, rfl, hd⟩ := hpre e he
        exact ⟨d, b, rfl, hd, by rintro rfl; exact hh' ⟨b, by simp [he]⟩⟩
      rw [optLoop_front step hs c a hc post pre s hpre']
      apply optLoop_congr
      intro s
      refine ih (pre ++ post) s (fun h => hb (List.mem_cons_of_mem _ h)) ?_ (fun ⟨b, hb⟩ => hh ⟨b, List.mem_cons_of_mem _ hb⟩) ?_
      · intro hm
        apply hb'
        rcases List.mem_append.1 hm with hm | hm
        · exact List.mem_append_left _ hm
        · exact List.mem_append_right _ (List.mem_cons_of_mem _ hm)
      · intro d
        have hd := h d
        rw [argsOf_append] at hd ⊢
        by_cases hdc : d = c
        · subst hdc
          have e1 : argsOf d (.opt d a :: post) = a :: argsOf d post := by simp [argsOf]
          have e2 : argsOf d (.opt d a :: es) = a :: argsOf d es := by simp [argsOf]
          have e3 : argsOf d pre = [] := by
            unfold argsOf
            rw [List.filterMap_eq_nil_iff]
            intro e he
            obtain ⟨x, b, rfl, hx⟩ := hpre e he
            simp [hx]
          rw [e1, e2, e3] at hd
          rw [e3]
          injection hd
        · have e1 : argsOf d (.opt c a :: post) = argsOf d post := by simp [argsOf, Ne.symm hdc]
          have e2 : argsOf d (.opt c a :: es) = argsOf d es := by simp [argsOf, Ne.symm hdc]
          rw [e1, e2] at hd
          exact hd

theorem commutes_create : Commutes createStep := by
  intro c d a b s h; unfold createStep; split <;> split <;> first | rfl | exact absurd rfl h
theorem commutes_add : Commutes addStep := by
  intro c d a b s h; unfold addStep; split <;> split <;> first | exact (h rfl).elim | rfl | (split <;> first | exact (h rfl).elim | rfl)
theorem commutes_set : Commutes setStep := by
  intro c d a b s h; unfold setStep; split <;> split <;> first | rfl | exact absurd rfl h
theorem commutes_delete : Commutes deleteStep := by
  intro c d a b s h; unfold deleteStep; split <;> split <;> first | rfl | exact absurd rfl h
theorem commutes_sign : Commutes signStep := by
  intro c d a b s h; unfold signStep; split <;> split <;> first | rfl | exact absurd rfl h
theorem commutes_verify : Commutes verifyStep := by
  intro c d a b s h; unfold verifyStep; split <;> split <;> first | rfl | exact absurd rfl h
theorem commutes_show : Commutes showStep := by
  intro c d a b s h; unfold showStep; split <;> split <;> first | rfl | exact absurd rfl h
theorem commutes_extract : Commutes extractStep := by
  intro c d a b s h; unfold extractStep; split <;> split <;> first | rfl | exact absurd rfl h
theorem commutes_generate : Commutes generateStep := by
  intro c d a b s h; unfold generateStep; split <;> split <;> first | rfl | exact absurd rfl h
theorem commutes_transport : Commutes transportStep := by
  intro c d a b s h; unfold transportStep; split <;> split <;> first | rfl | exact absurd rfl h

variable [LzmaLib]

/-- C110: the order of the options does not matter. Two command lines of an action with the same operands and the same options (for a repeated option its arguments in the same order), none of which is refused by
`getopt_long` or asks for help, do the same. -/
theorem C110_option_order (env : Env) (w : World) (action : String) (ha : action ∈ actions) (args args' : List Bytes)
    (hb : OptEv.bad ∉ (getopt (tableOf action) args).1) (hb' : OptEv.bad ∉ (getopt (tableOf action) args').1) (hh : ¬ AsksHelp (getopt (tableOf action) args).1)
    (ho : SameOptions (getopt (tableOf action) args).1 (getopt (tableOf action) args').1) (hp : (getopt (tableOf action) args).2 = (getopt (tableOf action) args').2) :
    bpakMain env w (ascii action :: args) = bpakMain env w (ascii action :: args') := by
  have go : ∀ {σ : Type} (t : OptTable) (step : Char → Bytes → σ → Option σ) (hs : Commutes step) (init : σ) (k : σ → List Bytes → Ran), t = tableOf action →
      withOpts t step init w args k = withOpts t step init w args' k := by
    intro σ t step hs init k ht
    unfold withOpts
    rw [ht, optLoop_same step hs _ _ init hb hb' hh ho, hp]
  simp only [actions, List.mem_cons, List.not_mem_nil, or_false] at ha
  rcases ha with h | h | h | h | h | h | h | h | h | h | h <;> subst h
  · rw [main_create, main_create]; unfold actionCreate withFile; exact go createTable _ commutes_create _ _ rfl
  · rw [main_add, main_add]; unfold actionAdd withFile; exact go addTable _ commutes_add _ _ rfl
  · rw [main_show, main_show]; unfold actionShow withFile; exact go showTable _ commutes_show _ _ rfl
  · rw [main_sign, main_sign]; unfold actionSign withFile; exact go signTable _ commutes_sign _ _ rfl
  · rw [main_verify, main_verify]; unfold actionVerify withFile; exact go verifyTable _ commutes_verify _ _ rfl
  · rw [main_generate, main_generate]; exact go generateTable _ commutes_generate _ _ rfl
  · rw [main_transport, main_transport]; unfold actionTransport withFile; exact go transportTable _ commutes_transport _ _ rfl
  · rw [main_set, main_set]; unfold actionSet withFile; exact go setTable _ commutes_set _ _ rfl
  · rw [main_compare, main_compare]; exact go compareTable _ (fun _ _ _ _ _ _ => rfl) _ _ rfl
  · rw [main_extract, main_extract]; unfold actionExtract withFile; exact go extractTable _ commutes_extract _ _ rfl
  · rw [main_delete, main_delete]; unfold actionDelete withFile; exact go deleteTable _ commutes_delete _ _ rfl

/-- C110, `-v`: it may be put in front of the other arguments of any action (or `--verbose`) without changing the status, the files or the result that is printed. -/
theorem C110_verbose (env : Env) (w : World) (action : String) (ha : action ∈ actions) (args : List Bytes) (v : Bytes) (hv : v = ascii "-v" ∨ v = ascii "--verbose") :
    bpakMain env w (ascii action :: v :: args) = bpakMain env w (ascii action :: args) := by
  have hl : (tableOf action).letter 118 = some ('v', false) ∧ (tableOf action).name [118, 101, 114, 98, 111, 115, 101] = some (false, 'v') := by
    simp only [actions, List.mem_cons, List.not_mem_nil, or_false] at ha
    rcases ha with h | h | h | h | h | h | h | h | h | h | h <;> subst h <;> exact ⟨by decide, by decide⟩
  have hg : getopt (tableOf action) (v :: args) = (.opt 'v' [] :: (getopt (tableOf action) args).1, (getopt (tableOf action) args).2) := by
    unfold getopt
    rcases hv with h | h <;> subst h
    · exact getoptGo_flag _ _ (by decide) hl.1
    · rw [show ascii "--verbose" = 45 :: 45 :: [118, 101, 114, 98, 111, 115, 101] by decide]
      exact getoptGo_longFlag _ _ (by decide) (by decide) hl.2
  have go : ∀ {σ : Type} (t : OptTable) (step : Char → Bytes → σ → Option σ) (init : σ) (k : σ → List Bytes → Ran), t = tableOf action →
      withOpts t step init w (v :: args) k = withOpts t step init w args k := by
    intro σ t step init k ht
    unfold withOpts
    rw [ht, hg, optLoop_v]
  simp only [actions, List.mem_cons, List.not_mem_nil, or_false] at ha
  rcases ha with h | h | h | h | h | h | h | h | h | h | h <;> subst h
  · rw [main_create, main_create]; unfold actionCreate withFile; exact go createTable _ _ _ rfl
  · rw [main_add, main_add]; unfold actionAdd withFile; exact go addTable _ _ _ rfl
  · rw [main_show, main_show]; unfold actionShow withFile; exact go showTable _ _ _ rfl
  · rw [main_sign, main_sign]; unfold actionSign withFile; exact go signTable _ _ _ rfl
  · rw [main_verify, main_verify]; unfold actionVerify withFile; exact go verifyTable _ _ _ rfl
  · rw [main_generate, main_generate]; exact go generateTable _ _ _ rfl
  · rw [main_transport, main_transport]; unfold actionTransport withFile; exact go transportTable _ _ _ rfl
  · rw [main_set, main_set]; unfold actionSet withFile; exact go setTable _ _ _ rfl
  · rw [main_compare, main_compare]; exact go compareTable _ _ _ rfl
  · rw [main_extract, main_extract]; unfold actionExtract withFile; exact go extractTable _ _ _ rfl
  · rw [main_delete, main_delete]; unfold actionDelete withFile; exact go deleteTable _ _ _ rfl

end Bpak
