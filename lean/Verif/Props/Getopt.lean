import Verif.Proof.Getopt
import Verif.Props.MainFindings
/-!
# C119: a command line means what is written
-/
namespace Bpak
variable [LzmaLib]

/-- C119: the option tables of the actions, and of the tool itself, are as tables should be. -/
theorem C119_tables : (∀ action ∈ actions, (tableOf action).Proper) ∧ mainTable.Proper := by
  refine ⟨fun action ha => ?_, ⟨by decide, by decide, by decide, by decide⟩⟩
  simp only [actions, List.mem_cons, List.not_mem_nil, or_false] at ha
  rcases ha with h | h | h | h | h | h | h | h | h | h | h <;> subst h <;> exact ⟨by decide, by decide, by decide, by decide⟩

/-- C119, reading: an action finds in its arguments exactly what is written there by the conventions of GNU command lines, and finds nothing wrong exactly if the arguments can be read that way. -/
theorem C119_reads (action : String) (ha : action ∈ actions) (args : List Bytes) (evs : List OptEv) (ops : List Bytes) :
    (getopt (tableOf action) args = (evs, ops) ∧ OptEv.bad ∉ evs) ↔ Spells (tableOf action) args evs ops := by
  have hp := C119_tables.1 action ha
  constructor
  · rintro ⟨h1, h2⟩
    have := getopt_reads hp args.length args (Nat.le_refl _) (by unfold getopt at h1; rw [h1]; exact h2)
    unfold getopt at h1
    rw [h1] at this
    exact this
  · exact reads_getopt hp

/-- C119: a line can be read in one way only. -/
theorem C119_unambiguous (action : String) (ha : action ∈ actions) (args : List Bytes) (evs evs' : List OptEv) (ops ops' : List Bytes) (h : Spells (tableOf action) args evs ops)
    (h' : Spells (tableOf action) args evs' ops') : evs = evs' ∧ ops = ops' := by
  have h1 := ((C119_reads action ha args evs ops).2 h).1
  have h2 := ((C119_reads action ha args evs' ops').2 h').1
  exact Prod.mk.inj (h1.symm.trans h2)

/-- C119, spelling: two lines that say the same options in the same order and the same operands do the same, however they are written. -/
theorem C119_spelling (env : Env) (w : World) (action : String) (ha : action ∈ actions) (args args' : List Bytes) (evs : List OptEv) (ops : List Bytes)
    (h : Spells (tableOf action) args evs ops) (h' : Spells (tableOf action) args' evs ops) :
    bpakMain env w (ascii action :: args) = bpakMain env w (ascii action :: args') := by
  have h1 := ((C119_reads action ha args evs ops).2 h).1
  have h2 := ((C119_reads action ha args' evs ops).2 h').1
  have e := h1.trans h2.symm
  by_cases hn : action ≠ "compare" ∧ action ≠ "generate"
  · exact C112_further_operands env w action ha hn args args' (by rw [e]) (by rw [e])
  · refine C112_third_operand env w action ?_ args args' (by rw [e]) (by rw [e])
    by_cases hc : action = "compare"
    · exact Or.inl hc
    · exact Or.inr (Classical.not_not.1 fun hg => hn ⟨hc, hg⟩)

/-- C119, refusals: a line that cannot be read, and in which nothing asks for help before the place where it goes wrong, exits with status 255 and changes nothing. -/
theorem C119_unreadable (env : Env) (w : World) (action : String) (ha : action ∈ actions) (args : List Bytes) (h : ¬ ∃ evs ops, Spells (tableOf action) args evs ops)
    (hh : ¬ HelpFirst (getopt (tableOf action) args).1) : bpakMain env w (ascii action :: args) = .exit .failed .nothing w := by
  refine (C109_refused env w args).2.1 action ha ?_ hh
  refine Classical.not_not.1 fun hb => h ⟨_, _, (C119_reads action ha args _ _).1 ⟨rfl, hb⟩⟩

theorem optLoop_none {σ : Type} {step : Char → Bytes → σ → Option σ} {c : Char} {a : Bytes} (hs : ∀ s, step c a s = none) (hc : c ≠ 'h' ∧ c ≠ 'v') :
    ∀ (evs : List OptEv) (s : σ), OptEv.opt c a ∈ evs → ¬ AsksHelp evs → optLoop step evs s = .error .failed := by
  intro evs
  induction evs with
  | nil => exact fun s h => nomatch h
  | cons e evs ih =>
    intro s h hh
    have hh' : ¬ AsksHelp evs := fun ⟨x, hx⟩ => hh ⟨x, List.mem_cons_of_mem _ hx⟩
    cases e with
    | bad => rfl
    | opt d x =>
      unfold optLoop
      have hd : d ≠ 'h' := fun hd => hh ⟨x, by rw [hd]; exact List.mem_cons_self⟩
      rw [if_neg hd]
      rcases List.mem_cons.1 h with h | h
      · injection h with h1 h2
        subst h1; subst h2
        rw [if_neg hc.2, hs]
      · split
        · exact ih s h hh'
        · split
          · rfl
          · exact ih _ h hh'

/-- C119, `add --set-flag`: the only flag is `dont-hash`; with any other the command is refused. -/
theorem C119_flag (env : Env) (w : World) (args : List Bytes) (evs : List OptEv) (ops : List Bytes) (h : Spells addTable args evs ops) (x : Bytes) (hx : OptEv.opt 'F' x ∈ evs)
    (hn : x ≠ ascii "dont-hash") (hh : ¬ AsksHelp evs) : bpakMain env w (ascii "add" :: args) = .exit .failed .nothing w := by
  have h1 := ((C119_reads "add" (by decide) args evs ops).2 h).1
  have h1 : getopt addTable args = (evs, ops) := h1
  rw [main_add]
  have e := optLoop_none (step := addStep) (c := 'F') (a := x) (fun s => by show (if x = _ then _ else _) = _; rw [if_neg hn]) (by decide) evs {} hx hh
  unfold actionAdd withFile withOpts
  rw [h1, e]
  rfl

/-- C119, the tool's own options: `-h` and `-V`, `--help` and `--version` and their beginnings print the usage text and the version; another option instead of an action exits with status 255. -/
theorem C119_first (env : Env) (w : World) (rest : List Bytes) :
    (∀ bs, bpakMain env w ((45 :: 104 :: bs) :: rest) = .exit .ok .usage w ∧ bpakMain env w ((45 :: 86 :: bs) :: rest) = .exit .ok .version w) ∧
    (∀ n, n ≠ [] → n <+: ascii "help" → bpakMain env w ((45 :: 45 :: n) :: rest) = .exit .ok .usage w) ∧
    (∀ n, n ≠ [] → n <+: ascii "version" → bpakMain env w ((45 :: 45 :: n) :: rest) = .exit .ok .version w) ∧
    (∀ b bs, b ≠ 45 → b ≠ 104 → b ≠ 86 → bpakMain env w ((45 :: b :: bs) :: rest) = .exit .failed .nothing w) ∧
    (∀ n, n ≠ [] → ¬ n <+: ascii "help" → ¬ n <+: ascii "version" → bpakMain env w ((45 :: 45 :: n) :: rest) = .exit .failed .nothing w) := by
  have hp := C119_tables.2
  have short : ∀ b bs, b ≠ 45 → (getopt mainTable [45 :: b :: bs]).1 = (cluster mainTable none (b :: bs)).1 := fun b bs hb => by
    unfold getopt
    rw [go_cluster _ [] b bs rfl hb]
    have : ∀ x, (getoptGo mainTable x []).1 = [] := fun x => by cases x <;> rfl
    rw [this, List.append_nil]
    rfl
  have long : ∀ n, n ≠ [] → (getopt mainTable [45 :: 45 :: n]).1 = [(longOpt mainTable none n).1] := fun n hn => by
    unfold getopt
    rw [go_long n [] hn]
    have : ∀ x, (getoptGo mainTable x []).1 = [] := fun x => by cases x <;> rfl
    rw [this]
    rfl
  have run_opt : ∀ a c x es, (getopt mainTable [a]).1 = .opt c x :: es → bpakMain env w (a :: rest) = .exit .ok (if c = 'V' then .version else .usage) w := by
    intro a c x es h
    unfold bpakMain
    rcases hg : getopt mainTable [a] with ⟨e, o⟩
    rw [hg] at h
    subst h
    simp only [hg]
  have run_bad : ∀ a es, (getopt mainTable [a]).1 = .bad :: es → bpakMain env w (a :: rest) = .exit .failed .nothing w := by
    intro a es h
    unfold bpakMain
    rcases hg : getopt mainTable [a] with ⟨e, o⟩
    rw [hg] at h
    subst h
    simp only [hg]
  have named : ∀ n s c, n ≠ [] → (s, false, c) ∈ mainTable.long → n <+: ascii s → (longOpt mainTable none n).1 = .opt c [] := by
    intro n s c hn hs hpre
    have hm : mainTable.Means n c false := by
      by_cases he : ∃ o ∈ mainTable.long, ascii o.1 = n
      · left
        obtain ⟨o, ho, he⟩ := he
        refine ⟨s, hs, ?_⟩
        obtain ⟨b, n, rfl⟩ := List.exists_cons_of_ne_nil hn
        simp only [mainTable, List.mem_cons, List.not_mem_nil, or_false, Prod.mk.injEq] at ho hs
        rcases ho with rfl | rfl <;> rcases hs with ⟨rfl, -, rfl⟩ | ⟨rfl, -, rfl⟩
        · exact he
        · rw [← he] at hpre; exact absurd hpre (by clear he hpre hn; decide)
        · rw [← he] at hpre; exact absurd hpre (by clear he hpre hn; decide)
        · exact he
      · right
        refine ⟨fun o ho h => he ⟨o, ho, h⟩, ⟨s, hs, hpre⟩, fun o ho h => ?_⟩
        obtain ⟨b, n, rfl⟩ := List.exists_cons_of_ne_nil hn
        simp only [mainTable, List.mem_cons, List.not_mem_nil, or_false, Prod.mk.injEq] at ho hs
        have h1 : ∀ s : String, (b :: n) <+: ascii s → (ascii s).head? = some b := fun s ⟨r, hr⟩ => by rw [← hr]; rfl
        have e1 := h1 _ h
        have e2 := h1 _ hpre
        rcases ho with rfl | rfl <;> rcases hs with ⟨rfl, -, rfl⟩ | ⟨rfl, -, rfl⟩
        · rfl
        · exact absurd (e1.trans e2.symm) (by decide)
        · exact absurd (e1.trans e2.symm) (by decide)
        · rfl
    have ht := takeWhile_name n [] (means_plain hp hm)
    unfold longOpt
    dsimp only
    rw [ht.2, (name_iff hp).2 hm]
    simp
  refine ⟨fun bs => ⟨?_, ?_⟩, fun n hn h => ?_, fun n hn h => ?_, fun b bs h1 h2 h3 => ?_, fun n hn h1 h2 => ?_⟩
  · exact run_opt _ 'h' [] (cluster mainTable none bs).1 ((short 104 bs (by decide)).trans rfl)
  · exact run_opt _ 'V' [] (cluster mainTable none bs).1 ((short 86 bs (by decide)).trans rfl)
  · exact run_opt _ 'h' [] [] ((long n hn).trans (by rw [named n "help" 'h' hn (by decide) h]))
  · exact run_opt _ 'V' [] [] ((long n hn).trans (by rw [named n "version" 'V' hn (by decide) h]))
  · refine run_bad _ (cluster mainTable none bs).1 ((short b bs h1).trans ?_)
    have : mainTable.letter b = none := by
      unfold OptTable.letter
      refine List.find?_eq_none.2 fun o ho he => ?_
      have he := of_decide_eq_true he
      simp only [mainTable, List.mem_cons, List.not_mem_nil, or_false] at ho
      rcases ho with rfl | rfl
      · exact h2 he.symm
      · exact h3 he.symm
    rw [cluster, this]
  · refine run_bad _ [] ((long n hn).trans ?_)
    unfold longOpt
    dsimp only
    rcases hx : mainTable.name (n.takeWhile (fun b => decide (b ≠ 61))) with _ | ⟨arg, c⟩
    · rfl
    · have hm := (name_iff hp).1 hx
      have harg : arg = false := by
        have : ∀ s, (s, arg, c) ∈ mainTable.long → arg = false := fun s h => by
          simp only [mainTable, List.mem_cons, List.not_mem_nil, or_false, Prod.mk.injEq] at h
          rcases h with h | h <;> exact h.2.1
        rcases hm with ⟨s, h, -⟩ | ⟨-, ⟨s, h, -⟩, -⟩ <;> exact this s h
      subst harg
      dsimp only
      rw [if_neg]
      intro hlen
      rw [takeWhile_all _ hlen] at hm
      have : ∀ s, (s, false, c) ∈ mainTable.long → n <+: ascii s → False := fun s h hs => by
        simp only [mainTable, List.mem_cons, List.not_mem_nil, or_false, Prod.mk.injEq] at h
        rcases h with ⟨rfl, -, -⟩ | ⟨rfl, -, -⟩
        · exact h1 hs
        · exact h2 hs
      rcases hm with ⟨s, h, rfl⟩ | ⟨-, ⟨s, h, hs⟩, -⟩
      · exact this s h (List.prefix_refl _)
      · exact this s h hs

/-! ## Cases that meet the hypotheses -/

/-- `-vkKEY pkg`, `pkg --verbose --key=KEY` and `-v -k KEY -- pkg` say the same to `verify`. -/
theorem exSpells : Spells verifyTable [ascii "-vkKEY", ascii "pkg"] [.opt 'v' [], .opt 'k' (ascii "KEY")] [ascii "pkg"] ∧
    Spells verifyTable [ascii "pkg", ascii "--verbose", ascii "--key=KEY"] [.opt 'v' [], .opt 'k' (ascii "KEY")] [ascii "pkg"] ∧
    Spells verifyTable [ascii "-v", ascii "-k", ascii "KEY", ascii "--", ascii "pkg"] [.opt 'v' [], .opt 'k' (ascii "KEY")] [ascii "pkg"] := by
  have h : ∀ args, getopt verifyTable args = ([.opt 'v' [], .opt 'k' (ascii "KEY")], [ascii "pkg"]) →
      Spells verifyTable args [.opt 'v' [], .opt 'k' (ascii "KEY")] [ascii "pkg"] := fun args h =>
    (C119_reads "verify" (by decide) args _ _).1 ⟨h, by simp⟩
  exact ⟨h _ (by decide), h _ (by decide), h _ (by decide)⟩

/-- The first of them written out with the rules. -/
example : Spells verifyTable [ascii "-vkKEY", ascii "pkg"] [.opt 'v' [], .opt 'k' (ascii "KEY")] [ascii "pkg"] :=
  Spells.attached (fs := [(118, 'v')]) (b := 107) (c := 'k') (a := ascii "KEY") (by intro f hf; cases List.mem_singleton.1 hf; exact ⟨by decide, by decide⟩)
    ⟨by decide, by decide⟩ (by decide) (.operand (.inl (by decide)) .nil)

example (env : Env) (w : World) : bpakMain env w [ascii "verify", ascii "-vkKEY", ascii "pkg"] =
    bpakMain env w [ascii "verify", ascii "-v", ascii "-k", ascii "KEY", ascii "--", ascii "pkg"] :=
  C119_spelling env w "verify" (by decide) _ _ _ _ exSpells.1 exSpells.2.2

/-- `--ke` is the beginning of `--key` and of `--keystore`: it cannot be read. -/
example (env : Env) (w : World) : bpakMain env w [ascii "verify", ascii "--ke", ascii "KEY", ascii "pkg"] = .exit .failed .nothing w := by
  refine C119_unreadable env w "verify" (by decide) _ ?_ ?_
  · rintro ⟨evs, ops, h⟩
    have := (C119_reads "verify" (by decide) _ _ _).2 h
    rw [show getopt (tableOf "verify") [ascii "--ke", ascii "KEY", ascii "pkg"] = ([.bad], [ascii "KEY", ascii "pkg"]) by decide] at this
    cases this.1
    exact this.2 (by simp)
  · rw [show getopt (tableOf "verify") [ascii "--ke", ascii "KEY", ascii "pkg"] = ([.bad], [ascii "KEY", ascii "pkg"]) by decide]
    intro h
    obtain ⟨x, hx⟩ := h.asks
    simp at hx

example (env : Env) (w : World) : bpakMain env w [ascii "add", ascii "pkg", ascii "-p", ascii "a", ascii "-f", ascii "a.bin", ascii "--set-flag", ascii "hash"] = .exit .failed .nothing w :=
  C119_flag env w _ [.opt 'p' (ascii "a"), .opt 'f' (ascii "a.bin"), .opt 'F' (ascii "hash")] [ascii "pkg"]
    ((C119_reads "add" (by decide) _ _ _).1 ⟨by decide, by simp⟩) (ascii "hash") (by simp) (by decide) (by rintro ⟨x, hx⟩; simp at hx)

end Bpak
