import Verif.Spec.Main
import Verif.Proof.Image
/-! Option loops. -/
namespace Bpak

theorem optLoop_help {σ : Type} (step : Char → Bytes → σ → Option σ) : ∀ (evs : List OptEv) (s : σ), optLoop step evs s = .error .ok → AsksHelp evs := by
  intro evs
  induction evs with
  | nil => intro s h; cases h
  | cons e es ih =>
    intro s h
    cases e with
    | bad => cases h
    | opt c a =>
      unfold optLoop at h
      split at h
      · rename_i hc; subst hc; exact ⟨a, List.mem_cons_self ..⟩
      · split at h
        · obtain ⟨b, hb⟩ := ih s h; exact ⟨b, List.mem_cons_of_mem _ hb⟩
        · split at h
          · cases h
          · obtain ⟨b, hb⟩ := ih _ h; exact ⟨b, List.mem_cons_of_mem _ hb⟩

theorem optLoop_error {σ : Type} (step : Char → Bytes → σ → Option σ) : ∀ (evs : List OptEv) (s : σ) (e : Err), optLoop step evs s = .error e → e = .ok ∨ e = .failed := by
  intro evs
  induction evs with
  | nil => intro s e h; cases h
  | cons e es ih =>
    intro s e' h
    cases e with
    | bad => cases h; exact .inr rfl
    | opt c a =>
      unfold optLoop at h
      split at h
      · cases h; exact .inl rfl
      · split at h
        · exact ih s _ h
        · split at h
          · cases h; exact .inr rfl
          · exact ih _ _ h

theorem optLoop_clean {σ : Type} (step : Char → Bytes → σ → Option σ) : ∀ (evs : List OptEv) (s o : σ), optLoop step evs s = .ok o → OptEv.bad ∉ evs ∧ ¬ AsksHelp evs := by
  intro evs
  induction evs with
  | nil => intro s o h; exact ⟨fun h => (by cases h), fun ⟨_, h⟩ => (by cases h)⟩
  | cons e es ih =>
    intro s o h
    cases e with
    | bad => cases h
    | opt c a =>
      unfold optLoop at h
      have key : ∀ s', optLoop step es s' = .ok o → c ≠ 'h' → OptEv.bad ∉ OptEv.opt c a :: es ∧ ¬ AsksHelp (OptEv.opt c a :: es) := by
        intro s' h' hc
        obtain ⟨h1, h2⟩ := ih s' o h'
        constructor
        · intro hm
          rcases List.mem_cons.1 hm with hm | hm
          · cases hm
          · exact h1 hm
        · rintro ⟨b, hm⟩
          rcases List.mem_cons.1 hm with hm | hm
          · injection hm with e1 e2; exact hc e1.symm
          · exact h2 ⟨b, hm⟩
      split at h
      · cases h
      · rename_i hc
        split at h
        · exact key s h hc
        · split at h
          · cases h
          · exact key _ h hc

/-- A setting that only the option `k` changes is, after the loop, the argument of the last `k`. -/
theorem optLoop_last {σ : Type} (step : Char → Bytes → σ → Option σ) (π : σ → Option Bytes) (k : Char) (hv : k ≠ 'v')
    (hs : ∀ c a s s', step c a s = some s' → π s' = if c = k then some a else π s) :
    ∀ (evs : List OptEv) (s o : σ), optLoop step evs s = .ok o →
      π o = evs.foldl (fun x e => match e with | .opt d a => if d = k then some a else x | .bad => x) (π s) := by
  intro evs
  induction evs with
  | nil => intro s o h; cases h; rfl
  | cons e es ih =>
    intro s o h
    cases e with
    | bad => cases h
    | opt c a =>
      unfold optLoop at h
      split at h
      · cases h
      · split at h
        · rename_i hc
          rw [ih s o h]
          simp only [List.foldl_cons]
          rw [if_neg (by rw [hc]; exact fun h => hv h.symm)]
        · split at h
          · cases h
          · rename_i s' hst
            rw [ih s' o h]
            simp only [List.foldl_cons]
            rw [hs c a s s' hst]

theorem optLoop_helpFirst {σ : Type} (step : Char → Bytes → σ → Option σ) : ∀ (evs : List OptEv) (s : σ), optLoop step evs s = .error .ok → HelpFirst evs := by
  intro evs
  induction evs with
  | nil => intro s h; cases h
  | cons e es ih =>
    intro s h
    cases e with
    | bad => cases h
    | opt c a =>
      unfold optLoop at h
      have more : HelpFirst es → HelpFirst (.opt c a :: es) := by
        rintro ⟨pre, b, post, rfl, hb⟩
        exact ⟨.opt c a :: pre, b, post, rfl, by simp [hb]⟩
      split at h
      · rename_i hc; subst hc; exact ⟨[], a, es, rfl, by simp⟩
      · split at h
        · exact more (ih s h)
        · split at h
          · cases h
          · exact more (ih _ h)

theorem HelpFirst.asks {evs : List OptEv} (h : HelpFirst evs) : AsksHelp evs := by
  obtain ⟨pre, a, post, rfl, -⟩ := h; exact ⟨a, by simp⟩

/-- If the `switch` knows every letter, only `getopt_long` refuses something. -/
theorem optLoop_total {σ : Type} (step : Char → Bytes → σ → Option σ) : ∀ (evs : List OptEv) (s : σ),
    (∀ c a, OptEv.opt c a ∈ evs → c = 'h' ∨ c = 'v' ∨ ∀ s, step c a s ≠ none) →
      (HelpFirst evs → optLoop step evs s = .error .ok) ∧ (OptEv.bad ∉ evs → ¬ AsksHelp evs → ∃ o, optLoop step evs s = .ok o) := by
  intro evs
  induction evs with
  | nil =>
    intro s _
    refine ⟨?_, fun _ _ => ⟨s, rfl⟩⟩
    rintro ⟨pre, a, post, h, -⟩
    cases pre <;> cases h
  | cons e es ih =>
    intro s hl
    have hl' : ∀ c a, OptEv.opt c a ∈ es → c = 'h' ∨ c = 'v' ∨ ∀ s, step c a s ≠ none := fun c a h => hl c a (List.mem_cons_of_mem _ h)
    cases e with
    | bad =>
      refine ⟨?_, fun h => absurd (List.mem_cons_self ..) h⟩
      rintro ⟨pre, a, post, h, hb⟩
      cases pre with
      | nil => cases h
      | cons x xs => injection h with h1 h2; exact absurd (h1 ▸ List.mem_cons_self ..) hb
    | opt c a =>
      have tail : c ≠ 'h' → HelpFirst (.opt c a :: es) → HelpFirst es := by
        rintro hc ⟨pre, b, post, h, hb⟩
        cases pre with
        | nil => injection h with h1 h2; injection h1 with h1; exact absurd h1 hc
        | cons x xs => injection h with h1 h2; exact ⟨xs, b, post, h2, fun h => hb (List.mem_cons_of_mem _ h)⟩
      have tail2 : ¬ AsksHelp (.opt c a :: es) → ¬ AsksHelp es := fun h => fun ⟨b, hb⟩ => h ⟨b, List.mem_cons_of_mem _ hb⟩
      have tail3 : OptEv.bad ∉ (OptEv.opt c a :: es) → OptEv.bad ∉ es := fun h hm => h (List.mem_cons_of_mem _ hm)
      unfold optLoop
      by_cases hc : c = 'h'
      · subst hc
        rw [if_pos rfl]
        exact ⟨fun _ => rfl, fun _ h => absurd ⟨a, List.mem_cons_self ..⟩ h⟩
      · rw [if_neg hc]
        by_cases hv : c = 'v'
        · rw [if_pos hv]
          exact ⟨fun h => (ih s hl').1 (tail hc h), fun h h2 => (ih s hl').2 (tail3 h) (tail2 h2)⟩
        · rw [if_neg hv]
          rcases hst : step c a s with _ | s'
          · rcases hl c a (List.mem_cons_self ..) with h | h | h
            · exact absurd h hc
            · exact absurd h hv
            · exact absurd hst (h s)
          · exact ⟨fun h => (ih s' hl').1 (tail hc h), fun h h2 => (ih s' hl').2 (tail3 h) (tail2 h2)⟩

/-- The letters of a table. -/
def OptTable.letters (t : OptTable) : List Char := t.short.map (·.1) ++ t.long.map (·.2.2)

theorem cluster_letters (t : OptTable) (next : Option Bytes) : ∀ (bs : Bytes) (c : Char) (a : Bytes), OptEv.opt c a ∈ (cluster t next bs).1 → c ∈ t.letters := by
  intro bs
  induction bs with
  | nil => intro c a h; cases h
  | cons b bs ih =>
    intro c a h
    have lt : ∀ x y, t.letter b = some (x, y) → x ∈ t.letters := by
      intro x y hx
      exact List.mem_append_left _ (List.mem_map.2 ⟨(x, y), List.mem_of_find?_eq_some hx, rfl⟩)
    unfold cluster at h
    split at h
    · simp only [List.mem_cons, reduceCtorEq, false_or] at h; exact ih c a h
    · rename_i d hd
      simp only [List.mem_cons] at h
      rcases h with h | h
      · injection h with h; subst h; exact lt _ _ hd
      · exact ih c a h
    · rename_i d hd
      split at h
      · simp only [List.mem_singleton] at h; injection h with h; subst h; exact lt _ _ hd
      · split at h
        · simp only [List.mem_singleton] at h; injection h with h; subst h; exact lt _ _ hd
        · simp only [List.mem_singleton, reduceCtorEq] at h

theorem name_letters (t : OptTable) (n : Bytes) (x : Bool × Char) (h : t.name n = some x) : x.2 ∈ t.letters := by
  unfold OptTable.name at h
  split at h
  · rename_i o ho
    cases h
    exact List.mem_append_right _ (List.mem_map.2 ⟨o, List.mem_of_find?_eq_some ho, rfl⟩)
  · split at h
    · cases h
    · rename_i o os ho
      split at h
      · cases h
        have : o ∈ t.long.filter (fun o => n.isPrefixOf (ascii o.1)) := by rw [ho]; exact List.mem_cons_self ..
        exact List.mem_append_right _ (List.mem_map.2 ⟨o, (List.mem_filter.1 this).1, rfl⟩)
      · cases h

theorem longOpt_letters (t : OptTable) (next : Option Bytes) (body : Bytes) (c : Char) (a : Bytes) (h : (longOpt t next body).1 = .opt c a) : c ∈ t.letters := by
  unfold longOpt at h
  simp only at h
  split at h
  · cases h
  · rename_i d hd
    split at h
    · injection h with h; subst h; exact name_letters _ _ _ hd
    · cases h
  · rename_i d hd
    split at h
    · injection h with h; subst h; exact name_letters _ _ _ hd
    · split at h
      · injection h with h; subst h; exact name_letters _ _ _ hd
      · cases h

/-- `getopt_long` returns letters it was told about. -/
theorem getopt_letters (t : OptTable) : ∀ (args : List Bytes) (skip : Bool) (c : Char) (a : Bytes), OptEv.opt c a ∈ (getoptGo t skip args).1 → c ∈ t.letters := by
  intro args
  induction args with
  | nil => intro skip c a h; cases skip <;> cases h
  | cons x rest ih =>
    intro skip c a h
    cases skip with
    | true => exact ih false c a h
    | false =>
      unfold getoptGo at h
      split at h
      · cases h
      · split at h
        · simp only [List.mem_cons] at h
          rcases h with h | h
          · exact longOpt_letters _ _ _ _ _ h.symm
          · exact ih _ c a h
        · split at h
          · simp only [List.mem_append] at h
            rcases h with h | h
            · exact cluster_letters _ _ _ _ _ h
            · exact ih _ c a h
          · exact ih _ c a h

theorem dash {P : Bytes} (h : P.take 1 ≠ [45]) : P ≠ [45, 45] ∧ P.take 2 ≠ [45, 45] :=
  ⟨fun e => h (by rw [e]; rfl), fun e => h (by
    have : (P.take 2).take 1 = [45] := by rw [e]; rfl
    rwa [List.take_take] at this)⟩

theorem getoptGo_nil (t : OptTable) : getoptGo t false [] = ([], []) := rfl

theorem getoptGo_operand (t : OptTable) (P : Bytes) (rest : List Bytes) (h : P.take 1 ≠ [45]) :
    getoptGo t false (P :: rest) = ((getoptGo t false rest).1, P :: (getoptGo t false rest).2) := by
  obtain ⟨h1, h2⟩ := dash h
  conv => lhs; unfold getoptGo
  rw [if_neg h1, if_neg h2, if_neg (fun x => h x.1)]

/-- `-x ARG` -/
theorem getoptGo_short (t : OptTable) {b : U8} {c : Char} (a : Bytes) (rest : List Bytes) (hb : b ≠ 45) (hl : t.letter b = some (c, true)) :
    getoptGo t false ([45, b] :: a :: rest) = (.opt c a :: (getoptGo t false rest).1, (getoptGo t false rest).2) := by
  have h0 : ([45, b] : Bytes) ≠ [45, 45] := by
    intro h; injection h with _ h; injection h with h; exact hb h
  have hc : cluster t (a :: rest).head? (([45, b] : Bytes).drop 1) = ([.opt c a], true) := by
    show cluster t (some a) [b] = _
    unfold cluster
    rw [hl]
    rfl
  conv => lhs; unfold getoptGo
  rw [if_neg h0, if_neg (show ([45, b] : Bytes).take 2 ≠ [45, 45] from h0), if_pos ⟨rfl, Nat.le_refl _⟩, hc]
  rfl

/-- `-x` without an argument -/
theorem getoptGo_flag (t : OptTable) {b : U8} {c : Char} (rest : List Bytes) (hb : b ≠ 45) (hl : t.letter b = some (c, false)) :
    getoptGo t false ([45, b] :: rest) = (.opt c [] :: (getoptGo t false rest).1, (getoptGo t false rest).2) := by
  have h0 : ([45, b] : Bytes) ≠ [45, 45] := by
    intro h; injection h with _ h; injection h with h; exact hb h
  have hc : cluster t rest.head? (([45, b] : Bytes).drop 1) = ([.opt c []], false) := by
    show cluster t rest.head? [b] = _
    unfold cluster
    rw [hl]
    rfl
  conv => lhs; unfold getoptGo
  rw [if_neg h0, if_neg (show ([45, b] : Bytes).take 2 ≠ [45, 45] from h0), if_pos ⟨rfl, Nat.le_refl _⟩, hc]
  rfl

theorem take_dashes (n : Bytes) : (45 :: 45 :: n : Bytes).take 2 = [45, 45] := rfl

theorem takeWhile_name (n a : Bytes) (h : ∀ b ∈ n, b ≠ 61) : (n ++ 61 :: a).takeWhile (fun b => decide (b ≠ 61)) = n ∧ n.takeWhile (fun b => decide (b ≠ 61)) = n := by
  induction n with
  | nil => simp
  | cons x xs ih =>
    obtain ⟨h1, h2⟩ := ih (fun b hb => h b (List.mem_cons_of_mem _ hb))
    have hx : decide (x ≠ 61) = true := by simpa using h x (List.mem_cons_self ..)
    constructor
    · rw [List.cons_append, List.takeWhile_cons, hx, h1]; rfl
    · rw [List.takeWhile_cons, hx, h2]; rfl

/-- `--name ARG` -/
theorem getoptGo_long (t : OptTable) {n : Bytes} {c : Char} (a : Bytes) (rest : List Bytes) (h0 : n ≠ []) (hn : ∀ b ∈ n, b ≠ 61) (hl : t.name n = some (true, c)) :
    getoptGo t false ((45 :: 45 :: n) :: a :: rest) = (.opt c a :: (getoptGo t false rest).1, (getoptGo t false rest).2) := by
  have hne : (45 :: 45 :: n : Bytes) ≠ [45, 45] := by
    intro h; injection h with _ h; injection h with _ h; exact h0 h
  have hc : longOpt t (a :: rest).head? ((45 :: 45 :: n : Bytes).drop 2) = (.opt c a, true) := by
    show longOpt t (some a) n = _
    unfold longOpt
    simp only [(takeWhile_name n [] hn).2, hl, ne_eq, not_true_eq_false, if_false]
  conv => lhs; unfold getoptGo
  rw [if_neg hne, if_pos (take_dashes _), hc]
  rfl

/-- `--name=ARG` -/
theorem getoptGo_eq (t : OptTable) {n : Bytes} {c : Char} (a : Bytes) (rest : List Bytes) (hn : ∀ b ∈ n, b ≠ 61) (hl : t.name n = some (true, c)) :
    getoptGo t false ((45 :: 45 :: (n ++ 61 :: a)) :: rest) = (.opt c a :: (getoptGo t false rest).1, (getoptGo t false rest).2) := by
  have hne : (45 :: 45 :: (n ++ 61 :: a) : Bytes) ≠ [45, 45] := by
    intro h; injection h with _ h; injection h with _ h; cases n <;> cases h
  have hc : longOpt t rest.head? ((45 :: 45 :: (n ++ 61 :: a) : Bytes).drop 2) = (.opt c a, false) := by
    show longOpt t rest.head? (n ++ 61 :: a) = _
    unfold longOpt
    simp only [(takeWhile_name n a hn).1, hl]
    rw [if_pos (by simp), List.drop_append, List.drop_eq_nil_of_le (by omega), Nat.add_sub_cancel_left]
    rfl
  conv => lhs; unfold getoptGo
  rw [if_neg hne, if_pos (take_dashes _), hc]

/-- `--name` without an argument -/
theorem getoptGo_longFlag (t : OptTable) {n : Bytes} {c : Char} (rest : List Bytes) (h0 : n ≠ []) (hn : ∀ b ∈ n, b ≠ 61) (hl : t.name n = some (false, c)) :
    getoptGo t false ((45 :: 45 :: n) :: rest) = (.opt c [] :: (getoptGo t false rest).1, (getoptGo t false rest).2) := by
  have hne : (45 :: 45 :: n : Bytes) ≠ [45, 45] := by
    intro h; injection h with _ h; injection h with _ h; exact h0 h
  have hc : longOpt t rest.head? ((45 :: 45 :: n : Bytes).drop 2) = (.opt c [], false) := by
    show longOpt t rest.head? n = _
    unfold longOpt
    simp only [(takeWhile_name n [] hn).2, hl, if_pos]
  conv => lhs; unfold getoptGo
  rw [if_neg hne, if_pos (take_dashes _), hc]

variable [LzmaLib]

theorem withOpts_exit {σ : Type} {t : OptTable} {step : Char → Bytes → σ → Option σ} {init : σ} {w : World} {args : List Bytes} {k : σ → List Bytes → Ran} {rc : Err} {out : Printed} {w' : World}
    (h : withOpts t step init w args k = .exit rc out w') :
    (rc = .ok ∧ out = .usage ∧ w' = w ∧ AsksHelp (getopt t args).1) ∨ (rc = .failed ∧ out = .nothing ∧ w' = w) ∨
    ∃ o, optLoop step (getopt t args).1 init = .ok o ∧ k o (getopt t args).2 = .exit rc out w' := by
  unfold withOpts at h
  split at h
  · rename_i e he
    obtain ⟨h1, h2, h3⟩ := Ran.exit.inj h
    rcases optLoop_error _ _ _ _ he with h0 | h0
    · subst h0; exact .inl ⟨h1.symm, by rw [← h2]; rfl, h3.symm, optLoop_help _ _ _ he⟩
    · subst h0; exact .inr (.inl ⟨h1.symm, by rw [← h2]; rfl, h3.symm⟩)
  · rename_i o ho
    exact .inr (.inr ⟨o, ho, h⟩)

theorem main_action (env : Env) (w : World) (a : Bytes) (rest : List Bytes) (h : a.take 1 ≠ [45]) : bpakMain env w (a :: rest) = dispatch env w a rest := by
  have h1 : a ≠ [45, 45] := fun e => h (by rw [e]; rfl)
  have h2 : a.take 2 ≠ [45, 45] := fun e => h (by
    have : (a.take 2).take 1 = [45] := by rw [e]; rfl
    rwa [List.take_take] at this)
  unfold bpakMain getopt getoptGo
  simp only [if_neg h1, if_neg h2]
  rw [if_neg (fun x => h x.1)]
  simp only [getoptGo]

theorem main_create (env : Env) (w : World) (args : List Bytes) : bpakMain env w (ascii "create" :: args) = actionCreate env w args := by
  rw [main_action _ _ _ _ (by decide)]
  unfold dispatch
  rw [if_pos rfl]

theorem main_add (env : Env) (w : World) (args : List Bytes) : bpakMain env w (ascii "add" :: args) = actionAdd env w args := by
  rw [main_action _ _ _ _ (by decide)]
  unfold dispatch
  rw [if_neg (by decide), if_pos rfl]

theorem main_show (env : Env) (w : World) (args : List Bytes) : bpakMain env w (ascii "show" :: args) = actionShow env w args := by
  rw [main_action _ _ _ _ (by decide)]
  unfold dispatch
  rw [if_neg (by decide), if_neg (by decide), if_pos rfl]

theorem main_sign (env : Env) (w : World) (args : List Bytes) : bpakMain env w (ascii "sign" :: args) = actionSign env w args := by
  rw [main_action _ _ _ _ (by decide)]
  unfold dispatch
  rw [if_neg (by decide), if_neg (by decide), if_neg (by decide), if_pos rfl]

theorem main_verify (env : Env) (w : World) (args : List Bytes) : bpakMain env w (ascii "verify" :: args) = actionVerify env w args := by
  rw [main_action _ _ _ _ (by decide)]
  unfold dispatch
  rw [if_neg (by decide), if_neg (by decide), if_neg (by decide), if_neg (by decide), if_pos rfl]

theorem main_generate (env : Env) (w : World) (args : List Bytes) : bpakMain env w (ascii "generate" :: args) = actionGenerate env w args := by
  rw [main_action _ _ _ _ (by decide)]
  unfold dispatch
  rw [if_neg (by decide), if_neg (by decide), if_neg (by decide), if_neg (by decide), if_neg (by decide), if_pos rfl]

theorem main_transport (env : Env) (w : World) (args : List Bytes) : bpakMain env w (ascii "transport" :: args) = actionTransport env w args := by
  rw [main_action _ _ _ _ (by decide)]
  unfold dispatch
  rw [if_neg (by decide), if_neg (by decide), if_neg (by decide), if_neg (by decide), if_neg (by decide), if_neg (by decide), if_pos rfl]

theorem main_set (env : Env) (w : World) (args : List Bytes) : bpakMain env w (ascii "set" :: args) = actionSet w args := by
  rw [main_action _ _ _ _ (by decide)]
  unfold dispatch
  rw [if_neg (by decide), if_neg (by decide), if_neg (by decide), if_neg (by decide), if_neg (by decide), if_neg (by decide), if_neg (by decide), if_pos rfl]

theorem main_compare (env : Env) (w : World) (args : List Bytes) : bpakMain env w (ascii "compare" :: args) = actionCompare w args := by
  rw [main_action _ _ _ _ (by decide)]
  unfold dispatch
  rw [if_neg (by decide), if_neg (by decide), if_neg (by decide), if_neg (by decide), if_neg (by decide), if_neg (by decide), if_neg (by decide), if_neg (by decide), if_pos rfl]

theorem main_extract (env : Env) (w : World) (args : List Bytes) : bpakMain env w (ascii "extract" :: args) = actionExtract env w args := by
  rw [main_action _ _ _ _ (by decide)]
  unfold dispatch
  rw [if_neg (by decide), if_neg (by decide), if_neg (by decide), if_neg (by decide), if_neg (by decide), if_neg (by decide), if_neg (by decide), if_neg (by decide), if_neg (by decide), if_pos rfl]

theorem main_delete (env : Env) (w : World) (args : List Bytes) : bpakMain env w (ascii "delete" :: args) = actionDelete env w args := by
  rw [main_action _ _ _ _ (by decide)]
  unfold dispatch
  rw [if_neg (by decide), if_neg (by decide), if_neg (by decide), if_neg (by decide), if_neg (by decide), if_neg (by decide), if_neg (by decide), if_neg (by decide), if_neg (by decide), if_neg (by decide), if_pos rfl]

end Bpak
