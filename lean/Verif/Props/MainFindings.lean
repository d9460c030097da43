import Verif.Props.Main
import Verif.Props.MainFrame
/-! C112: what the command line does that its user may not expect. -/
namespace Bpak
variable [LzmaLib]

/-- C112: every action but `compare` and `generate` takes one file: what else is named is ignored. Two lines with the same options whose first operands agree do the same. -/
theorem C112_further_operands (env : Env) (w : World) (action : String) (ha : action ∈ actions) (hn : action ≠ "compare" ∧ action ≠ "generate") (args args' : List Bytes)
    (ho : (getopt (tableOf action) args).1 = (getopt (tableOf action) args').1) (hp : (getopt (tableOf action) args).2.head? = (getopt (tableOf action) args').2.head?) :
    bpakMain env w (ascii action :: args) = bpakMain env w (ascii action :: args') := by
  have go : ∀ {σ : Type} (t : OptTable) (step : Char → Bytes → σ → Option σ) (init : σ) (k : σ → Bytes → Ran), t = tableOf action →
      withFile t step init w args k = withFile t step init w args' k := by
    intro σ t step init k ht
    unfold withFile withOpts
    rw [ht, ho]
    split
    · rfl
    · rcases h1 : (getopt (tableOf action) args).2 with _ | ⟨x, xs⟩ <;> rcases h2 : (getopt (tableOf action) args').2 with _ | ⟨y, ys⟩ <;> rw [h1, h2] at hp
      · cases hp
      · cases hp
      · cases hp; rfl
  simp only [actions, List.mem_cons, List.not_mem_nil, or_false] at ha
  rcases ha with h | h | h | h | h | h | h | h | h | h | h <;> subst h
  · rw [main_create, main_create]; exact go createTable _ _ _ rfl
  · rw [main_add, main_add]; exact go addTable _ _ _ rfl
  · rw [main_show, main_show]; exact go showTable _ _ _ rfl
  · rw [main_sign, main_sign]; exact go signTable _ _ _ rfl
  · rw [main_verify, main_verify]; exact go verifyTable _ _ _ rfl
  · exact absurd rfl hn.2
  · rw [main_transport, main_transport]; exact go transportTable _ _ _ rfl
  · rw [main_set, main_set]; exact go setTable _ _ _ rfl
  · exact absurd rfl hn.1
  · rw [main_extract, main_extract]; exact go extractTable _ _ _ rfl
  · rw [main_delete, main_delete]; exact go deleteTable _ _ _ rfl

/-- C112: `compare` and `generate` take two operands: what else is named is ignored. -/
theorem C112_third_operand (env : Env) (w : World) (action : String) (hn : action = "compare" ∨ action = "generate") (args args' : List Bytes)
    (ho : (getopt (tableOf action) args).1 = (getopt (tableOf action) args').1) (hp : (getopt (tableOf action) args).2.take 2 = (getopt (tableOf action) args').2.take 2) :
    bpakMain env w (ascii action :: args) = bpakMain env w (ascii action :: args') := by
  have ops : ∀ xs ys : List Bytes, xs.take 2 = ys.take 2 → (xs = [] ∧ ys = []) ∨ (∃ x, xs = [x] ∧ ys = [x]) ∨ ∃ x y r r', xs = x :: y :: r ∧ ys = x :: y :: r' := by
    intro xs ys h
    match xs, ys, h with
    | [], [], _ => exact .inl ⟨rfl, rfl⟩
    | [x], [y], h => injection h with h; exact .inr (.inl ⟨x, rfl, by rw [h]⟩)
    | x :: y :: r, x' :: y' :: r', h => injection h with h1 h2; injection h2 with h2; subst h1; subst h2; exact .inr (.inr ⟨x, y, r, r', rfl, rfl⟩)
    | [], _ :: _, h => cases h
    | _ :: _, [], h => cases h
    | [_], _ :: _ :: _, h => injection h with _ h; cases h
    | _ :: _ :: _, [_], h => injection h with _ h; cases h
  rcases hn with rfl | rfl
  · rw [main_compare, main_compare]
    unfold actionCompare withOpts
    rw [show compareTable = tableOf "compare" from rfl, ho]
    split
    · rfl
    · rcases ops _ _ hp with ⟨h1, h2⟩ | ⟨x, h1, h2⟩ | ⟨x, y, r, r', h1, h2⟩ <;> rw [h1, h2]
  · rw [main_generate, main_generate]
    unfold actionGenerate withOpts
    rw [show generateTable = tableOf "generate" from rfl, ho]
    split
    · rfl
    · rcases ops _ _ hp with ⟨h1, h2⟩ | ⟨x, h1, h2⟩ | ⟨x, y, r, r', h1, h2⟩ <;> rw [h1, h2]

/-- C112, a finding: "`bpak verify -k KEY A B` exits with 0 only if A and B verify" is false whenever some package verifies: B is not looked at, it need not even exist. -/
theorem C112_verify_two_files (env : Env) (w : World) (key a b : Bytes) (ha : a.take 1 ≠ [45]) (hb : b.take 1 ≠ [45]) (hv : Accepted env w a (some key) none) :
    (bpakMain env w [ascii "verify", ascii "-k", key, a, b]).status = some 0 := by
  rw [C112_further_operands env w "verify" (by decide) (by decide) [ascii "-k", key, a, b] [ascii "-k", key, a]]
  · exact ((C108_verify_line env w key a ha).1 _ (by simp)).2 hv
  all_goals
    have e1 : ascii "-k" = [45, 107] := by decide
    have l1 : verifyTable.letter 107 = some ('k', true) := by decide
    show _ = _
    unfold getopt
    rw [show tableOf "verify" = verifyTable from rfl, e1, getoptGo_short _ _ _ (by decide) l1, getoptGo_short _ _ _ (by decide) l1, getoptGo_operand _ _ _ ha, getoptGo_operand _ _ _ ha,
      getoptGo_operand _ _ _ hb, getoptGo_nil]
    first | done | rfl

/-- C112, a finding: `-D` and `-p`, which the usage text of `bpak transport` names (src/misc.c:116, 120), are refused, whatever follows; only `--decode` works (here: it gets as far as looking for the file). -/
theorem C112_transport_letters (env : Env) (w : World) (rest : List Bytes) (hh : ¬ HelpFirst (getopt transportTable (ascii "-D" :: rest)).1) (hh' : ¬ HelpFirst (getopt transportTable (ascii "-p" :: rest)).1)
    (file out : Bytes) (hf : file.take 1 ≠ [45]) (hw : w file = none) :
    bpakMain env w (ascii "transport" :: ascii "-D" :: rest) = .exit .failed .nothing w ∧
    bpakMain env w (ascii "transport" :: ascii "-p" :: rest) = .exit .failed .nothing w ∧
    bpakMain env w [ascii "transport", ascii "--decode", file, ascii "-o", out] = .exit .notFound .nothing w := by
  refine ⟨(C109_refused env w _).2.1 "transport" (by decide) ?_ hh, (C109_refused env w _).2.1 "transport" (by decide) ?_ hh', ?_⟩
  · have e : ascii "-D" = [45, 68] := by decide
    rw [e]
    have : transportTable.letter 68 = none := by decide
    show OptEv.bad ∈ (getoptGo transportTable false ([45, 68] :: rest)).1
    unfold getoptGo
    rw [if_neg (by decide), if_neg (by decide), if_pos (by decide)]
    simp only [List.mem_append]
    left
    show OptEv.bad ∈ (cluster transportTable rest.head? [68]).1
    unfold cluster
    rw [this]
    exact List.mem_cons_self ..
  · have e : ascii "-p" = [45, 112] := by decide
    rw [e]
    have : transportTable.letter 112 = none := by decide
    show OptEv.bad ∈ (getoptGo transportTable false ([45, 112] :: rest)).1
    unfold getoptGo
    rw [if_neg (by decide), if_neg (by decide), if_pos (by decide)]
    simp only [List.mem_append]
    left
    show OptEv.bad ∈ (cluster transportTable rest.head? [112]).1
    unfold cluster
    rw [this]
    exact List.mem_cons_self ..
  · have hg : getopt transportTable [ascii "--decode", file, ascii "-o", out] = ([.opt 'D' [], .opt 'o' out], [file]) := by
      unfold getopt
      rw [show ascii "--decode" = 45 :: 45 :: [100, 101, 99, 111, 100, 101] by decide, getoptGo_longFlag _ _ (by decide) (by decide) (show transportTable.name [100, 101, 99, 111, 100, 101] = some (false, 'D') by decide),
        getoptGo_operand _ _ _ hf, show ascii "-o" = [45, 111] by decide, getoptGo_short _ _ _ (by decide) (show transportTable.letter 111 = some ('o', true) by decide), getoptGo_nil]
    rw [main_transport]
    unfold actionTransport withFile withOpts
    rw [hg]
    show transportLine env w _ file = _
    unfold transportLine
    refine (if_neg (by show ¬ 0 + 0 + 1 > 1; decide)).trans ?_
    simp only [hw]

/-- C112, a finding: "exit status 0 of `bpak generate` means that something was generated" is false: for a generator it does not know it prints nothing and exits with 0. -/
theorem C112_generate_unknown (env : Env) (w : World) (g : Bytes) (h : g.take 1 ≠ [45]) (h1 : g ≠ ascii "id") (h2 : g ≠ ascii "keystore") :
    bpakMain env w [ascii "generate", g] = .exit .ok .nothing w := by
  rw [main_generate]
  unfold actionGenerate withOpts
  have : getopt generateTable [g] = ([], [g]) := by unfold getopt; rw [getoptGo_operand _ _ _ h, getoptGo_nil]
  rw [this]
  show (if g = ascii "id" then _ else if g = ascii "keystore" then _ else _) = _
  rw [if_neg h1, if_neg h2]

/-- C112, a finding: after `--` the name of the action is also taken as the first operand: `bpak -- verify -k KEY FILE` verifies the file called `verify`. -/
theorem C112_dashes (env : Env) (w : World) (action : String) (ha : action ∈ actions) (args : List Bytes) :
    bpakMain env w (ascii "--" :: ascii action :: args) = bpakMain env w (ascii action :: ascii action :: args) := by
  have e : (ascii action).take 1 ≠ [45] := by
    simp only [actions, List.mem_cons, List.not_mem_nil, or_false] at ha
    rcases ha with h | h | h | h | h | h | h | h | h | h | h <;> subst h <;> decide
  rw [main_action _ _ _ _ e]
  have : getopt mainTable [ascii "--"] = ([], []) := by decide
  unfold bpakMain
  simp only [this]

/-- C112, a finding: `bpak sign FILE` with neither `-k` nor `-f` hands a null pointer to the key reader, for every package that opens. -/
theorem C112_sign_nothing (env : Env) (w : World) (file f : Bytes) (h : file.take 1 ≠ [45]) (hf : w file = some f) (ho : (pkgOpen env.H true f).1 = .ok) :
    bpakMain env w [ascii "sign", file] = .ub := by
  rw [main_sign]
  unfold actionSign withFile withOpts
  have : getopt signTable [file] = ([], [file]) := by unfold getopt; rw [getoptGo_operand _ _ _ h, getoptGo_nil]
  rw [this]
  show signLine env w {} file = _
  unfold signLine
  simp only [hf, ho, ne_eq, not_true_eq_false, if_false]

end Bpak
