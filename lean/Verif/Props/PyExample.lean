import Verif.Props.PyAdd
import Verif.Props.SessionExample
/-! Concrete programs, for the examples of C89-C94. They are run by the kernel. -/
namespace Bpak

/-- A check that implies `PyAllowed`. -/
def pyOk (p : Pkg) : PyCall Unit → Bool
  | .addFile name (some d) => decide (bpakId name ≠ 0 ∧ p.file.length + d.length < 100000)
  | .addMeta id _ data size => decide (pyMask id ≠ 0 ∧ metaBytesUsed p.hdr + wantedSize data size ≤ 1920)
  | .setKeyId _ => true
  | .setSignature (.bytes b) => decide (b.length ≤ 512)
  | .metaSetRaw id _ _ => decide (id ≠ 0)
  | .metaDelete id _ => decide (id ≠ 0 ∧ (usedMetas p.hdr).length < 32)
  | .partSetId id (.int n) => decide (id ≠ 0 ∧ pyMask n ≠ 0 ∧ ∀ q ∈ usedParts p.hdr, q.id ≠ pyMask n)
  | _ => false

theorem pyOk_allowed (H : HashFn) (S : SigScheme Unit Unit) (p : Pkg) (c : PyCall Unit) (h : pyOk p c = true) : PyAllowed H S p c := by
  unfold pyOk at h
  split at h
  · obtain ⟨h1, h2⟩ := of_decide_eq_true h
    refine ⟨h1, ?_⟩
    intro d e
    cases e
    omega
  · obtain ⟨h1, h2⟩ := of_decide_eq_true h
    exact ⟨h1, Or.inr (Or.inr h2)⟩
  · trivial
  · intro b e
    cases e
    exact of_decide_eq_true h
  · exact (of_decide_eq_true h : _ ≠ _)
  · exact (of_decide_eq_true h : _ ∧ _)
  · obtain ⟨h1, h2, h3⟩ := of_decide_eq_true h
    refine ⟨h1, ?_⟩
    intro n e
    cases e
    exact ⟨h2, fun q hq e => absurd e (h3 q hq)⟩
  · cases h

/-- Running calls that pass the check. -/
def pyRun (S : SigScheme Unit Unit) (p : Pkg) : List (PyCall Unit) → Option (List (Option PyExc) × Pkg)
  | [] => some ([], p)
  | c :: cs => if pyOk p c then match pyStep exHash S p c with
      | none => none
      | some (e, p') => match pyRun S p' cs with
        | none => none
        | some (es, q) => some (e :: es, q)
    else none

theorem pyRun_session (S : SigScheme Unit Unit) (cs : List (PyCall Unit)) : ∀ (s : List (U32 × Bytes)) (t : List (PyCall Unit × Option PyExc)) (p : Pkg) (es : List (Option PyExc)) (q : Pkg),
    PySession exHash S s t p → pyRun S p cs = some (es, q) → PySession exHash S s (t ++ cs.zip es) q := by
  induction cs with
  | nil =>
    intro s t p es q hs hr
    obtain ⟨rfl, rfl⟩ := Prod.mk.inj (Option.some.inj hr)
    simpa using hs
  | cons c cs ih =>
    intro s t p es q hs hr
    rw [pyRun] at hr
    split at hr
    · rename_i h1
      split at hr
      · cases hr
      · rename_i e p' hstep
        split at hr
        · cases hr
        · rename_i es' q' hrest
          obtain ⟨rfl, rfl⟩ := Prod.mk.inj (Option.some.inj hr)
          have := ih s (t ++ [(c, e)]) p' es' q' (.call hs (pyOk_allowed _ S p c h1) hstep) hrest
          simpa using this
    · cases hr

/-- What to look at after a run: exceptions, parts, entries, signature, key id. -/
structure PySeen where
  exc : List (Option PyExc)
  parts : List U32
  ents : List (U32 × U32 × Bytes)
  sig : Out Bytes
  key : Int
  deriving DecidableEq

def pySee (S : SigScheme Unit Unit) (cs : List (PyCall Unit)) : Option PySeen :=
  match pyRun S (pkgOpen exHash true []).2 cs with
  | none => none
  | some (es, p) => some ⟨es, pyParts p, (entries p.hdr).map (fun e => (e.id, e.ref, e.data)), pySignature p, pyKeyId p⟩

theorem pySee_session {S : SigScheme Unit Unit} {cs : List (PyCall Unit)} {x : PySeen} (h : pySee S cs = some x) :
    ∃ p, PySession exHash S [] (cs.zip x.exc) p ∧ pyParts p = x.parts ∧
      entries p.hdr = x.ents.map (fun e => ⟨e.1, e.2.1, e.2.2⟩) ∧ pySignature p = x.sig ∧ pyKeyId p = x.key := by
  unfold pySee at h
  split at h
  · cases h
  · rename_i es p hr
    cases h
    obtain ⟨p0, h1, -⟩ := C56_open_new exHash exHash_len
    rw [h1] at hr
    refine ⟨p, by simpa using pyRun_session S cs [] [] p0 es p (.new h1) hr, rfl, ?_, rfl, rfl⟩
    rw [List.map_map]
    simp [Function.comp_def]

/-- A program: a part, a refused duplicate, metadata and its text, a renamed part, a key id out of range, a signature. -/
def exPy : List (PyCall Unit) := [
  .addFile (ascii "kernel") (some [1, 2, 3]),
  .addFile (ascii "kernel") (some [9]),
  .addMeta 5 0 (some (.bytes [1, 2, 3])) (-1),
  .metaSetRaw 5 0 (.str [97]),
  .partSetId (bpakId (ascii "kernel")) (.int 7),
  .setKeyId (.int (2^32 + 5)),
  .setSignature (.bytes [8, 9]) ]

set_option maxRecDepth 100000 in
theorem exPy_run : pySee exScheme exPy = some ⟨[none, some (.error .exists_), none, none, none, none, none], [7],
    [(5, 0, [97, 0, 0])], .ret [8, 9], 5⟩ := by decide +kernel

/-- Two parts. -/
def exPy2 : List (PyCall Unit) := [.addFile (ascii "a") (some [1]), .addFile (ascii "b") (some [2])]

set_option maxRecDepth 100000 in
theorem exPy2_run : pySee exScheme exPy2 = some ⟨[none, none], [bpakId (ascii "a"), bpakId (ascii "b")], [], .ret [], 0⟩ := by decide +kernel

/-- The session of `exPy`. -/
theorem exPy_session : ∃ t p, PySession exHash exScheme [] t p ∧ t.map (fun x => x.2) = [none, some (.error .exists_), none, none, none, none, none] ∧
    pyFiles exHash [] t = [(7, [1, 2, 3])] ∧ pyParts p = [7] ∧ entries p.hdr = [⟨5, 0, [97, 0, 0]⟩] ∧ pySignature p = .ret [8, 9] ∧ pyKeyId p = 5 := by
  obtain ⟨p, h1, h2, h3, h4, h5⟩ := pySee_session exPy_run
  exact ⟨_, p, h1, rfl, by decide +kernel, h2, h3, h4, h5⟩

/-- A scheme that cannot sign. -/
def failScheme : SigScheme Unit Unit where
  sign := fun _ _ _ _ => .error .signFail
  verify := fun _ _ _ _ => .ok false

set_option maxRecDepth 100000 in
theorem exPy3_run : pySee failScheme [.setSignature (.bytes [8, 9])] = some ⟨[none], [], [], .ret [8, 9], 0⟩ := by decide +kernel

/-- The entry is added with bytes, deleted, and added again with a size only. -/
def exPy4 : List (PyCall Unit) := [.addMeta 6 0 (some (.bytes [1, 2])) (-1), .metaDelete 6 0, .addMeta 8 0 none 2]

set_option maxRecDepth 100000 in
theorem exPy4_run : pySee exScheme exPy4 = some ⟨[none, none, none], [], [(8, 0, [1, 2])], .ret [], 0⟩ := by decide +kernel

/-- "An entry added with only a size is zero" is false: it has the bytes of a deleted one. -/
theorem C93_fresh_entry_is_false : ∃ t p, PySession exHash exScheme [] t p ∧ t.map (fun x => x.2) = [none, none, none] ∧
    t.map (fun x => x.1) = [.addMeta 6 0 (some (.bytes [1, 2])) (-1), .metaDelete 6 0, .addMeta 8 0 none 2] ∧ entries p.hdr = [⟨8, 0, [1, 2]⟩] := by
  obtain ⟨p, h1, h2, h3, h4, h5⟩ := pySee_session exPy4_run
  exact ⟨_, p, h1, rfl, rfl, h3⟩

/-! ### The theorems applied to these programs -/

/-- C89: the program of `exPy`. Its only file can be read back, under its new id. -/
example : ∃ t p, PySession exHash exScheme [] t p ∧ t.length = 7 ∧ pyReadData p 7 = .val [1, 2, 3] ∧ pyReadData p (bpakId (ascii "kernel")) = .raise .keyError := by
  obtain ⟨t, p, h, h1, h2, h3, -⟩ := exPy_session
  obtain ⟨-, -, -, -, -, -, a, b, -⟩ := C89_python_session exHash exHash_len exScheme exScheme_ok [] t p h
  refine ⟨t, p, h, ?_, ?_, ?_⟩
  · have := congrArg List.length h1
    simpa using this
  · exact (a 7 [1, 2, 3] (by rw [h2]; simp)).2
  · refine b _ (by decide +kernel) ?_
    intro d hd
    rw [h2] at hd
    have : bpakId (ascii "kernel") = 7 := (Prod.mk.inj (List.mem_singleton.1 hd)).1
    exact absurd this (by decide +kernel)

/-- C89: and a further call returns. -/
example : ∃ t p e p', PySession exHash exScheme [] t p ∧ pyStep exHash exScheme p (.partDelete 7) = some (e, p') := by
  obtain ⟨t, p, h, h1, h2, h3, h4, -⟩ := exPy_session
  have i := pysession_inv exHash_len exScheme exScheme_ok h
  obtain ⟨us, k, im⟩ := i.hdr.metas
  have hl : (usedMetas p.hdr).length < 32 := by
    rw [entries_inv im] at h4
    have := congrArg List.length h4
    rw [im.used]
    simp at this
    omega
  obtain ⟨e, p', a, -⟩ := C89_call_returns_partial exHash exHash_len exScheme exScheme_ok [] t p h (.partDelete 7) rfl ⟨by decide, Or.inl hl⟩
  exact ⟨t, p, e, p', h, a⟩

/-- C90: a key id of more than 32 bits is cut, a text refused. -/
example : ∃ t p p', PySession exHash exScheme [] t p ∧ pySetKeyId p (.int (2^40 + 9)) = (.val (), p') ∧ pyKeyId p' = 9 ∧ pySetKeyId p (.str [57]) = (.raise .typeError, p) := by
  obtain ⟨t, p, h, -⟩ := exPy_session
  have a := (C90_integer_attributes exHash exHash_len exScheme exScheme_ok [] t p h).1
  obtain ⟨p', e1, e2, -⟩ := a.1 (2^40 + 9) (by decide) (by decide)
  exact ⟨t, p, p', h, e1, e2, a.2.2 _ (fun n hn => by cases hn)⟩

/-- A digest that shows the hash kind. -/
def exHashK : HashFn := fun k _ => List.replicate (if k = 1 then 32 else if k = 2 then 48 else 64) k
theorem exHashK_len : HashLen exHashK := by
  intro k n h b
  have := exHash_len k n h b
  unfold exHash at this
  unfold exHashK
  simpa using this

/-- C90: the hash kind of a new package is set to SHA-384. -/
example : ∃ p p', PySession exHashK exScheme [] [] p ∧ pySetHashKind p (.int (2 : Nat)) = (.val (), p') ∧ ¬ HashStored exHashK p' := by
  obtain ⟨p, h1, -, -, -, -, -, hh⟩ := C56_open_new exHashK exHashK_len
  have hs : PySession (SK := Unit) exHashK exScheme [] [] p := .new h1
  obtain ⟨p', a, b⟩ := C90_hash_kind_is_false exHashK exHashK_len exScheme exScheme_ok [] [] p hs 2 (by decide) (by
    rintro ⟨r, hr⟩
    rw [hh] at hr
    have := congrArg (fun l : Bytes => l.head?) hr
    have e : (some (2 : U8)) = some 1 := this
    exact absurd e (by decide))
  exact ⟨p, p', hs, a, b⟩

/-- C91: the entry of `exPy` is set to "hi" and read as text; longer data is refused. -/
example : ∃ t p p', PySession exHash exScheme [] t p ∧ pyMetaSetRaw p 5 0 (.str [104, 105]) = .ret (.val (), p') ∧ pyMetaString p' 5 0 = .ret (.val [104, 105]) ∧
    pyMetaSetRaw p 5 0 (.bytes [1, 2, 3, 4]) = .ret (.raise .valueError, p) ∧ pyMetaRaw p 5 1 = .ret (.raise .keyError) := by
  obtain ⟨t, p, h, -, -, -, he, -⟩ := exPy_session
  obtain ⟨p', a, b⟩ := C91_text_round_trip exHash exHash_len exScheme exScheme_ok [] t p h [] [] 5 0 (by decide) [97, 0, 0] he [104, 105] (by decide) (by decide)
  have c := C91_raw_data exHash exHash_len exScheme exScheme_ok [] t p h [] [] 5 0 [97, 0, 0] he (.bytes [1, 2, 3, 4]) [1, 2, 3, 4] (Or.inl rfl)
  rw [if_neg (by decide)] at c
  exact ⟨t, p, p', h, a, b, c, (C91_no_entry exHash exHash_len exScheme exScheme_ok [] t p h 5 1 (by decide) (by rw [he]; simp) .none).2.1⟩

/-- C91: the text of the entry as it is. -/
example : ∃ t p, PySession exHash exScheme [] t p ∧ pyMetaString p 5 0 = .ret (.val [97]) := by
  obtain ⟨t, p, h, -, -, -, he, -⟩ := exPy_session
  refine ⟨t, p, h, ?_⟩
  rw [C91_as_string exHash exHash_len exScheme exScheme_ok [] t p h [] [] 5 0 [97, 0, 0] he (Or.inl (by decide))]
  decide

/-- C92: part 7 of `exPy` becomes 9; entry (5, 0) becomes (6, 0) or (5, 3). -/
example : ∃ t p p' p'' p3, PySession exHash exScheme [] t p ∧ pyPartSetId p 7 (.int 9) = (.val (), p') ∧ files p' = [(9, [1, 2, 3])] ∧
    pyMetaSetId p 5 0 (.int 6) = (.val (), p'') ∧ entries p''.hdr = [⟨6, 0, [97, 0, 0]⟩] ∧ pyMetaSetRef p 5 0 (.int 3) = (.val (), p3) := by
  obtain ⟨t, p, h, -, h2, h3, he, -⟩ := exPy_session
  obtain ⟨p', a, -, b, -⟩ := C92_part_id exHash exHash_len exScheme exScheme_ok [] t p h 7 9 9 (by decide) (by rw [h3]; simp) (by decide) (by rw [h3]; simp)
  have i := pysession_inv exHash_len exScheme exScheme_ok h
  rw [i.files, h2] at b
  obtain ⟨p'', c, d, -⟩ := (C92_meta_key exHash exHash_len exScheme exScheme_ok [] t p h [] [] 5 0 [97, 0, 0] he 6 6 (by decide)).1 (by decide) (by rw [he]; simp)
  obtain ⟨p3, e, -⟩ := (C92_meta_key exHash exHash_len exScheme exScheme_ok [] t p h [] [] 5 0 [97, 0, 0] he 3 3 (by decide)).2.1 (by rw [he]; simp)
  exact ⟨t, p, p', p'', p3, h, a, b, c, d, e⟩

/-- C92: the second of two parts gets the id of the first, or 0. -/
example : ∃ t p p' p'', PySession exHash exScheme [] t p ∧ pyPartSetId p (bpakId (ascii "b")) (.int (bpakId (ascii "a")).toNat) = (.val (), p') ∧
    pyParts p' = [bpakId (ascii "a"), bpakId (ascii "a")] ∧ pyPartSetId p (bpakId (ascii "a")) (.int 0) = (.val (), p'') ∧ pyParts p'' = [] := by
  obtain ⟨p, h, h2, -⟩ := pySee_session exPy2_run
  obtain ⟨p', a, b, -⟩ := C92_taken_id_is_false exHash exHash_len exScheme exScheme_ok [] _ p h [] [] [] (bpakId (ascii "a")) (bpakId (ascii "b")) h2
    (bpakId (ascii "a")).toNat (by decide +kernel)
  obtain ⟨p'', c, d⟩ := C92_id_zero_is_false exHash exHash_len exScheme exScheme_ok [] _ p h [] [bpakId (ascii "b")] (bpakId (ascii "a")) h2
  exact ⟨_, p, p', p'', h, a, b, c, d⟩

theorem one_entry_used {p : Pkg} {s : List (U32 × Bytes)} (i : PkgInv exHash p s) {x r : U32} {d : Bytes} (he : entries p.hdr = [⟨x, r, d⟩]) :
    metaBytesUsed p.hdr = (d.length + 7) / 8 * 8 := by
  obtain ⟨us, k, im⟩ := i.hdr.metas
  obtain ⟨pre', m, post', k, im, g, e1, e2, e3, e4, e5, h1, h2⟩ := pyMeta_entry i (pre := []) (post := []) he
  have h1 := List.map_eq_nil_iff.1 h1.symm
  have h2 := List.map_eq_nil_iff.1 h2.symm
  subst h1; subst h2
  unfold metaBytesUsed
  rw [im.used]
  simp [e3]

/-- C93: entries that exist, fit, do not fit, and are far too large. -/
example : ∃ t p p', PySession exHash exScheme [] t p ∧ pyAddMeta p 5 (2^32) (some (.str [])) 0 = .ret (.raise (.error .exists_), p) ∧
    pyAddMeta p 6 0 (some (.str [104, 105])) (-1) = .ret (.val (6, 0), p') ∧ entries p'.hdr = [⟨5, 0, [97, 0, 0]⟩, ⟨6, 0, [104, 105, 0]⟩] ∧
    (∃ p'', pyAddMeta p 6 0 none 1913 = .ret (.raise (.error .noSpaceLeft), p'') ∧ pyMetas p'' = [(5, 0), (6, 0)]) ∧
    pyAddMeta p 6 0 (some (.bytes (List.replicate 65540 1))) (-1) = .ub := by
  obtain ⟨t, p, h, -, -, -, he, -⟩ := exPy_session
  have hu := one_entry_used (pysession_inv exHash_len exScheme exScheme_ok h) he
  have a := (C93_add_meta exHash exHash_len exScheme exScheme_ok [] t p h 5 (2^32) 5 0 (by decide) (by decide) (by decide) (some (.str [])) 0 [0] 0
    (Or.inr ⟨_, rfl, Or.inr ⟨[], rfl, by simp, rfl⟩, by simp⟩)).1 (by rw [he]; simp)
  obtain ⟨p', b, c, -⟩ := (C93_add_meta exHash exHash_len exScheme exScheme_ok [] t p h 6 0 6 0 (by decide) (by decide) (by decide) (some (.str [104, 105])) (-1) [104, 105, 0] 3
    (Or.inr ⟨_, rfl, Or.inr ⟨[104, 105], rfl, by simp, rfl⟩, by simp⟩)).2.2 (by rw [he]; simp) (by rw [he]; decide) (by rw [hu]; decide)
  obtain ⟨p'', d, -, -, e, -⟩ := C93_refused_is_false exHash exHash_len exScheme exScheme_ok [] t p h 6 0 (by decide) (by rw [he]; decide) (by rw [he]; decide) none 1913 [] 1913
    (Or.inl ⟨rfl, by decide, rfl, rfl⟩) (by decide) (by rw [hu]; decide)
  refine ⟨t, p, p', h, a, b, ?_, ⟨p'', d, ?_⟩, ?_⟩
  · rw [c, he]
    have : (((p.hdr.metadata.drop (metaBytesUsed p.hdr)).take 3).drop [(104 : U8), 105, 0].length) = [] := by
      rw [List.drop_of_length_le]
      simp
      omega
    rw [this]
    rfl
  · rw [e, (C89_python_session exHash exHash_len exScheme exScheme_ok [] t p h).2.2.2.2.2.2.2.2.1, he]
    rfl
  · refine C93_large_is_false exHash exHash_len exScheme exScheme_ok [] t p h 6 0 (by decide) (by rw [he]; decide) (by rw [he]; decide) _ ?_ ?_
    · rw [List.length_replicate]; decide
    · rw [List.length_replicate, hu]; decide

/-- C94: another signature, none, and one that cannot be made. -/
example : (∃ t p p' p'', PySession exHash exScheme [] t p ∧ pySetSignature p (.bytes [1, 2, 3]) = .ret (.val (), p') ∧ pySignature p' = .ret [1, 2, 3] ∧
      pySetSignature p .none = .ret (.val (), p'') ∧ pySignature p'' = .ret []) ∧
    ∃ t p p', PySession exHash failScheme [] t p ∧ pySignature p = .ret [8, 9] ∧ pySign exHash failScheme [] (.ok ()) p = (.raise (.error .signFail), p') ∧
      pySignature p' = .ret [0, 0] := by
  refine ⟨?_, ?_⟩
  · obtain ⟨t, p, h, -⟩ := exPy_session
    obtain ⟨p', a, b, -⟩ := C94_signature exHash exHash_len exScheme exScheme_ok [] t p h (.bytes [1, 2, 3]) [1, 2, 3] (Or.inl rfl) (by decide)
    obtain ⟨p'', c, d, -⟩ := C94_signature exHash exHash_len exScheme exScheme_ok [] t p h .none [] (Or.inr ⟨rfl, rfl⟩) (by decide)
    exact ⟨t, p, p', p'', h, a, b, c, d⟩
  · obtain ⟨p, h, -, -, hs, -⟩ := pySee_session exPy3_run
    have hf : ∀ sk rnd k d, failScheme.sign sk rnd k d ≠ .error .ok := by intro _ _ _ _ h; cases h
    have i := pysession_inv exHash_len failScheme hf h
    have hp : ∃ p', pySign exHash failScheme [] (.ok ()) p = (.raise (.error .signFail), p') := by
      unfold pySign
      rw [pkgSign_eq exHash exHash_len failScheme [] _ p i.good i.small]
      exact ⟨_, rfl⟩
    obtain ⟨p', hp⟩ := hp
    exact ⟨_, p, p', h, hs, hp, (C94_failed_sign_is_false exHash exHash_len failScheme hf [] _ p h () [] _ p' hp [8, 9] hs).2.1⟩

/-- C94: a length of 600 in the header of that package. -/
example : ∃ f q, pkgOpen exHash false f = (.ok, q) ∧ pySignature q = .ub := by
  obtain ⟨t, p, h, -⟩ := exPy_session
  obtain ⟨f, q, -, -, a, b⟩ := C94_signature_length_is_false exHash exHash_len exScheme exScheme_ok [] t p h 600 (by decide)
  exact ⟨f, q, a, b⟩

end Bpak
