import Verif.Proof.Resource

/-!
# The library, function by function
-/

namespace Bpak.Res

open Bpak.Spec

variable {over : Bool} {l : Luck} {L : List (Nat × Kind)}

theorem fits_same (k : Kind) : Fits over k k := Or.inl rfl

theorem fits_heap_lib : Fits false .heap .lib := by decide

theorem fits_lib_heap : Fits false .lib .heap := by decide

/-- A piece that keeps what is held: built from calls on streams that are held. -/
macro "keeps" : tactic => `(tactic| repeat (first
  | exact Keeps.ask
  | exact Keeps.pure
  | exact Keeps.steps_nil
  | exact Keeps.io (by mem)
  | assumption
  | refine Keeps.useThen (by mem) ?_
  | refine Keeps.rounds ?_ _
  | refine Keeps.steps_cons ?_ ?_))

theorem updateHash_keeps {n fp : Nat} {k : Kind} (h : (fp, k) ∈ L) : Keeps over l L (updateHash n (.to fp)) := by
  unfold updateHash; keeps

theorem writeHeader_keeps {fp : Nat} {k : Kind} (h : (fp, k) ∈ L) : Keeps over l L (writeHeader (.to fp)) := by
  unfold writeHeader; keeps

/-- `keeps`, with the functions of the library that only use the stream. -/
macro "keepsLib" : tactic => `(tactic| repeat (first
  | exact Keeps.ask
  | exact Keeps.pure
  | exact Keeps.steps_nil
  | exact Keeps.io (by mem)
  | exact updateHash_keeps (by mem)
  | exact writeHeader_keeps (by mem)
  | assumption
  | refine Keeps.useThen (by mem) ?_
  | refine Keeps.rounds ?_ _
  | refine Keeps.steps_cons ?_ ?_))

theorem openedHeader_keeps {n fp : Nat} {k : Kind} (h : (fp, k) ∈ L) : Keeps over l L (openedHeader n (.to fp)) := by
  unfold openedHeader
  refine Runs.use h (Runs.ask fun b => ?_)
  cases b <;> dsimp only <;> keepsLib

/-- What opening a package leaves: the stream, or nothing. -/
theorem pkgOpen_runs (n : Nat) : Runs over l L (pkgOpen n) fun r L' =>
    (r.1 = false ∧ L' = L) ∨ ∃ i, r = (true, .to i) ∧ (∀ x ∈ L, x.1 ≠ i) ∧ L' = (i, .file) :: L := by
  unfold pkgOpen
  refine Runs.ask fun b => ?_
  cases b with
  | false => exact Runs.pure (Or.inl ⟨rfl, rfl⟩)
  | true =>
    refine Runs.take (Runs.pure (Or.inl ⟨rfl, rfl⟩)) fun i hi => ?_
    dsimp only
    refine Keeps.then (m := steps _) ?_ fun b => ?_
    · refine Keeps.steps ?_
      intro m hm
      simp only [List.mem_cons, List.not_mem_nil, or_false] at hm
      rcases hm with rfl | rfl
      · exact Keeps.io (List.mem_cons_self)
      · exact openedHeader_keeps (List.mem_cons_self)
    cases b with
    | true => exact Runs.pure (Or.inr ⟨i, rfl, hi, rfl⟩)
    | false => exact Runs.give (fits_same _) (Runs.pure (Or.inl ⟨rfl, rfl⟩))

/-- Opening a package, and going on. -/
theorem pkgOpen_then {β : Type} {n : Nat} {f : Bool × Ptr → M β} {Q : β → List (Nat × Kind) → Prop}
    (h0 : ∀ p, Runs over l L (f (false, p)) Q)
    (h1 : ∀ i, (∀ x ∈ L, x.1 ≠ i) → Runs over l ((i, .file) :: L) (f (true, .to i)) Q) :
    Runs over l L (pkgOpen n >>= f) Q := by
  refine Runs.bind (pkgOpen_runs n) fun r L' hr => ?_
  rcases hr with ⟨h, rfl⟩ | ⟨i, rfl, hi, rfl⟩
  · obtain ⟨b, p⟩ := r
    cases h
    exact h0 p
  · exact h1 i hi

/-- Closing the package that is open, and going on. -/
theorem pkgClose_then {β : Type} {i : Nat} {f : Ptr → M β} {Q : β → List (Nat × Kind) → Prop}
    (h : Runs over l L (f .null) Q) : Runs over l ((i, .file) :: L) (pkgClose (.to i) >>= f) Q :=
  Runs.assoc (Runs.give (fits_same _) (Runs.pure_bind h))

theorem extractFile_keeps {n fp : Nat} {f : Bool} {k : Kind} (h : (fp, k) ∈ L) :
    Keeps over l L (extractFile n f (.to fp)) := by
  unfold extractFile
  refine Keeps.then (by keepsLib) fun b => ?_
  cases b with
  | false => cases f <;> exact Keeps.pure
  | true =>
    cases f with
    | false => dsimp only; keepsLib
    | true =>
      dsimp only
      refine Runs.take Keeps.pure fun o _ => ?_
      dsimp only
      refine Keeps.then (by keepsLib) fun b => ?_
      exact Runs.give (fits_same _) Keeps.pure

theorem deletePart_keeps {n fp : Nat} {k : Kind} (h : (fp, k) ∈ L) : Keeps over l L (deletePart n (.to fp)) := by
  unfold deletePart; keepsLib

theorem deleteAll_keeps {n fp : Nat} {k : Kind} (h : (fp, k) ∈ L) : Keeps over l L (deleteAll n (.to fp)) := by
  unfold deleteAll; keepsLib

theorem rawSignature_keeps {fp : Nat} {k : Kind} (h : (fp, k) ∈ L) : Keeps over l L (rawSignature (.to fp)) :=
  writeHeader_keeps h

theorem partHash_keeps {n fp : Nat} {k : Kind} (h : (fp, k) ∈ L) : Keeps over l L (partHash n (.to fp)) := by
  unfold partHash; keepsLib

theorem addFile_keeps {n fp : Nat} {k : Kind} (h : (fp, k) ∈ L) : Keeps over l L (addFile n (.to fp)) := by
  unfold addFile
  refine Keeps.then (by keepsLib) fun b => ?_
  cases b with
  | false => exact Keeps.pure
  | true =>
    dsimp only
    refine Runs.take Keeps.pure fun i _ => ?_
    dsimp only
    refine Keeps.then (by keepsLib) fun b => ?_
    exact Runs.give (fits_same _) Keeps.pure

theorem addFileTree_keeps {n fp : Nat} {k : Kind} (hm : Enough l) (h : (fp, k) ∈ L) :
    Keeps over l L (addFileTree n (.to fp)) := by
  unfold addFileTree
  refine Keeps.then (Keeps.steps ?_) fun b => ?_
  · intro m hm
    simp only [List.mem_cons, List.not_mem_nil, or_false] at hm
    rcases hm with rfl | rfl | rfl
    · exact Keeps.ask
    · exact addFile_keeps h
    · exact Keeps.ask
  cases b with
  | false => exact Keeps.pure
  | true =>
    dsimp only
    refine Runs.alloc (Or.inl hm) fun t _ => ?_
    refine Runs.use List.mem_cons_self ?_
    refine Runs.take ?_ fun i _ => ?_
    · exact Runs.giveMem (fits_same _) Keeps.pure
    dsimp only
    refine Keeps.then (by keepsLib) fun b => ?_
    exact Runs.give (fits_same _) (Runs.giveMem (fits_same _) Keeps.pure)

/-! ## The suffix sort -/

theorem Keeps.use_table {α : Type} {p : Ptr} {m : M α} (h : p = .null ∨ ∃ n k, p = .to n ∧ (n, k) ∈ L)
    (hm : Keeps over l L m) : Keeps over l L (useTable p >>= fun _ => m) := by
  rcases h with rfl | ⟨n, k, rfl, h⟩
  · exact hm
  · exact Runs.use h hm

/-- What `sais_main` holds of its own, for its flags 1, 2 and 4. -/
def Tables (L : List (Nat × Kind)) : Bool → Bool → Bool → Ptr → Ptr → List (Nat × Kind) → Prop
  | false, false, true, c, b, L' => ∃ i, c = .to i ∧ b = .to i ∧ L' = (i, .lib) :: L
  | true, false, false, c, b, L' => ∃ i, c = .to i ∧ b = .null ∧ L' = (i, .lib) :: L
  | true, true, false, c, b, L' => ∃ i j, c = .to i ∧ b = .to j ∧ L' = (j, .lib) :: (i, .lib) :: L
  | false, true, false, c, b, L' => ∃ j, c = .null ∧ b = .to j ∧ L' = (j, .lib) :: L
  | false, false, false, c, b, L' => c = .null ∧ b = .null ∧ L' = L
  | _, _, _, _, _, _ => False

/-- The flags 1, 2 and 4. -/
structure Flags (fl : Nat) (b1 b2 b4 : Bool) : Prop where
  f1 : flag fl 1 = b1
  f2 : flag fl 2 = b2
  f4 : flag fl 4 = b4
  f5 : flag fl 5 = (b1 || b4)

theorem Tables.uses {b1 b2 b4 : Bool} {c b : Ptr} {L' : List (Nat × Kind)} (h : Tables L b1 b2 b4 c b L') :
    (c = .null ∨ ∃ n k, c = .to n ∧ (n, k) ∈ L') ∧ (b = .null ∨ ∃ n k, b = .to n ∧ (n, k) ∈ L') := by
  cases b1 <;> cases b2 <;> cases b4 <;> simp only [Tables] at h
  · exact ⟨Or.inl h.1, Or.inl h.2.1⟩
  · obtain ⟨i, rfl, rfl, rfl⟩ := h
    exact ⟨Or.inr ⟨i, .lib, rfl, List.mem_cons_self⟩, Or.inr ⟨i, .lib, rfl, List.mem_cons_self⟩⟩
  · obtain ⟨i, rfl, rfl, rfl⟩ := h
    exact ⟨Or.inl rfl, Or.inr ⟨i, .lib, rfl, List.mem_cons_self⟩⟩
  · obtain ⟨i, rfl, rfl, rfl⟩ := h
    exact ⟨Or.inr ⟨i, .lib, rfl, List.mem_cons_self⟩, Or.inl rfl⟩
  · obtain ⟨i, j, rfl, rfl, rfl⟩ := h
    exact ⟨Or.inr ⟨i, .lib, rfl, List.mem_cons_of_mem _ List.mem_cons_self⟩, Or.inr ⟨j, .lib, rfl, List.mem_cons_self⟩⟩

/-- Giving the tables back, all of them. -/
theorem Tables.free {fl : Nat} {b1 b2 b4 : Bool} {c b : Ptr} {L' : List (Nat × Kind)} {a : Bool} (hf : Flags fl b1 b2 b4)
    (h : Tables L b1 b2 b4 c b L') :
    Runs over l L' (do giveIf (flag fl 5) c; giveIf (flag fl 2) b; pure a : M Bool) fun _ L'' => L'' = L := by
  rw [hf.f5, hf.f2]
  cases b1 <;> cases b2 <;> cases b4 <;> simp only [Tables] at h
  · obtain ⟨rfl, rfl, rfl⟩ := h
    exact Runs.pure rfl
  · obtain ⟨i, rfl, rfl, rfl⟩ := h
    exact Runs.giveMem (fits_same _) (Runs.pure rfl)
  · obtain ⟨i, rfl, rfl, rfl⟩ := h
    exact Runs.giveMem (f := fun _ => Pure.pure a) (fits_same _) (Runs.pure rfl)
  · obtain ⟨i, rfl, rfl, rfl⟩ := h
    exact Runs.giveMem (fits_same _) (Runs.pure rfl)
  · obtain ⟨i, j, rfl, rfl, rfl⟩ := h
    exact Runs.giveMem_second (fits_same _) (Runs.giveMem (f := fun _ => Pure.pure a) (fits_same _) (Runs.pure rfl))

theorem saisInduce_runs {fl : Nat} {b1 b2 b4 : Bool} {c b : Ptr} {L' : List (Nat × Kind)} (hf : Flags fl b1 b2 b4)
    (h : Tables L b1 b2 b4 c b L') : Runs over l L' (saisInduce fl c b) fun _ L'' => L'' = L := by
  unfold saisInduce
  have hu := h.uses
  refine Runs.bind (m := useTable c) (R := fun _ L'' => L'' = L') ?_ fun _ L1 h1 => ?_
  · exact Keeps.use_table (m := (Pure.pure () : M Unit)) hu.1 Keeps.pure
  subst h1
  refine Runs.bind (m := useTable b) (R := fun _ L'' => L'' = L1) ?_ fun _ L2 h2 => ?_
  · exact Keeps.use_table (m := (Pure.pure () : M Unit)) hu.2 Keeps.pure
  subst h2
  exact h.free hf

theorem saisTables_runs : Runs over l L saisTables fun t L' =>
    (t = none ∧ L' = L) ∨ ∃ fl c b b1 b2 b4, t = some (fl, c, b) ∧ fl ∈ [1, 3, 12, 0, 8, 2] ∧ Flags fl b1 b2 b4 ∧
      Tables L b1 b2 b4 c b L' := by
  have F : ∀ {fl : Nat} {b1 b2 b4 : Bool}, flag fl 1 = b1 ∧ flag fl 2 = b2 ∧ flag fl 4 = b4 ∧ flag fl 5 = (b1 || b4) →
      Flags fl b1 b2 b4 := fun h => ⟨h.1, h.2.1, h.2.2.1, h.2.2.2⟩
  unfold saisTables
  refine Runs.ask fun b => ?_
  cases b with
  | true =>
    refine Runs.alloc (Or.inr (Runs.pure (Or.inl ⟨rfl, rfl⟩))) fun i _ => ?_
    refine Runs.ask fun b => ?_
    cases b with
    | true => exact Runs.pure (Or.inr ⟨1, _, _, true, false, false, rfl, by decide, F (by decide), i, rfl, rfl, rfl⟩)
    | false =>
      refine Runs.alloc (Or.inr ?_) fun j _ => ?_
      · exact Runs.giveMem (fits_same _) (Runs.pure (Or.inl ⟨rfl, rfl⟩))
      · exact Runs.pure (Or.inr ⟨3, _, _, true, true, false, rfl, by decide, F (by decide), i, j, rfl, rfl, rfl⟩)
  | false =>
    refine Runs.ask fun b => ?_
    cases b with
    | false =>
      refine Runs.alloc (Or.inr (Runs.pure (Or.inl ⟨rfl, rfl⟩))) fun i _ => ?_
      exact Runs.pure (Or.inr ⟨12, _, _, false, false, true, rfl, by decide, F (by decide), i, rfl, rfl, rfl⟩)
    | true =>
      refine Runs.ask fun b => ?_
      cases b with
      | true => exact Runs.pure (Or.inr ⟨0, _, _, false, false, false, rfl, by decide, F (by decide), rfl, rfl, rfl⟩)
      | false =>
        refine Runs.ask fun b => ?_
        cases b with
        | false => exact Runs.pure (Or.inr ⟨8, _, _, false, false, false, rfl, by decide, F (by decide), rfl, rfl, rfl⟩)
        | true =>
          refine Runs.alloc (Or.inr (Runs.pure (Or.inl ⟨rfl, rfl⟩))) fun j _ => ?_
          exact Runs.pure (Or.inr ⟨2, _, _, false, true, false, rfl, by decide, F (by decide), j, rfl, rfl, rfl⟩)

theorem saisSortFlags_runs {fl : Nat} (h : fl ∈ [1, 3, 12, 0, 8, 2]) : Runs over l L (saisSortFlags fl) fun fl' L' =>
    L' = L ∧ fl' ∈ [1, 3, 12, 0, 8, 2, 33, 17, 35, 19, 32] ∧ flag fl' 1 = flag fl 1 ∧ flag fl' 2 = flag fl 2 ∧
      flag fl' 4 = flag fl 4 ∧ flag fl' 5 = flag fl 5 := by
  unfold saisSortFlags
  refine Runs.ask fun a => Runs.ask fun b => ?_
  simp only [List.mem_cons, List.not_mem_nil, or_false] at h
  rcases h with rfl | rfl | rfl | rfl | rfl | rfl <;> cases a <;> cases b <;> exact Runs.pure (by refine ⟨rfl, ?_⟩; decide)

theorem saisSort_runs {fl : Nat} {b1 b2 b4 : Bool} {c b : Ptr} {L' : List (Nat × Kind)} (hf : Flags fl b1 b2 b4)
    (h : Tables L b1 b2 b4 c b L') : Runs over l L' (saisSort fl c b) fun ok L'' => L'' = if ok then L' else L := by
  unfold saisSort
  have hu := h.uses
  refine Keeps.then (m := useTable c) (Keeps.use_table (m := (Pure.pure () : M Unit)) hu.1 Keeps.pure) fun _ => ?_
  refine Keeps.then (m := useTable b) (Keeps.use_table (m := (Pure.pure () : M Unit)) hu.2 Keeps.pure) fun _ => ?_
  refine Runs.ask fun s => ?_
  cases s with
  | false => exact Runs.pure rfl
  | true =>
    dsimp only
    generalize flag fl 16 = f16
    cases f16 with
    | false =>
      refine Keeps.then (m := useTable c) (Keeps.use_table (m := (Pure.pure () : M Unit)) hu.1 Keeps.pure) fun _ => ?_
      refine Keeps.then (m := useTable b) (Keeps.use_table (m := (Pure.pure () : M Unit)) hu.2 Keeps.pure) fun _ => ?_
      exact Runs.pure rfl
    | true =>
      refine Runs.alloc (Or.inr ?_) fun d _ => ?_
      · exact (h.free (a := false) hf).bind (m := (do giveIf (flag fl 5) c; giveIf (flag fl 2) b; Pure.pure false : M Bool))
          (f := fun _ => Pure.pure false) fun _ L1 h1 => Runs.pure h1
      · have hu' : (c = .null ∨ ∃ n k, c = .to n ∧ (n, k) ∈ (d, Kind.lib) :: L') ∧
            (b = .null ∨ ∃ n k, b = .to n ∧ (n, k) ∈ (d, Kind.lib) :: L') :=
          ⟨hu.1.imp_right fun ⟨n, k, h1, h2⟩ => ⟨n, k, h1, List.mem_cons_of_mem _ h2⟩,
            hu.2.imp_right fun ⟨n, k, h1, h2⟩ => ⟨n, k, h1, List.mem_cons_of_mem _ h2⟩⟩
        refine Keeps.then (m := useTable c) (Keeps.use_table (m := (Pure.pure () : M Unit)) hu'.1 Keeps.pure) fun _ => ?_
        refine Keeps.then (m := useTable b) (Keeps.use_table (m := (Pure.pure () : M Unit)) hu'.2 Keeps.pure) fun _ => ?_
        exact Runs.use List.mem_cons_self (Runs.giveMem (fits_same _) (Runs.pure rfl))

theorem saisAgain_runs {fl : Nat} {b1 b2 b4 : Bool} {c b : Ptr} {L1 L' : List (Nat × Kind)} (hf : Flags fl b1 b2 b4)
    (h : Tables L b1 b2 b4 c b L') (h1 : L1 = match (c, b1) with | (.to i, true) => (i, .lib) :: L | _ => L) :
    Runs over l L1 (saisAgain fl c) fun _ L'' => L'' = L := by
  unfold saisAgain
  rw [hf.f4, hf.f2, hf.f1]
  cases b1 <;> cases b2 <;> cases b4 <;> simp only [Tables] at h
  · obtain ⟨rfl, rfl, rfl⟩ := h
    subst h1
    exact saisInduce_runs hf ⟨rfl, rfl, rfl⟩
  · obtain ⟨i, rfl, rfl, rfl⟩ := h
    subst h1
    refine Runs.alloc (Or.inr (Runs.pure rfl)) fun i _ => ?_
    exact saisInduce_runs hf ⟨i, rfl, rfl, rfl⟩
  · obtain ⟨i, rfl, rfl, rfl⟩ := h
    subst h1
    refine Runs.alloc (Or.inr (Runs.pure rfl)) fun i _ => ?_
    exact saisInduce_runs hf ⟨i, rfl, rfl, rfl⟩
  · obtain ⟨i, rfl, rfl, rfl⟩ := h
    subst h1
    exact saisInduce_runs hf ⟨i, rfl, rfl, rfl⟩
  · obtain ⟨i, j, rfl, rfl, rfl⟩ := h
    subst h1
    refine Runs.alloc (Or.inr ?_) fun j _ => ?_
    · exact Runs.giveMem (fits_same _) (Runs.pure rfl)
    · exact saisInduce_runs hf ⟨i, j, rfl, rfl, rfl⟩

theorem flags_plus {fl : Nat} {b1 b2 b4 : Bool} (room : Bool) (hm : fl ∈ [1, 3, 12, 0, 8, 2, 33, 17, 35, 19, 32])
    (hf : Flags fl b1 b2 b4) : Flags (match flag fl 13 || room with | true => fl | false => fl + 8) b1 b2 b4 := by
  simp only [List.mem_cons, List.not_mem_nil, or_false] at hm
  have h1 := hf.f1; have h2 := hf.f2; have h4 := hf.f4; have h5 := hf.f5
  subst h1 h2 h4
  rcases hm with rfl | rfl | rfl | rfl | rfl | rfl | rfl | rfl | rfl | rfl | rfl <;> cases room <;>
    exact ⟨by decide, by decide, by decide, by decide⟩

theorem saisReduce_runs {fl : Nat} {b1 b2 b4 : Bool} {c b : Ptr} {L' : List (Nat × Kind)} {sub : M Bool}
    (hsub : ∀ L1, Keeps over l L1 sub) (hm : fl ∈ [1, 3, 12, 0, 8, 2, 33, 17, 35, 19, 32]) (hf : Flags fl b1 b2 b4)
    (h : Tables L b1 b2 b4 c b L') : Runs over l L' (saisReduce sub fl c b) fun _ L'' => L'' = L := by
  unfold saisReduce
  refine Runs.ask fun u => ?_
  cases u with
  | true => exact saisInduce_runs hf h
  | false =>
    dsimp only
    have step : ∀ L1, (L1 = match (c, b1) with | (.to i, true) => (i, .lib) :: L | _ => L) →
        Runs over l L1 (do
          let room ← ask
          let ok ← sub
          match ok with
          | false => do
            giveIf (flag fl 1) c
            Pure.pure false
          | true => saisAgain (match flag fl 13 || room with | true => fl | false => fl + 8) c : M Bool)
          fun _ L'' => L'' = L := by
      intro L1 h1
      refine Runs.ask fun room => Keeps.then (hsub L1) fun ok => ?_
      cases ok with
      | true => exact saisAgain_runs (flags_plus room hm hf) h h1
      | false =>
        dsimp only
        rw [hf.f1]
        cases b1 with
        | false => subst h1; cases c <;> exact Runs.pure rfl
        | true =>
          cases c with
          | null => cases b2 <;> cases b4 <;> simp [Tables] at h
          | to i => subst h1; exact Runs.giveMem (fits_same _) (Runs.pure rfl)
    rw [hf.f4, hf.f2]
    cases b1 <;> cases b2 <;> cases b4 <;> simp only [Tables] at h
    · obtain ⟨rfl, rfl, rfl⟩ := h
      exact step _ rfl
    · obtain ⟨i, rfl, rfl, rfl⟩ := h
      exact Runs.giveMem (fits_same _) (step _ rfl)
    · obtain ⟨i, rfl, rfl, rfl⟩ := h
      refine Runs.pure_bind ?_
      exact Runs.giveMem (fits_same _) (step _ rfl)
    · obtain ⟨i, rfl, rfl, rfl⟩ := h
      exact step _ rfl
    · obtain ⟨i, j, rfl, rfl, rfl⟩ := h
      refine Runs.pure_bind ?_
      exact Runs.giveMem (fits_same _) (step _ rfl)

/-- The suffix sort gives back what it allocates, also when an allocation fails at any level. -/
theorem sais_keeps (d : Nat) : ∀ L, Keeps over l L (sais d) := by
  induction d with
  | zero => exact fun L => Keeps.ask
  | succ d ih =>
    intro L
    refine Runs.ask fun b => ?_
    cases b with
    | false => exact Keeps.ask
    | true =>
      dsimp only
      unfold saisMain
      refine Runs.bind saisTables_runs fun t L1 h1 => ?_
      rcases h1 with ⟨rfl, rfl⟩ | ⟨fl, c, b, b1, b2, b4, rfl, hm, hf, h⟩
      · exact Keeps.pure
      · dsimp only
        refine Runs.bind (saisSortFlags_runs hm) fun fl' L2 h2 => ?_
        obtain ⟨rfl, hm', e1, e2, e4, e5⟩ := h2
        have hf' : Flags fl' b1 b2 b4 := ⟨e1.trans hf.f1, e2.trans hf.f2, e4.trans hf.f4, e5.trans hf.f5⟩
        refine Runs.bind (saisSort_runs hf' h) fun ok L3 h3 => ?_
        cases ok with
        | false => exact Runs.pure h3
        | true =>
          obtain rfl : L3 = L2 := h3
          exact saisReduce_runs ih hm' hf' h

/-! ## Keys -/

/-- What a function that loads a key leaves: nothing, or the block with the key, and possibly key contexts. -/
def KeyLoaded (L : List (Nat × Kind)) (r : Bool × Ptr) (L' : List (Nat × Kind)) : Prop :=
  (r = (false, .null) ∧ L' = L) ∨ ∃ i, r = (true, .to i) ∧ (∀ x ∈ L, x.1 ≠ i) ∧ L' = (i, .lib) :: L

theorem loadPublicKey_runs (hm : Enough l) : Runs over l L loadPublicKey fun r L' =>
    (r = (false, .null) ∧ L' = L) ∨ ∃ c i, r = (true, .to i) ∧ L' = (i, .lib) :: (c, .pk) :: L := by
  unfold loadPublicKey
  refine Runs.start fun c _ => Runs.ask fun b => ?_
  cases b with
  | false => exact Runs.give (fits_same _) (Runs.pure (Or.inl ⟨rfl, rfl⟩))
  | true =>
    dsimp only
    refine Runs.alloc (Or.inl hm) fun i _ => ?_
    refine Runs.use List.mem_cons_self (Runs.ask fun b => ?_)
    cases b with
    | true => exact Runs.use List.mem_cons_self (Runs.pure (Or.inr ⟨c, i, rfl, rfl⟩))
    | false =>
      exact Runs.giveMem (fits_same _) (Runs.give (fits_same _) (Runs.pure (Or.inl ⟨rfl, rfl⟩)))

theorem loadPrivateKey_runs : Runs over l L loadPrivateKey (KeyLoaded L) := by
  unfold loadPrivateKey
  refine Runs.start fun c hc => Keeps.then (by keepsLib) fun b => ?_
  cases b with
  | false => exact Runs.give (fits_same _) (Runs.pure (Or.inl ⟨rfl, rfl⟩))
  | true =>
    dsimp only
    refine Runs.alloc (Or.inr ?_) fun i hi => ?_
    · exact Runs.give (fits_same _) (Runs.pure (Or.inl ⟨rfl, rfl⟩))
    dsimp only
    refine Runs.use List.mem_cons_self (Runs.ask fun b => ?_)
    cases b with
    | true =>
      refine Runs.use List.mem_cons_self (Runs.give_second (fits_same _) (Runs.pure (Or.inr ⟨i, rfl, ?_, rfl⟩)))
      exact fun x hx => hi x (List.mem_cons_of_mem _ hx)
    | false =>
      exact Runs.giveMem (fits_same _) (Runs.give (fits_same _) (Runs.pure (Or.inl ⟨rfl, rfl⟩)))

theorem parsePublicKey_runs : Runs over l L parsePublicKey (KeyLoaded L) := by
  unfold parsePublicKey
  refine Runs.start fun c hc => Keeps.then (by keepsLib) fun b => ?_
  cases b with
  | false => exact Runs.give (fits_same _) (Runs.pure (Or.inl ⟨rfl, rfl⟩))
  | true =>
    dsimp only
    refine Runs.alloc (Or.inr ?_) fun i hi => ?_
    · exact Runs.give (fits_same _) (Runs.pure (Or.inl ⟨rfl, rfl⟩))
    dsimp only
    refine Runs.use List.mem_cons_self (Runs.give_second (fits_same _) (Runs.pure (Or.inr ⟨i, rfl, ?_, rfl⟩)))
    exact fun x hx => hi x (List.mem_cons_of_mem _ hx)

theorem withKey_keeps {key : Nat} {k : Kind} (h : (key, k) ∈ L) : Keeps over l L (withKey (.to key)) := by
  unfold withKey
  refine Runs.start fun c _ => Runs.use (List.mem_cons_of_mem _ h) (Runs.ask fun b => ?_)
  exact Runs.give (fits_same _) Keeps.pure

theorem keystoreLoad_runs (n : Nat) : Runs over l L (keystoreLoad n) (KeyLoaded L) := by
  unfold keystoreLoad
  refine pkgOpen_then (fun p => Runs.pure (Or.inl ⟨rfl, rfl⟩)) fun fp hfp => ?_
  dsimp only
  refine Keeps.then (by keepsLib) fun b => ?_
  cases b with
  | false => exact pkgClose_then (Runs.pure (Or.inl ⟨rfl, rfl⟩))
  | true =>
    dsimp only
    refine Runs.bind parsePublicKey_runs fun r L' hr => ?_
    rcases hr with ⟨rfl, rfl⟩ | ⟨i, rfl, hi, rfl⟩
    · exact pkgClose_then (Runs.pure (Or.inl ⟨rfl, rfl⟩))
    · dsimp only
      refine Runs.use List.mem_cons_self ?_
      refine Runs.assoc (Runs.give_second (fits_same _) (Runs.pure_bind (Runs.pure (Or.inr ⟨i, rfl, ?_, rfl⟩))))
      exact fun x hx => hi x (List.mem_cons_of_mem _ hx)

theorem pkgSign_keeps {n fp : Nat} {k : Kind} (h : (fp, k) ∈ L) : Keeps over l L (pkgSign n (.to fp)) := by
  unfold pkgSign
  refine Keeps.then (by keepsLib) fun b => ?_
  cases b with
  | false => exact Keeps.pure
  | true =>
    dsimp only
    refine Runs.bind loadPrivateKey_runs fun r L' hr => ?_
    rcases hr with ⟨rfl, rfl⟩ | ⟨i, rfl, hi, rfl⟩
    · exact Keeps.pure
    · dsimp only
      refine Keeps.then (Keeps.steps ?_) fun b => Runs.giveMem (fits_same _) Keeps.pure
      intro m hm
      simp only [List.mem_cons, List.not_mem_nil, or_false] at hm
      rcases hm with rfl | rfl
      · exact withKey_keeps List.mem_cons_self
      · exact writeHeader_keeps (List.mem_cons_of_mem _ h)

theorem pkgVerify_keeps {n key fp : Nat} {k k' : Kind} (hk : (key, k') ∈ L) (h : (fp, k) ∈ L) :
    Keeps over l L (pkgVerify n (.to key) (.to fp)) := by
  unfold pkgVerify
  refine Keeps.steps ?_
  intro m hm
  simp only [List.mem_cons, List.not_mem_nil, or_false] at hm
  rcases hm with rfl | rfl | rfl | rfl
  · exact Keeps.ask
  · exact withKey_keeps hk
  · keepsLib
  · exact Keeps.ask

/-- Nothing is left but key contexts on top of what was held. -/
def Contexts (L L' : List (Nat × Kind)) : Prop := ∃ C : List (Nat × Kind), (∀ x ∈ C, x.2 = .pk) ∧ L' = C ++ L

theorem Contexts.refl : Contexts L L := ⟨[], by simp, rfl⟩

theorem Contexts.trans {L1 L2 L3 : List (Nat × Kind)} (h1 : Contexts L1 L2) (h2 : Contexts L2 L3) : Contexts L1 L3 := by
  obtain ⟨C, hC, rfl⟩ := h1
  obtain ⟨D, hD, rfl⟩ := h2
  refine ⟨D ++ C, ?_, by simp⟩
  intro x hx
  rcases List.mem_append.1 hx with hx | hx
  · exact hD x hx
  · exact hC x hx

theorem Contexts.mem {L' : List (Nat × Kind)} (h : Contexts L L') {x : Nat × Kind} (hx : x ∈ L) : x ∈ L' := by
  obtain ⟨C, _, rfl⟩ := h
  exact List.mem_append_right _ hx

theorem addKey_runs {n fp : Nat} {k : Kind} (hm : Enough l) (h : (fp, k) ∈ L) :
    Runs false l L (addKey n (.to fp)) fun _ L' => Contexts L L' := by
  unfold addKey
  refine Runs.bind (loadPublicKey_runs hm) fun r L' hr => ?_
  rcases hr with ⟨rfl, rfl⟩ | ⟨c, i, rfl, rfl⟩
  · exact Runs.pure .refl
  · dsimp only
    refine Keeps.then (by keepsLib) fun b => ?_
    exact Runs.giveMem fits_lib_heap (Runs.pure ⟨[(c, .pk)], by simp, rfl⟩)

/-- The calls that stay with the library's own allocator. -/
def Call.own : Call → Bool
  | .addKey _ => false
  | .verify _ => false
  | .verifyKeystore _ => false
  | _ => true

theorem call_runs {fp : Nat} {k : Kind} (c : Call) (hm : Enough l) (hc : over = false ∨ c.own = true)
    (h : (fp, k) ∈ L) : Runs over l L (c.run (.to fp)) fun _ L' => Contexts L L' := by
  have keep : ∀ {m : M Bool}, Keeps over l L m → Runs over l L m fun _ L' => Contexts L L' :=
    fun hk => hk.mono fun _ _ hL => hL ▸ .refl
  cases c with
  | addFile n => exact keep (addFile_keeps h)
  | addFileTree n => exact keep (addFileTree_keeps hm h)
  | addKey n =>
    obtain rfl : over = false := hc.elim id (fun h => (by cases h))
    exact addKey_runs hm h
  | sign n => exact keep (pkgSign_keeps h)
  | verify n =>
    obtain rfl : over = false := hc.elim id (fun h => (by cases h))
    refine Runs.bind (loadPublicKey_runs hm) fun r L' hr => ?_
    rcases hr with ⟨rfl, rfl⟩ | ⟨c, i, rfl, rfl⟩
    · exact Runs.pure .refl
    · dsimp only
      refine Keeps.then (pkgVerify_keeps List.mem_cons_self
        (List.mem_cons_of_mem _ (List.mem_cons_of_mem _ h))) fun b => ?_
      exact Runs.giveMem fits_lib_heap (Runs.pure ⟨[(c, .pk)], by simp, rfl⟩)
  | verifyKeystore n =>
    obtain rfl : over = false := hc.elim id (fun h => (by cases h))
    refine Runs.bind (keystoreLoad_runs n) fun r L' hr => ?_
    rcases hr with ⟨rfl, rfl⟩ | ⟨i, rfl, hi, rfl⟩
    · exact Runs.pure .refl
    · dsimp only
      refine Keeps.then (pkgVerify_keeps List.mem_cons_self (List.mem_cons_of_mem _ h)) fun b => ?_
      exact Runs.giveMem fits_lib_heap (Runs.pure .refl)
  | extract n f => exact keep (extractFile_keeps h)
  | delete n => exact keep (deletePart_keeps h)
  | deleteAll n => exact keep (deleteAll_keeps h)
  | rawSignature => exact keep (rawSignature_keeps h)
  | writeHeader => exact keep (writeHeader_keeps h)
  | updateHash n => exact keep (updateHash_keeps h)
  | partHash n => exact keep (partHash_keeps h)

end Bpak.Res
