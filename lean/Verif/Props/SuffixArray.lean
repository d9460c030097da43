import Verif.Proof.BsdiffInit
import Verif.Props.Bsdiff
/-! Properties of the suffix array construction (C104) and of the delta encoder with the array it builds (C105). -/
namespace Bpak

/-! ### C104 -/

/-- C104: for every text and every memory in which the array of `|t|` cells exists, whatever the cells and newly allocated cells hold and whichever allocations fail, `sais` finishes
without undefined behaviour. It returns 0 and the cells are the suffix array of the text, or -2 and an allocation has failed; every cell outside the array is as
before, so nothing is left allocated and nothing else has been written. -/
theorem C104_suffix_array (t : Bytes) (h : Sais.Heap)
    (cells : ∀ a : Int, 0 ≤ a → a < t.length → ∃ v, h.mem a = some v) (top : (t.length : Int) ≤ h.next) (rest : ∀ a : Int, h.next ≤ a → h.mem a = none) :
    ∃ rc h', Sais.sais t h = some (rc, h') ∧
      ((rc = 0 ∧ ∃ S, IsSuffixArray t S ∧ S.length = t.length ∧ ∀ i (hi : i < S.length), h'.mem (i : Int) = some (S[i] : Int)) ∨
       (rc = -2 ∧ ∃ i, h.fails i = true)) ∧
      ∀ a : Int, ¬ (0 ≤ a ∧ a < t.length) → h'.mem a = h.mem a := by
  obtain ⟨rc, h', h1, h2, h3⟩ := Sais.sais_ok t h ⟨cells, top, rest⟩
  refine ⟨rc, h', h1, ?_, fun a ha => h3 a ha⟩
  rcases h2 with ⟨e, S, hs, hm⟩ | h2
  · exact Or.inl ⟨e, S, hs, isSuffix_length hs, hm⟩
  · exact Or.inr h2

/-- C104: when every allocation succeeds the array is built. -/
theorem C104_no_failure (t : Bytes) (h : Sais.Heap)
    (cells : ∀ a : Int, 0 ≤ a → a < t.length → ∃ v, h.mem a = some v) (top : (t.length : Int) ≤ h.next) (rest : ∀ a : Int, h.next ≤ a → h.mem a = none)
    (nofail : ∀ i, h.fails i = false) :
    ∃ h' S, Sais.sais t h = some (0, h') ∧ IsSuffixArray t S ∧ ∀ i (hi : i < S.length), h'.mem (i : Int) = some (S[i] : Int) := by
  obtain ⟨rc, h', h1, h2, _⟩ := Sais.sais_ok t h ⟨cells, top, rest⟩
  rcases h2 with ⟨e, S, hs, hm⟩ | ⟨_, i, hi⟩
  · subst e; exact ⟨h', S, h1, hs, hm⟩
  · rw [nofail i] at hi; cases hi

/-- C104: a text has one suffix array only, so the result is determined by the text. -/
theorem C104_unique {t : Bytes} {S S' : List Nat} (h : IsSuffixArray t S) (h' : IsSuffixArray t S') : S = S' := h.unique h'

/-- C104: every text has one. -/
theorem C104_exists (t : Bytes) : ∃ S, IsSuffixArray t S := by
  obtain ⟨h', S, _, h, _⟩ := C104_no_failure t (Sais.freshHeap t.length (fun _ => false) (fun a => a)) (Sais.room_fresh _ _ _).cells (Sais.room_fresh _ _ _).top
    (Sais.room_fresh _ _ _).rest (fun _ => rfl)
  exact ⟨S, h⟩

/-- "banana" has the suffixes a, ana, anana, banana, na, nana in this order -/
theorem banana_sorted : IsSuffixArray [98, 97, 110, 97, 110, 97] [5, 3, 1, 0, 4, 2] := by
  constructor
  · intro i
    simp only [List.mem_cons, List.not_mem_nil, or_false, List.length_cons, List.length_nil]
    omega
  · simp [before]

/-- the hypotheses are met by an array with any contents followed by free memory: "banana" -/
example (x : Int) : ∃ h', Sais.sais [98, 97, 110, 97, 110, 97] { mem := fun a => if 0 ≤ a ∧ a < 6 then some x else none, next := 9, fails := fun _ => false, junk := fun a => a * 5 } =
    some (0, h') ∧ readArray 6 h'.mem = [5, 3, 1, 0, 4, 2] := by
  obtain ⟨h', S, h1, h2, h3⟩ := C104_no_failure [98, 97, 110, 97, 110, 97]
    { mem := fun a => if 0 ≤ a ∧ a < 6 then some x else none, next := 9, fails := fun _ => false, junk := fun a => a * 5 }
    (fun a h1 h2 => ⟨x, if_pos ⟨h1, h2⟩⟩) (show (6 : Int) ≤ 9 by omega) (fun a (ha : 9 ≤ a) => if_neg (by omega)) (fun _ => rfl)
  refine ⟨h', h1, ?_⟩
  have := C104_unique h2 banana_sorted
  subst this
  exact readArray_eq (n := 6) rfl h3
/-- a failing allocation -/
example : (Sais.sais [98, 97, 110, 97, 110, 97] (Sais.freshHeap 6 (fun i => i == 0) (fun a => a))).map (·.1) = some (-2) := by decide +kernel

/-! ### C105 -/

/-- C105: preparing the encoder yields the sorted array of the origin's suffixes, or reports a failed allocation. -/
theorem C105_init (o : Bytes) (fails : Nat → Bool) (junk : Int → Int) :
    (bsdiffInit o fails junk = some (.error .failed) ∧ ∃ i, fails i = true) ∨
    ∃ S : List Nat, bsdiffInit o fails junk = some (.ok (S.map (fun (i : Nat) => (i : Int)))) ∧ IsSuffixArray o S := bsdiffInit_ok o fails junk

/-- C105: the encoder with the array it builds itself and its own search. For every origin of at least two bytes and every new file below 2 GiB, where no rest of
the new file comes behind all suffixes of the origin: the encoder stays inside its arrays, and it reports a failed allocation or its bytes, cut in any way, make
the decoder write exactly the new file. Missing: the other pairs of files, for which the claim is false (`C105_reads_past_end`, `C105_short_origin`). -/
theorem C105_round_trip_partial (o n f : Bytes) (outOff bufLen : Nat) (hb : 0 < bufLen) (ho2 : 2 ≤ o.length) (ho : o.length < 2^63) (hn : n.length < 2^31)
    (hle : ∀ i < n.length, ∃ j, j < o.length ∧ ¬ before (o.drop j) (n.drop i)) (fails : Nat → Bool) (junk : Int → Int) :
    (bsdiffAll o n fails junk = some (.error .failed) ∧ ∃ i, fails i = true) ∨
    ∃ bufs, bsdiffAll o n fails junk = some (.ok bufs) ∧
      ∀ xs : List Bytes, xs.flatten = bufs.flatten →
        ∃ p, bspatchRun (patchCfg o 0 outOff bufLen) (Patcher.init f) xs = .ok p ∧
          p.out = fileWrite f outOff n ∧ bspatchFinal p = some n.length := by
  rcases bsdiffInit_ok o fails junk with ⟨h, hf⟩ | ⟨S, h, hS⟩
  · left; refine ⟨?_, hf⟩; unfold bsdiffAll; rw [h]
  · right
    obtain ⟨bufs, e, hx⟩ := C23_diff_then_patch o n f outOff bufLen hb ho (by omega) _ (searchCall_sorted hn ho2 hS hle)
    refine ⟨bufs, ?_, hx⟩
    unfold bsdiffAll
    rw [h]
    simp only
    unfold bsdiff
    rw [e]; rfl

theorem before_of_head {x : Bytes} {b : U8} {y : Bytes} (h : ∀ a ∈ x, a.toNat < b.toNat) : before x (b :: y) := by
  cases x with
  | nil => exact True.intro
  | cons a x => exact Or.inl (h a List.mem_cons_self)

/-- C105: in particular whenever the origin has a byte above every byte of the new file. -/
theorem C105_round_trip_max_byte_partial (o n f : Bytes) (outOff bufLen : Nat) (hb : 0 < bufLen) (ho2 : 2 ≤ o.length) (ho : o.length < 2^63) (hn : n.length < 2^31)
    (x : U8) (hx : x ∈ o) (hmax : ∀ y ∈ n, y.toNat < x.toNat) (fails : Nat → Bool) (junk : Int → Int) (nofail : ∀ i, fails i = false) :
    ∃ bufs, bsdiffAll o n fails junk = some (.ok bufs) ∧
      ∀ xs : List Bytes, xs.flatten = bufs.flatten →
        ∃ p, bspatchRun (patchCfg o 0 outOff bufLen) (Patcher.init f) xs = .ok p ∧
          p.out = fileWrite f outOff n ∧ bspatchFinal p = some n.length := by
  obtain ⟨j, hj, e⟩ := List.getElem_of_mem hx
  have hle : ∀ i < n.length, ∃ j, j < o.length ∧ ¬ before (o.drop j) (n.drop i) := by
    intro i _
    refine ⟨j, hj, fun hc => ?_⟩
    have h2 : before (n.drop i) (o.drop j) := by
      rw [List.drop_eq_getElem_cons hj, e]
      exact before_of_head (fun a ha => hmax a (List.mem_of_mem_drop ha))
    exact before_irrefl _ (before_trans hc h2)
  rcases C105_round_trip_partial o n f outOff bufLen hb ho2 ho hn hle fails junk with ⟨_, i, hi⟩ | h
  · rw [nofail i] at hi; cases hi
  · exact h

/-- C105: and a file against itself, or against any suffix of itself, whatever its bytes. -/
theorem C105_same_file_partial (o f : Bytes) (k outOff bufLen : Nat) (hb : 0 < bufLen) (ho2 : 2 ≤ o.length) (ho : o.length < 2^31)
    (fails : Nat → Bool) (junk : Int → Int) (nofail : ∀ i, fails i = false) :
    ∃ bufs, bsdiffAll o (o.drop k) fails junk = some (.ok bufs) ∧
      ∀ xs : List Bytes, xs.flatten = bufs.flatten →
        ∃ p, bspatchRun (patchCfg o 0 outOff bufLen) (Patcher.init f) xs = .ok p ∧
          p.out = fileWrite f outOff (o.drop k) ∧ bspatchFinal p = some (o.drop k).length := by
  rcases C105_round_trip_partial o (o.drop k) f outOff bufLen hb ho2 (by omega) (by simp; omega)
      (fun i hi => ⟨k + i, by rw [List.length_drop] at hi; omega, by rw [List.drop_drop]; exact before_irrefl _⟩) fails junk with ⟨_, i, hi⟩ | h
  · rw [nofail i] at hi; cases hi
  · exact h

theorem bsdiff_none_of_first {sa : List Int} {o n : Bytes} (hn : n ≠ []) (hs : searchCall sa o n 0 = none) : bsdiff sa o n = none := by
  have hn' := List.length_pos_iff.2 hn
  unfold bsdiff bsdiffWith diffLoop
  simp only
  rw [if_pos (by omega)]
  unfold diffRound
  have : ((n.length : Int) - (0 + 0)).toNat = (n.length - 1) + 1 := by omega
  simp only [this]
  unfold scanGo
  simp [hs]

/-- C105: the claim is false for a new file whose first byte is above every byte of the origin: the encoder reads past the end of its array,
for all such pairs. -/
theorem C105_reads_past_end (o n : Bytes) (b : U8) (habove : ∀ a ∈ o, a.toNat < b.toNat) (fails : Nat → Bool) (junk : Int → Int) (nofail : ∀ i, fails i = false) :
    bsdiffAll o (b :: n) fails junk = none := by
  rcases bsdiffInit_ok o fails junk with ⟨_, i, hi⟩ | ⟨S, h, hS⟩
  · rw [nofail i] at hi; cases hi
  · unfold bsdiffAll
    rw [h]
    simp only
    rw [bsdiff_none_of_first (by simp)]
    · rfl
    unfold searchCall
    rw [if_pos (by omega)]
    refine search_out _ o _ (by rw [List.length_map, isSuffix_length hS]) ?_ _ 0 (by omega)
    intro i p s hs _
    obtain ⟨hi, e, hlt⟩ := suffixAt_list hS hs
    rw [e, List.drop_eq_getElem_cons hlt]
    have h2 := habove _ (List.getElem_mem hlt)
    show memcmpLt (_ :: _) (b :: n) = true
    unfold memcmpLt
    rw [if_neg (fun he => by rw [he] at h2; omega)]
    exact decide_eq_true h2

/-- C105: and for an origin of at most one byte. -/
theorem C105_short_origin (o n : Bytes) (h1 : o.length ≤ 1) (hn : n ≠ []) (fails : Nat → Bool) (junk : Int → Int) (nofail : ∀ i, fails i = false) :
    bsdiffAll o n fails junk = none := by
  rcases bsdiffInit_ok o fails junk with ⟨_, i, hi⟩ | ⟨S, h, hS⟩
  · rw [nofail i] at hi; cases hi
  · unfold bsdiffAll
    rw [h]
    simp only
    rw [C23_suffix_array_too_short _ o n (by rw [List.length_map, isSuffix_length hS]) h1 hn]
    rfl

/-- "banana z" against "bandana": the hypotheses are met (the last letter is above all of the new file) and the model computes a delta -/
example : ∃ bufs, bsdiffAll [98, 97, 110, 97, 110, 97, 32, 122] [98, 97, 110, 100, 97, 110, 97] (fun _ => false) (fun _ => 1) = some (.ok bufs) ∧
    ∃ p, bspatchRun (patchCfg [98, 97, 110, 97, 110, 97, 32, 122] 0 0 8) (Patcher.init []) bufs = .ok p ∧ p.out = [98, 97, 110, 100, 97, 110, 97] := by
  obtain ⟨bufs, h, hx⟩ := C105_round_trip_max_byte_partial [98, 97, 110, 97, 110, 97, 32, 122] [98, 97, 110, 100, 97, 110, 97] [] 0 8 (by decide) (by decide)
    (by decide) (by decide) 122 (by decide) (by decide) (fun _ => false) (fun _ => 1) (fun _ => rfl)
  obtain ⟨p, h1, h2, _⟩ := hx bufs rfl
  exact ⟨bufs, h, p, h1, by rw [h2]; rfl⟩
/-- a new file that begins with a larger byte -/
example : bsdiffAll [98, 97, 110, 97] [122, 97] (fun _ => false) (fun _ => 1) = none := C105_reads_past_end [98, 97, 110, 97] [97] 122 (by decide) _ _ (fun _ => rfl)

end Bpak
