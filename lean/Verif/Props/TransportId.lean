import Verif.Proof.Transport
/-!
C40: a delta is not computed against, or applied to, a foreign package.
-/
namespace Bpak
variable [LzmaLib]

/-- C40, encoding: if the package and the origin have different 16-byte package ids, encoding reports that and nothing else happens (the result
carries no output). -/
theorem C40_encode (srch : Bytes → Bytes → Int → Option (Int × Int)) (a b : Header) (wa : a.WF) (wb : b.WF) (ga : GoodMetas a) (gb : GoodMetas b) (u v : Bytes)
    (hu : HasEntry a idBpakPackage 0 u) (hv : HasEntry b idBpakPackage 0 v) (lu : u.length = 16) (lv : v.length = 16) (ne : u ≠ v) (inp org out : Bytes) :
    transportEncode srch a inp (some (b, org)) out = .fail .packageUuidMismatch := by
  obtain ⟨i, k, i1, i2, i3, i4, i5, i6, i7, i8⟩ := getMeta_entry gb wb (by decide) hv
  obtain ⟨j, l, j1, j2, j3, j4, j5, j6, j7, j8⟩ := getMeta_entry ga wa (by decide) hu
  have : encodeOriginCheck a (some (b, org)) = .fail .packageUuidMismatch := by
    unfold encodeOriginCheck
    simp only
    rw [i1]
    simp only
    rw [j1]
    simp only
    rw [metaBytes_at wb i2 i6 i8 0 16 (by omega), metaBytes_at wa j2 j6 j8 0 16 (by omega)]
    simp only
    rw [if_pos]
    rw [List.drop_zero, List.drop_zero, List.take_of_length_le (by omega), List.take_of_length_le (by omega)]
    exact fun h => ne h.symm
  unfold transportEncode
  rw [this]

omit [LzmaLib] in
/-- C40, encoding: the other direction. The package id check is passed exactly by equal ids. -/
theorem C40_encode_same (a b : Header) (wa : a.WF) (wb : b.WF) (ga : GoodMetas a) (gb : GoodMetas b) (u v : Bytes)
    (hu : HasEntry a idBpakPackage 0 u) (hv : HasEntry b idBpakPackage 0 v) (lu : u.length = 16) (lv : v.length = 16) (org : Bytes) :
    encodeOriginCheck a (some (b, org)) = .ok () ↔ u = v := by
  obtain ⟨i, k, i1, i2, i3, i4, i5, i6, i7, i8⟩ := getMeta_entry gb wb (by decide) hv
  obtain ⟨j, l, j1, j2, j3, j4, j5, j6, j7, j8⟩ := getMeta_entry ga wa (by decide) hu
  unfold encodeOriginCheck
  simp only
  rw [i1]
  simp only
  rw [j1]
  simp only
  rw [metaBytes_at wb i2 i6 i8 0 16 (by omega), metaBytes_at wa j2 j6 j8 0 16 (by omega)]
  simp only
  rw [List.drop_zero, List.drop_zero, List.take_of_length_le (by omega), List.take_of_length_le (by omega)]
  by_cases h : v = u
  · rw [if_neg (by rw [Classical.not_not]; exact h)]
    exact ⟨fun _ => h.symm, fun _ => rfl⟩
  · rw [if_pos h]
    exact Iff.intro (fun x => (by cases x)) (fun x => absurd x.symm h)

/-- C40, encoding, a flaw: if the origin or the package has no package id at all, this is not reported: the code goes through a null pointer
(it forms the address of the id before it looks whether there is one). -/
theorem C40_encode_missing_id (srch : Bytes → Bytes → Int → Option (Int × Int)) (a b : Header) (wa : a.WF) (wb : b.WF) (ga : GoodMetas a) (gb : GoodMetas b)
    (h : (∀ e ∈ entries a, ¬ (e.id = idBpakPackage ∧ e.ref = 0)) ∨ (∀ e ∈ entries b, ¬ (e.id = idBpakPackage ∧ e.ref = 0))) (inp org out : Bytes) :
    transportEncode srch a inp (some (b, org)) out = .ub := by
  have : encodeOriginCheck a (some (b, org)) = .ub := by
    unfold encodeOriginCheck
    simp only
    rcases h with h | h
    · rw [getMeta_noEntry ga wa (by decide) h]
      split <;> rfl
    · rw [getMeta_noEntry gb wb (by decide) h]
  unfold transportEncode
  rw [this]

omit [LzmaLib] in
/-- C40, decoding, is false: whenever the package ids lie at the same place in both headers (as they do for packages built by the same
sequence of calls), the decoder accepts the origin, whatever the two ids are: it compares the origin's id with itself. -/
theorem C40_decode_is_false (a b : Header) (wb : b.WF) (ga : GoodMetas a) (gb : GoodMetas b) (wa : a.WF) (u v : Bytes)
    (hu : HasEntry a idBpakPackage 0 u) (hv : HasEntry b idBpakPackage 0 v) (lu : u.length = 16) (lv : v.length = 16) (same : SamePlace a b)
    (d : TDec) (hd : d.hdr = a) (of : Bytes) (off : U64) : setOrigin d b of off = .ok { d with origin := some (b, of, off) } := by
  obtain ⟨i, k, i1, i2, i3, i4, i5, i6, i7, i8⟩ := getMeta_entry gb wb (by decide) hv
  obtain ⟨j, l, j1, j2, j3, j4, j5, j6, j7, j8⟩ := getMeta_entry ga wa (by decide) hu
  obtain ⟨m, hm, m', hm', a1, a2, a3, a4, a5⟩ := same
  have em : l = m := entry_unique ga wa j3 hm (by rw [j4, a1]) (by rw [j5, a2])
  have em' : k = m' := entry_unique gb wb i3 hm' (by rw [i4, a3]) (by rw [i5, a4])
  unfold setOrigin
  rw [i1, hd, j1]
  simp only
  have e1 : metaBytes a b j 0 16 = metaBytes b b i 0 16 := by
    unfold metaBytes
    rw [j2, i2]
    simp only
    rw [em, em', a5]
  rw [e1, metaBytes_at wb i2 i6 i8 0 16 (by omega)]
  simp

omit [LzmaLib] in
/-- C40, decoding, what is left of it: an origin is refused if one of the headers has no package id, and else accepted exactly if the
*origin's* metadata area repeats the origin's id at the place where the package has its own. Partial: the package's id plays no role. -/
theorem C40_decode_partial (a b : Header) (wa : a.WF) (wb : b.WF) (ga : GoodMetas a) (gb : GoodMetas b) (d : TDec) (hd : d.hdr = a) (of : Bytes) (off : U64) :
    (((∀ e ∈ entries a, ¬ (e.id = idBpakPackage ∧ e.ref = 0)) ∨ (∀ e ∈ entries b, ¬ (e.id = idBpakPackage ∧ e.ref = 0))) → setOrigin d b of off = .fail .notFound) ∧
    (∀ m ∈ usedMetas a, m.id = idBpakPackage → m.partRef = 0 → m.size.toNat = 16 → ∀ v, HasEntry b idBpakPackage 0 v → v.length = 16 →
      setOrigin d b of off = if (b.metadata.drop m.offset.toNat).take 16 = v then .ok { d with origin := some (b, of, off) } else .fail .packageUuidMismatch) := by
  constructor
  · intro h
    unfold setOrigin
    rw [hd]
    rcases h with h | h
    · rw [getMeta_noEntry ga wa (by decide) h]
      split <;> rfl
    · rw [getMeta_noEntry gb wb (by decide) h]
  · intro m hm m1 m2 m3 v hv lv
    obtain ⟨i, k, i1, i2, i3, i4, i5, i6, i7, i8⟩ := getMeta_entry gb wb (by decide) hv
    have hu : HasEntry a idBpakPackage 0 (metaContent a m) := List.mem_map.2 ⟨m, hm, by rw [m1, m2]⟩
    obtain ⟨j, l, j1, j2, j3, j4, j5, j6, j7, j8⟩ := getMeta_entry ga wa (by decide) hu
    have em : l = m := entry_unique ga wa j3 hm (by rw [j4, m1]) (by rw [j5, m2])
    subst em
    have hl : (metaContent a l).length = 16 := by rw [← j7, m3]
    unfold setOrigin
    rw [i1, hd, j1]
    simp only
    rw [metaBytes_at wb i2 i6 i8 0 16 (by omega)]
    have : metaBytes a b j 0 16 = some ((b.metadata.drop l.offset.toNat).take 16) := by
      unfold metaBytes
      rw [j2]
      simp only
      rw [Nat.add_zero, readAt_eq_some (by rw [wb.2.2.2.1]; omega)]
    rw [this]
    simp only
    rw [List.drop_zero, List.take_of_length_le (by omega)]
    by_cases h : (b.metadata.drop l.offset.toNat).take 16 = v
    · rw [if_pos h, if_neg (by rw [Classical.not_not]; exact h.symm)]
    · rw [if_neg h, if_pos (fun x => h x.symm)]

end Bpak
