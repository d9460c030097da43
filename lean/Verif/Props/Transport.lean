import Verif.Proof.TransportSize
/-!
C38-C40: sending a package as a delta against an earlier one.
-/
namespace Bpak
variable [LzmaLib]

/-! ### C38 -/

/-- Everything C38 needs about the outcome of encoding. -/
theorem encoded_shape (L : LzmaLaws) {H : HashFn} {srch : Bytes → Bytes → Int → Option (Int × Int)} (hsr : ∀ o n, SearchOk o n (srch o n)) {inp : Pkg} {org : Option Pkg}
    (hs : Sendable H inp org.isSome) (ho : ∀ o, org = some o → OriginFor inp o) {out0 : Bytes} {eh : Header} {ef : Bytes}
    (he : transportEncode srch inp.hdr inp.file (org.map Pkg.pair) out0 = .ok (eh, ef)) :
    ∃ rs Z, CodedAll inp org (usedParts inp.hdr) rs Z ∧ eh = { inp.hdr with parts := rs ++ List.replicate (32 - rs.length) PartHdr.zero } ∧ rs.length = (usedParts inp.hdr).length ∧
      rs.length ≤ 32 ∧ eh.WF ∧ ef = eh.image ++ (fileWrite out0 4096 Z).drop 4096 := by
  rcases encode_ok L H srch hsr inp org hs ho out0 with ⟨e, -⟩ | ⟨rs, Z, e, c⟩
  · rw [e] at he; cases he
  · rw [e] at he
    injection he with he
    obtain ⟨h1, h2⟩ := Prod.mk.inj he
    have hl : rs.length = (usedParts inp.hdr).length := by have := congrArg List.length c.ids; simpa using this
    have hl2 : rs.length ≤ 32 := by
      have := (hs.good.parts.inv hs.good.wf).len
      omega
    have hwf : eh.WF := by
      rw [← h1]
      refine withParts_wf hs.good.wf _ ?_
      rw [List.length_append, List.length_replicate]; omega
    refine ⟨rs, Z, c, h1.symm, hl, hl2, hwf, ?_⟩
    rw [← h2, h1, fileWrite_zero, image_length hwf]

/-- C38, encoding: a sendable package is encoded, and the file written can be opened again with the header returned. Deltas are larger than
the data in the worst case; a file of 2^63 bytes cannot be written, so the package's file must be shorter than 2^63/29 bytes. -/
theorem C38_encode (L : LzmaLaws) (H : HashFn) (srch : Bytes → Bytes → Int → Option (Int × Int)) (hsr : ∀ o n, SearchOk o n (srch o n)) (inp : Pkg) (org : Option Pkg)
    (hs : Sendable H inp org.isSome) (ho : ∀ o, org = some o → OriginFor inp o) (short : 29 * inp.file.length < 2^63) (out0 : Bytes) :
    ∃ eh ef, transportEncode srch inp.hdr inp.file (org.map Pkg.pair) out0 = .ok (eh, ef) ∧ 4096 ≤ ef.length ∧ parseHeader (ef.take 4096) = eh := by
  rcases encode_ok L H srch hsr inp org hs ho out0 with ⟨-, e⟩ | ⟨rs, Z, e, c⟩
  · omega
  · obtain ⟨rs, Z, _, _, _, _, wf, hf⟩ := encoded_shape L hsr hs ho e
    refine ⟨_, _, e, ?_, ?_⟩
    · rw [hf, List.length_append, image_length wf]; omega
    · rw [hf, List.take_append_of_le_length (by rw [image_length wf]; omega), List.take_of_length_le (by rw [image_length wf]; omega)]
      exact parse_image wf

/-- C38, partial: encode against an origin, decode against the same one into a new file: the header in memory and the file are
those of the package sent. The output file is any of at most 4096 bytes (`bpak_pkg_open` leaves a header in it).
Partial: the decoder must accept the origin; since it looks for the origin's package id where the *package* has it,
that is shown for package ids lying at the same place in both headers (`SamePlace`); see C38_round_trip_is_false. And the
package must have a part. -/
theorem C38_round_trip_partial (L : LzmaLaws) (H : HashFn) (hH : HashLen H) (srch : Bytes → Bytes → Int → Option (Int × Int)) (hsr : ∀ o n, SearchOk o n (srch o n))
    (inp : Pkg) (org : Option Pkg) (hs : Sendable H inp org.isSome) (ho : ∀ o, org = some o → OriginFor inp o) (hp : ∀ o, org = some o → SamePlace inp.hdr o.hdr)
    (hne : usedParts inp.hdr ≠ []) (out0 : Bytes) (eh : Header) (ef : Bytes) (he : transportEncode srch inp.hdr inp.file (org.map Pkg.pair) out0 = .ok (eh, ef))
    (out : Bytes) (hout : out.length ≤ 4096) :
    transportDecode H eh ef (org.map Pkg.pair) out = .ok (inp.hdr, inp.file) := by
  obtain ⟨rs, Z, c, h1, hl, hl2, wf, hf⟩ := encoded_shape L hsr hs ho he
  have g := hs.good
  have inv := g.parts.inv g.wf
  have hZ : (fileRead ef 4096 Z.length) = Z ∧ 4096 + Z.length ≤ ef.length := by
    have e1 : fileRead (fileWrite out0 4096 Z) (4096 + 0) Z.length = Z := by
      rw [fileRead_inner _ _ _ _ _ (by omega)]; simp
    have e2 : ef.drop 4096 = (fileWrite out0 4096 Z).drop 4096 := by
      rw [hf, List.drop_append_of_le_length (by rw [image_length wf]; omega), List.drop_eq_nil_of_le (by rw [image_length wf]; omega), List.nil_append]
    have e3 : fileRead ef 4096 Z.length = Z := by
      unfold fileRead at *
      rw [e2]; exact e1
    refine ⟨e3, ?_⟩
    by_cases hz : Z = []
    · rw [hz, hf, List.length_append, image_length wf]; simp
    · have := congrArg List.length e3
      have hzl := List.length_pos_iff.2 hz
      unfold fileRead at this
      rw [List.length_take, List.length_drop] at this
      omega
  have hinit : decodeInit eh (org.map Pkg.pair) out = .ok (between eh org out 0 0 .idle 0) := by
    cases org with
    | none => rfl
    | some o =>
      obtain ⟨og, om, os, oh, u, ul, ui, uo⟩ := ho o rfl
      obtain ⟨m, hm, m', hm', a1, a2, a3, a4, a5⟩ := hp o rfl
      obtain ⟨i, k, i1, i2, i3, i4, i5, i6, i7, i8⟩ := getMeta_entry om og.wf (by decide) uo
      obtain ⟨j, l, j1, j2, j3, j4, j5, j6, j7, j8⟩ := getMeta_entry hs.metas g.wf (by decide) ui
      have em : l = m := entry_unique hs.metas g.wf j3 hm (by rw [j4, a1]) (by rw [j5, a2])
      have em' : k = m' := entry_unique om og.wf i3 hm' (by rw [i4, a3]) (by rw [i5, a4])
      unfold decodeInit
      simp only [Option.map_some, Pkg.pair]
      unfold setOrigin
      rw [i1]
      simp only [TDec.init]
      rw [show getMeta eh idBpakPackage 0 = getMeta inp.hdr idBpakPackage 0 from by rw [h1]; rfl, j1]
      simp only
      rw [metaBytes_at og.wf i2 i6 i8 0 16 (by omega)]
      have : metaBytes eh o.hdr j 0 16 = some ((u.drop 0).take 16) := by
        unfold metaBytes
        rw [show eh.metas = inp.hdr.metas from by rw [h1], j2]
        simp only
        have hoff : l.offset.toNat = k.offset.toNat := by rw [em, em', a5]
        rw [hoff, readAt_eq_some (by rw [og.wf.2.2.2.1]; omega)]
        congr 1
        rw [ul] at i8
        rw [Nat.add_zero, i8, List.drop_zero, List.take_of_length_le (by omega)]
      rw [this]
      simp [between]
  unfold transportDecode
  rw [hinit]
  simp only
  obtain ⟨d, d1, d2, d3⟩ := decodeGo_ok H hH inp org hs ho ef (32 - (usedParts inp.hdr).length) (usedParts inp.hdr) [] rs Z rfl c inv 4096 hZ.2 hZ.1 out 0 0 .idle 0
    (by rw [List.drop_eq_nil_of_le hout]; simp [fileRead])
  rw [show rs.length + (32 - (usedParts inp.hdr).length) = 32 from by omega, ← hl, List.nil_append, ← h1] at d1
  rw [show ([] : List PartHdr).length = 0 from rfl] at d1
  rw [d1]
  simp only
  rw [if_neg hne] at d3
  rw [d2, d3]
  have hrest : fileRead inp.file 4096 ((usedParts inp.hdr).map storedSize).sum = inp.file.drop 4096 := by
    unfold fileRead
    rw [List.take_of_length_le]
    rw [List.length_drop, g.exact]; omega
  have himg : inp.hdr.image = inp.file.take 4096 := by
    obtain ⟨s1, s2⟩ := hs.saved
    rw [← s2]
    exact image_parse (by rw [List.length_take]; omega)
  rw [hrest, himg, List.take_append_drop]

end Bpak
