import Verif.Model.TransportCmd
import Verif.Props.TransportEx
import Verif.Props.GenerateExample
/-!
C99: sending a package built with the tool, as commands on files.
-/
namespace Bpak
variable [LzmaLib]

/-- The package stored in a file: what opening it yields. -/
def storedPkg (f : Bytes) : Pkg := ⟨parseHeader (f.take 4096), f, []⟩

omit [LzmaLib] in
theorem PkgInv.stored {H : HashFn} {p : Pkg} {s : List (U32 × Bytes)} (i : PkgInv H p s) : PkgInv H (storedPkg p.file) s := by
  have := i.logged []
  unfold storedPkg
  rw [i.saved.2]
  exact this

omit [LzmaLib] in
theorem PkgInv.sendable {H : HashFn} {p : Pkg} {s : List (U32 × Bytes)} (i : PkgInv H p s) (b : Bool)
    (hp : ∀ pre q post, usedParts p.hdr = pre ++ q :: post → Transportable H p b pre q) : Sendable H p b :=
  ⟨i.good, i.metas, i.saved, i.small, fun q hq => (i.at_offsets.1 q hq).2.2.2.2, hp⟩

omit [LzmaLib] in
theorem PkgInv.part_ids {H : HashFn} {p : Pkg} {s : List (U32 × Bytes)} (i : PkgInv H p s) : (usedParts p.hdr).map (·.id) = s.map (·.1) := by
  rw [← i.files]
  unfold Bpak.files
  rw [List.map_map]
  rfl

omit [LzmaLib] in
theorem PkgInv.originFor {H : HashFn} {p o : Pkg} {s s' : List (U32 × Bytes)} (i : PkgInv H p s) (j : PkgInv H o s')
    (has : ∀ c ∈ s, ∃ c' ∈ s', c'.1 = c.1) (u : Bytes) (ul : u.length = 16) (hu : HasEntry p.hdr idBpakPackage 0 u) (hv : HasEntry o.hdr idBpakPackage 0 u) : OriginFor p o := by
  refine ⟨j.good, j.metas, j.small, ?_, u, ul, hu, hv⟩
  intro q hq
  have h1 : q.id ∈ s.map (·.1) := by rw [← i.part_ids]; exact List.mem_map_of_mem hq
  obtain ⟨c, hc, e⟩ := List.mem_map.1 h1
  obtain ⟨c', hc', e'⟩ := has c hc
  have h2 : c'.1 ∈ (usedParts o.hdr).map (·.id) := by rw [j.part_ids]; exact List.mem_map_of_mem hc'
  obtain ⟨r, hr, er⟩ := List.mem_map.1 h2
  exact ⟨r, hr, by rw [er, e', e]⟩

theorem CodedAll.sizes {inp : Pkg} {org : Option Pkg} {qs rs : List PartHdr} {Z : Bytes} (c : CodedAll inp org qs rs Z) :
    rs.map (fun r => (r.id, r.size, r.padBytes)) = qs.map (fun r => (r.id, r.size, r.padBytes)) := by
  induction c with
  | nil => rfl
  | cons h t ih =>
    rw [List.map_cons, List.map_cons, ih]
    congr 1
    cases h <;> rfl

/-- A package made from a good one by encoding passes the header check. -/
theorem coded_valid {H : HashFn} {p : Pkg} {s : List (U32 × Bytes)} (i : PkgInv H p s) {org : Option Pkg} {rs : List PartHdr} {Z : Bytes}
    (c : CodedAll p org (usedParts p.hdr) rs Z) {eh : Header} (he : eh = { p.hdr with parts := rs ++ List.replicate (32 - rs.length) PartHdr.zero }) : validHeader eh = .ok := by
  have hv := i.valid
  rw [C13_valid_header_code] at hv ⊢
  have hu : usedParts eh = rs := by
    have hr : ∀ r ∈ rs, r.id ≠ 0 := by
      intro r hr h0
      have : r.id ∈ (usedParts p.hdr).map (·.id) := by rw [← c.ids]; exact List.mem_map_of_mem hr
      obtain ⟨q, hq, e⟩ := List.mem_map.1 this
      exact (i.good.parts.inv i.good.wf).ids q hq (by rw [e, h0])
    unfold usedParts
    rw [he]
    show (rs ++ List.replicate (32 - rs.length) PartHdr.zero).takeWhile _ = rs
    rw [List.takeWhile_append_of_pos (by simpa using hr)]
    cases 32 - rs.length with
    | zero => simp
    | succ k => rw [List.replicate_succ, List.takeWhile_cons_of_neg (by decide)]; simp
  have hm : usedMetas eh = usedMetas p.hdr := by rw [he]; rfl
  have hg : eh.magic = p.hdr.magic ∧ eh.hashKind = p.hdr.hashKind := by rw [he]; exact ⟨rfl, rfl⟩
  have hsz : (∀ q ∈ usedParts eh, (q.size + q.padBytes.setWidth 64).toNat % 512 = 0) ↔ ∀ q ∈ usedParts p.hdr, (q.size + q.padBytes.setWidth 64).toNat % 512 = 0 := by
    rw [hu]
    have hb := c.sizes
    have key : ∀ l : List PartHdr, (∀ q ∈ l, (q.size + q.padBytes.setWidth 64).toNat % 512 = 0) ↔
        ∀ x ∈ l.map (fun r : PartHdr => (r.id, r.size, r.padBytes)), (x.2.1 + x.2.2.setWidth 64).toNat % 512 = 0 := by
      intro l
      simp only [List.mem_map, forall_exists_index, and_imp, forall_apply_eq_imp_iff₂]
    rw [key, hb, ← key]
  rw [hm, hg.1, hg.2]
  by_cases h1 : p.hdr.magic ≠ 0x42504132
  · rw [if_pos h1] at hv; cases hv
  rw [if_neg h1] at hv ⊢
  by_cases h2 : ∀ q ∈ usedParts p.hdr, (q.size + q.padBytes.setWidth 64).toNat % 512 = 0
  · rw [if_neg (fun h => h h2)] at hv
    rw [if_neg (fun h => h (hsz.2 h2))]
    exact hv
  · rw [if_pos h2] at hv; cases hv

omit [LzmaLib] in
theorem new_output (H : HashFn) (hH : HashLen H) : (pkgOpen H true []).1 = .ok ∧ (pkgOpen H true []).2.file.length = 4096 := by
  obtain ⟨p, e, g, s, -, -, hf, -⟩ := C56_open_new H hH
  rw [e]
  exact ⟨rfl, by show p.file.length = _; rw [hf]; exact image_length g.wf⟩

/-- Both directions, for packages as the tool leaves them. -/
theorem send_and_restore (L : LzmaLaws) {H : HashFn} (hH : HashLen H) (srch : Bytes → Bytes → Int → Option (Int × Int)) (hsr : ∀ o n, SearchOk o n (srch o n))
    {p : Pkg} {s : List (U32 × Bytes)} (i : PkgInv H p s) (org : Option Pkg)
    (hp : ∀ pre q post, usedParts p.hdr = pre ++ q :: post → Transportable H p org.isSome pre q)
    (ho : ∀ o, org = some o → OriginFor p o) (hsp : ∀ o, org = some o → SamePlace p.hdr o.hdr) (hne : s ≠ []) (short : 29 * p.file.length < 2^63)
    (out0 out : Bytes) (hout : out.length ≤ 4096) :
    ∃ eh ef, transportEncode srch p.hdr p.file (org.map Pkg.pair) out0 = .ok (eh, ef) ∧ 4096 ≤ ef.length ∧ parseHeader (ef.take 4096) = eh ∧ validHeader eh = .ok ∧
      transportDecode H eh ef (org.map Pkg.pair) out = .ok (p.hdr, p.file) := by
  have hs := i.sendable org.isSome hp
  obtain ⟨eh, ef, e, l, ph⟩ := C38_encode L H srch hsr p org hs ho short out0
  obtain ⟨rs, Z, c, h1, -⟩ := encoded_shape L hsr hs ho e
  refine ⟨eh, ef, e, l, ph, coded_valid i c h1, ?_⟩
  refine C38_round_trip_partial L H hH srch hsr p org hs ho hsp ?_ out0 eh ef e out hout
  intro h0
  have := i.part_ids
  rw [h0] at this
  exact hne (List.map_eq_nil_iff.1 this.symm)

/-- C99 with what the sent file is. -/
theorem send_and_restore_cmd (L : LzmaLaws) {SK PK : Type} (H : HashFn) (hH : HashLen H) (S : SigScheme SK PK) (hS : ∀ sk rnd k d, S.sign sk rnd k d ≠ .error .ok)
    (srch : Bytes → Bytes → Int → Option (Int × Int)) (hsr : ∀ o n, SearchOk o n (srch o n))
    (t t' : List (Cmd SK × Err)) (f g : Bytes) (hf : Session H S t (some f)) (hg : Session H S t' (some g))
    (hp : ∀ pre q post, usedParts (storedPkg f).hdr = pre ++ q :: post → Transportable H (storedPkg f) true pre q)
    (has : ∀ c ∈ sessionFiles H t, ∃ c' ∈ sessionFiles H t', c'.1 = c.1) (hne : sessionFiles H t ≠ [])
    (u : Bytes) (ul : u.length = 16) (hu : HasEntry (storedPkg f).hdr idBpakPackage 0 u) (hv : HasEntry (storedPkg g).hdr idBpakPackage 0 u)
    (hsp : SamePlace (storedPkg f).hdr (storedPkg g).hdr) (short : 29 * f.length < 2^63) :
    ∃ e, 4096 ≤ e.length ∧ (pkgOpen H true e).1 = .ok ∧ transportEncodeCmd H srch (some f) (some (some g)) true = .ok e ∧ transportDecodeCmd H (some e) (some (some g)) true = .ok f := by
  rcases session_inv hH S hS hf with ⟨h0, -⟩ | ⟨p, e1, i0⟩
  · cases h0
  rcases session_inv hH S hS hg with ⟨h0, -⟩ | ⟨o, e2, j0⟩
  · cases h0
  cases e1
  cases e2
  have i := i0.stored
  have j := j0.stored
  have oi := i.open true
  have oj := j.open true
  obtain ⟨n1, n2⟩ := new_output H hH
  obtain ⟨eh, ef, c1, c2, c3, c4, c5⟩ := send_and_restore L hH srch hsr i (some (storedPkg o.file)) hp
    (fun x hx => Option.some.inj hx ▸ i.originFor j has u ul hu hv) (fun x hx => Option.some.inj hx ▸ hsp) hne short
    (pkgOpen H true []).2.file (pkgOpen H true []).2.file (by omega)
  have oe := C56_open_existing H true ef c2
  rw [c3, c4] at oe
  have op : transportOpen H (some p.file) (some (some o.file)) = .ok (storedPkg p.file, some (storedPkg o.file)) := by
    unfold transportOpen
    simp only
    rw [show pkgOpen H true p.file = (.ok, storedPkg p.file) from oi, show pkgOpen H true o.file = (.ok, storedPkg o.file) from oj]
    rfl
  have oe' : transportOpen H (some ef) (some (some o.file)) = .ok (⟨eh, ef, []⟩, some (storedPkg o.file)) := by
    unfold transportOpen
    simp only
    rw [oe, show pkgOpen H true o.file = (.ok, storedPkg o.file) from oj]
    rfl
  refine ⟨ef, c2, by rw [oe], ?_, ?_⟩
  · unfold transportEncodeCmd
    rw [op]
    simp only [n1]
    rw [if_neg (by decide), if_neg (fun h => h rfl)]
    simp only [Option.map_some, Pkg.pair] at c1
    rw [c1]
  · unfold transportDecodeCmd
    rw [oe']
    simp only [n1]
    rw [if_neg (by decide), if_neg (fun h => h rfl)]
    simp only [Option.map_some, Pkg.pair] at c5
    rw [c5]
    rfl

/-- C99, partial: take any two sessions with the tool, one leading to a package `f` and one to an origin `g`, where the origin has a part of each name in
the package and the same 16-byte package id at the same place, and where the transport entries of the package make sense (`Transportable`). Then `bpak transport --encode` writes a file, and
`bpak transport --decode` of that file with the same origin writes `f`, byte for byte. Partial as C38: package ids at the same place, and a package with a part. -/
theorem C99_send_and_restore_partial (L : LzmaLaws) {SK PK : Type} (H : HashFn) (hH : HashLen H) (S : SigScheme SK PK) (hS : ∀ sk rnd k d, S.sign sk rnd k d ≠ .error .ok)
    (srch : Bytes → Bytes → Int → Option (Int × Int)) (hsr : ∀ o n, SearchOk o n (srch o n))
    (t t' : List (Cmd SK × Err)) (f g : Bytes) (hf : Session H S t (some f)) (hg : Session H S t' (some g))
    (hp : ∀ pre q post, usedParts (storedPkg f).hdr = pre ++ q :: post → Transportable H (storedPkg f) true pre q)
    (has : ∀ c ∈ sessionFiles H t, ∃ c' ∈ sessionFiles H t', c'.1 = c.1) (hne : sessionFiles H t ≠ [])
    (u : Bytes) (ul : u.length = 16) (hu : HasEntry (storedPkg f).hdr idBpakPackage 0 u) (hv : HasEntry (storedPkg g).hdr idBpakPackage 0 u)
    (hsp : SamePlace (storedPkg f).hdr (storedPkg g).hdr) (short : 29 * f.length < 2^63) :
    ∃ e, transportEncodeCmd H srch (some f) (some (some g)) true = .ok e ∧ transportDecodeCmd H (some e) (some (some g)) true = .ok f := by
  obtain ⟨e, -, -, h1, h2⟩ := send_and_restore_cmd L H hH S hS srch hsr t t' f g hf hg hp has hne u ul hu hv hsp short
  exact ⟨e, h1, h2⟩

/-- C99, different packages: against an origin with another package id, `--encode` stops with that code. -/
theorem C99_encode_other_package {SK PK : Type} (H : HashFn) (hH : HashLen H) (S : SigScheme SK PK) (hS : ∀ sk rnd k d, S.sign sk rnd k d ≠ .error .ok)
    (srch : Bytes → Bytes → Int → Option (Int × Int)) (t t' : List (Cmd SK × Err)) (f g : Bytes) (hf : Session H S t (some f)) (hg : Session H S t' (some g))
    (u v : Bytes) (ul : u.length = 16) (vl : v.length = 16) (ne : u ≠ v) (hu : HasEntry (storedPkg f).hdr idBpakPackage 0 u) (hv : HasEntry (storedPkg g).hdr idBpakPackage 0 v) :
    transportEncodeCmd H srch (some f) (some (some g)) true = .fail .packageUuidMismatch := by
  rcases session_inv hH S hS hf with ⟨h0, -⟩ | ⟨p, e1, i0⟩
  · cases h0
  rcases session_inv hH S hS hg with ⟨h0, -⟩ | ⟨o, e2, j0⟩
  · cases h0
  cases e1
  cases e2
  have i := i0.stored
  have j := j0.stored
  obtain ⟨n1, -⟩ := new_output H hH
  unfold transportEncodeCmd transportOpen
  simp only
  rw [show pkgOpen H true p.file = (.ok, storedPkg p.file) from i.open true, show pkgOpen H true o.file = (.ok, storedPkg o.file) from j.open true]
  simp only [n1]
  rw [if_neg (fun h => h rfl), if_neg (fun h => h rfl)]
  simp only
  rw [if_neg (by decide), if_neg (fun h => h rfl), C40_encode srch _ _ i.good.wf j.good.wf i.metas j.metas u v hu hv ul vl ne]

/-- C99 without `--origin`, a flaw: for any package the tool makes, both commands read the uninitialised variable `origin`, even if no part needs an origin. -/
theorem C99_no_origin_is_false {SK PK : Type} (H : HashFn) (hH : HashLen H) (S : SigScheme SK PK) (hS : ∀ sk rnd k d, S.sign sk rnd k d ≠ .error .ok)
    (srch : Bytes → Bytes → Int → Option (Int × Int)) (t : List (Cmd SK × Err)) (f : Bytes) (hf : Session H S t (some f)) :
    transportEncodeCmd H srch (some f) none true = .ub ∧ transportDecodeCmd H (some f) none true = .ub := by
  rcases session_inv hH S hS hf with ⟨h0, -⟩ | ⟨p, e1, i0⟩
  · cases h0
  cases e1
  obtain ⟨n1, -⟩ := new_output H hH
  unfold transportEncodeCmd transportDecodeCmd transportOpen
  simp only
  rw [show pkgOpen H true p.file = (.ok, storedPkg p.file) from i0.stored.open true]
  simp only [n1]
  exact ⟨rfl, rfl⟩

/-- C99, Python, partial: the functions of the Python module, with or without an origin, on the packages of two tool sessions: what is decoded into a new package is the
file sent. -/
theorem C99_python_partial (L : LzmaLaws) {SK PK : Type} (H : HashFn) (hH : HashLen H) (S : SigScheme SK PK) (hS : ∀ sk rnd k d, S.sign sk rnd k d ≠ .error .ok)
    (srch : Bytes → Bytes → Int → Option (Int × Int)) (hsr : ∀ o n, SearchOk o n (srch o n)) (t : List (Cmd SK × Err)) (f : Bytes) (hf : Session H S t (some f))
    (org : Option Bytes) (hp : ∀ pre q post, usedParts (storedPkg f).hdr = pre ++ q :: post → Transportable H (storedPkg f) org.isSome pre q)
    (hne : sessionFiles H t ≠ []) (short : 29 * f.length < 2^63)
    (ho : ∀ g, org = some g → ∃ t', Session H S t' (some g) ∧ (∀ c ∈ sessionFiles H t, ∃ c' ∈ sessionFiles H t', c'.1 = c.1) ∧
      SamePlace (storedPkg f).hdr (storedPkg g).hdr ∧ ∃ u : Bytes, u.length = 16 ∧ HasEntry (storedPkg f).hdr idBpakPackage 0 u ∧ HasEntry (storedPkg g).hdr idBpakPackage 0 u)
    (out0 out1 : Pkg) (l1 : out1.file.length ≤ 4096) :
    ∃ e, pyTransportEncode srch (storedPkg f) out0 (org.map storedPkg) = .ok e ∧ (pkgOpen H false e.file).1 = .ok ∧
      ∃ e' out, pyTransportDecode H (pkgOpen H false e.file).2 out1 (org.map storedPkg) = .ok (e', out) ∧ out.file = f := by
  rcases session_inv hH S hS hf with ⟨h0, -⟩ | ⟨p, e1, i0⟩
  · cases h0
  cases e1
  have i := i0.stored
  have hbool : (org.map storedPkg).isSome = org.isSome := by cases org <;> rfl
  obtain ⟨eh, ef, c1, c2, c3, c4, c5⟩ := send_and_restore L hH srch hsr i (org.map storedPkg) (by rw [hbool]; exact hp)
    (by
      intro o hx
      cases org with
      | none => cases hx
      | some g =>
        obtain ⟨t', hg, has, -, u, ul, hu, hv⟩ := ho g rfl
        rcases session_inv hH S hS hg with ⟨h0, -⟩ | ⟨q, e2, j0⟩
        · cases h0
        cases e2
        cases hx
        exact i.originFor j0.stored has u ul hu hv)
    (by
      intro o hx
      cases org with
      | none => cases hx
      | some g =>
        obtain ⟨t', hg, has, hsp, -⟩ := ho g rfl
        cases hx
        exact hsp) hne short out0.file out1.file l1
  have hpair : ∀ x : Option Pkg, x.map (fun o => (o.hdr, o.file)) = x.map Pkg.pair := fun x => rfl
  have oe := C56_open_existing H false ef c2
  rw [c3, c4] at oe
  refine ⟨{ out0 with hdr := eh, file := ef }, ?_, ?_, ?_⟩
  · unfold pyTransportEncode
    rw [hpair, c1]
  · show (pkgOpen H false ef).1 = .ok
    rw [oe]
  · show ∃ e' out, pyTransportDecode H (pkgOpen H false ef).2 out1 (org.map storedPkg) = .ok (e', out) ∧ out.file = p.file
    rw [oe]
    unfold pyTransportDecode
    rw [hpair]
    simp only
    rw [c5]
    exact ⟨_, _, rfl, rfl⟩

/-- C99, a flaw in Python: `bpak.transport_decode(input, output, origin)` puts the decoded package, its header too, into the *file* of the output object; the header the object itself holds stays what it was.
So what the object reports afterwards is the old header, and the next call on it that writes the header puts that old header over the decoded one (the rest of the file stays). -/
theorem C99_python_output_object_is_false (H : HashFn) (inp out : Pkg) (org : Option Pkg) (w : out.hdr.WF) (inp' out' : Pkg) (h : pyTransportDecode H inp out org = .ok (inp', out')) :
    out'.hdr = out.hdr ∧ inp'.file = inp.file ∧ parseHeader ((writeHeader out').file.take 4096) = out.hdr ∧ (writeHeader out').file.drop 4096 = out'.file.drop 4096 := by
  unfold pyTransportDecode at h
  split at h
  · rename_i hd f ht
    obtain ⟨rfl, rfl⟩ := Prod.mk.inj (Drv.ok.inj h)
    have e : (writeHeader { out with file := f }).file = out.hdr.image ++ f.drop 4096 := by
      show fileWrite f 0 out.hdr.image = _
      rw [fileWrite_zero, image_length w]
    refine ⟨rfl, rfl, ?_, ?_⟩
    · rw [e, List.take_append_of_le_length (by rw [image_length w]; omega), List.take_of_length_le (by rw [image_length w]; omega), parse_image w]
    · rw [e, List.drop_append_of_le_length (by rw [image_length w]; omega), List.drop_of_length_le (by rw [image_length w]; omega), List.nil_append]
  all_goals cases h

end Bpak
