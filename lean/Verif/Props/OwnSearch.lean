import Verif.Props.SuffixArray
import Verif.Props.TransportCmd
/-! Sending a package with the encoder's own search (C105). -/
namespace Bpak
variable [LzmaLib]

omit [LzmaLib] in
theorem ownSearch_ok {o n : Bytes} (junk : Int → Int) (h : SortsWithin o n) : SearchOk o n (ownSearch junk o n) := by
  rcases bsdiffInit_ok o (fun _ => false) junk with ⟨_, i, hi⟩ | ⟨S, e, hS⟩
  · cases hi
  · have : ownSearch junk o n = searchCall (S.map (fun (i : Nat) => (i : Int))) o n := by
      funext scan
      unfold ownSearch
      rw [e]
    rw [this]
    exact searchCall_sorted h.2.1 h.1 hS h.2.2

theorem transportBsdiff_congr {srch srch' : Bytes → Bytes → Int → Option (Int × Int)} (target : Bytes) (tOff tLen : Nat) (origin : Bytes) (oOff oLen : Nat)
    (out : Bytes) (outOff : Nat) (c : Comp) (h : srch (fileRead origin oOff oLen) (fileRead target tOff tLen) = srch' (fileRead origin oOff oLen) (fileRead target tOff tLen)) :
    transportBsdiff srch target tOff tLen origin oOff oLen out outOff c = transportBsdiff srch' target tOff tLen origin oOff oLen out outOff c := by
  unfold transportBsdiff
  rw [h]

/-- Encoding depends on the search only for the parts sent as deltas. -/
theorem encodeOne_congr {H : HashFn} {srch srch' : Bytes → Bytes → Int → Option (Int × Int)} {inp : Pkg} {org : Option Pkg} (hs : Sendable H inp org.isSome)
    (ho : ∀ o, org = some o → OriginFor inp o)
    (agree : ∀ o, org = some o → ∀ q ∈ usedParts inp.hdr, ∀ oq ∈ usedParts o.hdr, oq.id = q.id →
      (∃ enc dec tail, HasEntry inp.hdr idBpakTransport q.id (le32 enc ++ le32 dec ++ tail) ∧ enc ≠ idRemoveData) →
      srch (storedBytes o oq) (storedBytes inp q) = srch' (storedBytes o oq) (storedBytes inp q))
    {pre post : List PartHdr} {q : PartHdr} (hu : usedParts inp.hdr = pre ++ q :: post) (outH : Header) (out : Bytes) :
    encodeOne srch inp.hdr inp.file (org.map Pkg.pair) q.id outH out = encodeOne srch' inp.hdr inp.file (org.map Pkg.pair) q.id outH out := by
  have hq : q ∈ usedParts inp.hdr := by rw [hu]; simp
  obtain ⟨e1, e2⟩ := getPart_used (hs.good.parts.inv hs.good.wf) pre post q hu
  have alg : ∀ (a : U32) (o : Option (Header × Bytes × PartHdr)) (off : Nat), originPart (org.map Pkg.pair) q.id = .ok o →
      (a ≠ idRemoveData → ∃ enc dec tail, HasEntry inp.hdr idBpakTransport q.id (le32 enc ++ le32 dec ++ tail) ∧ enc ≠ idRemoveData) →
      encodeAlg srch a inp.hdr inp.file q off out o = encodeAlg srch' a inp.hdr inp.file q off out o := by
    intro a o off hpart hent
    unfold encodeAlg
    split
    · rename_i hd
      cases org with
      | none => 
        cases hpart
        rfl
      | some og =>
        have hog := ho og rfl
        obtain ⟨opre, oq, opost, hou, hid, hop, -⟩ := origin_part hog.good (hog.has q hq)
        have : some o = some (some (og.hdr, og.file, oq)) := by
          have h2 : Except.ok (ε := Err) o = .ok (some (og.hdr, og.file, oq)) := by rw [← hpart, ← hop]; rfl
          injection h2 with h2
          rw [h2]
        have := Option.some.inj this
        subst this
        simp only
        apply transportBsdiff_congr
        obtain ⟨p1, p2, -⟩ := good_part hs.good hs.small hu
        obtain ⟨q1, q2, -⟩ := good_part hog.good hog.small hou
        rw [p1, p2, q1, q2, ← (good_stored hs.good hs.small hu).1, ← (good_stored hog.good hog.small hou).1]
        exact agree og rfl q hq oq (by rw [hou]; simp) hid (hent (by rcases hd with h | h | h <;> rw [h] <;> decide))
    · rfl
  unfold encodeOne
  cases hg : getMeta inp.hdr idBpakTransport q.id with
  | none => rfl
  | some j =>
    simp only
    cases hw : transportWord inp.hdr j 0 with
    | none => rfl
    | some a =>
      simp only
      unfold encodePart
      rw [e1]
      cases getPart outH q.id with
      | none => rfl
      | some jo =>
        simp only [e2]
        cases outH.parts[jo]? with
        | none => rfl
        | some r =>
          simp only
          cases hop : originPart (org.map Pkg.pair) q.id with
          | error e => rfl
          | ok o =>
            simp only
            rw [alg a o _ hop]
            intro ha
            cases hs.parts pre q post hu with
            | copied no =>
              rw [getMeta_noEntry hs.metas hs.good.wf (by decide) no] at hg
              cases hg
            | delta enc dec tail entry algs _ =>
              exact ⟨enc, dec, tail, entry, by rcases algs with h | h | h <;> rw [h.1] <;> decide⟩
            | tree tail entry =>
              exfalso
              obtain ⟨i, m, g1, g2, -, -, -, g3, -, g4⟩ := getMeta_entry hs.metas hs.good.wf (by decide) entry
              rw [hg] at g1
              have := Option.some.inj g1
              subst this
              have := (transportWords hs.good.wf g2 g3 g4).1
              rw [hw] at this
              exact ha (Option.some.inj this)

theorem encodeGo_congr {srch srch' : Bytes → Bytes → Int → Option (Int × Int)} {inH : Header} {inp : Bytes} {org : Option (Header × Bytes)} (ps : List PartHdr) :
    (∀ q ∈ ps, q.id ≠ 0 → ∀ outH out, encodeOne srch inH inp org q.id outH out = encodeOne srch' inH inp org q.id outH out) →
    ∀ outH out, encodeGo srch inH inp org ps outH out = encodeGo srch' inH inp org ps outH out := by
  induction ps with
  | nil => intro _ _ _; rfl
  | cons q ps ih =>
    intro h outH out
    unfold encodeGo
    split
    · rfl
    · rename_i hid
      rw [h q (by simp) hid]
      cases encodeOne srch' inH inp org q.id outH out with
      | ok r => exact ih (fun q hq => h q (by simp [hq])) r.1 r.2
      | fail e => rfl
      | ub => rfl
      | hang => rfl

theorem transportEncode_congr {H : HashFn} {srch srch' : Bytes → Bytes → Int → Option (Int × Int)} {inp : Pkg} {org : Option Pkg} (hs : Sendable H inp org.isSome)
    (ho : ∀ o, org = some o → OriginFor inp o)
    (agree : ∀ o, org = some o → ∀ q ∈ usedParts inp.hdr, ∀ oq ∈ usedParts o.hdr, oq.id = q.id →
      (∃ enc dec tail, HasEntry inp.hdr idBpakTransport q.id (le32 enc ++ le32 dec ++ tail) ∧ enc ≠ idRemoveData) →
      srch (storedBytes o oq) (storedBytes inp q) = srch' (storedBytes o oq) (storedBytes inp q)) (out : Bytes) :
    transportEncode srch inp.hdr inp.file (org.map Pkg.pair) out = transportEncode srch' inp.hdr inp.file (org.map Pkg.pair) out := by
  unfold transportEncode
  rw [encodeGo_congr inp.hdr.parts]
  intro q hq hid outH out
  rw [(hs.good.parts.inv hs.good.wf).slots, List.mem_append] at hq
  rcases hq with hq | hq
  · obtain ⟨pre, post, hu⟩ := List.append_of_mem hq
    exact encodeOne_congr hs ho agree hu outH out
  · rw [(List.mem_replicate.1 hq).2] at hid
    exact absurd rfl hid

/-- C105: sending a package with the encoder's own array and search. As C99, for any two sessions with the tool, when for each part sent as a delta no rest of the part's
data comes behind all suffixes of the origin's part (`SortsWithin`): `bpak transport --encode` writes a file, and `bpak transport --decode` of it against the same
origin writes the package sent, byte for byte. Partial: as C99, and the condition, without which the encoder may leave its array (`C105_reads_past_end`). -/
theorem C105_send_and_restore_partial (L : LzmaLaws) {SK PK : Type} (H : HashFn) (hH : HashLen H) (S : SigScheme SK PK) (hS : ∀ sk rnd k d, S.sign sk rnd k d ≠ .error .ok)
    (junk : Int → Int) (t t' : List (Cmd SK × Err)) (f g : Bytes) (hf : Session H S t (some f)) (hg : Session H S t' (some g))
    (hp : ∀ pre q post, usedParts (storedPkg f).hdr = pre ++ q :: post → Transportable H (storedPkg f) true pre q)
    (has : ∀ c ∈ sessionFiles H t, ∃ c' ∈ sessionFiles H t', c'.1 = c.1) (hne : sessionFiles H t ≠ [])
    (u : Bytes) (ul : u.length = 16) (hu : HasEntry (storedPkg f).hdr idBpakPackage 0 u) (hv : HasEntry (storedPkg g).hdr idBpakPackage 0 u)
    (hsp : SamePlace (storedPkg f).hdr (storedPkg g).hdr) (short : 29 * f.length < 2^63)
    (within : ∀ q ∈ usedParts (storedPkg f).hdr, ∀ oq ∈ usedParts (storedPkg g).hdr, oq.id = q.id →
      (∃ enc dec tail, HasEntry (storedPkg f).hdr idBpakTransport q.id (le32 enc ++ le32 dec ++ tail) ∧ enc ≠ idRemoveData) →
      SortsWithin (storedBytes (storedPkg g) oq) (storedBytes (storedPkg f) q)) :
    ∃ e, transportEncodeCmd H (ownSearch junk) (some f) (some (some g)) true = .ok e ∧ transportDecodeCmd H (some e) (some (some g)) true = .ok f := by
  obtain ⟨srch', hsr, hag⟩ : ∃ srch' : Bytes → Bytes → Int → Option (Int × Int), (∀ o n, SearchOk o n (srch' o n)) ∧ ∀ o n, SortsWithin o n → ownSearch junk o n = srch' o n := by
    refine ⟨fun o n => @ite _ (SortsWithin o n) (Classical.propDecidable _) (ownSearch junk o n) (fun _ => some (0, 0)), fun o n => ?_, fun o n h => ?_⟩
    · by_cases h : SortsWithin o n
      · simp only [if_pos h]; exact ownSearch_ok junk h
      · simp only [if_neg h]; exact fun scan _ _ => ⟨0, 0, rfl, by omega, by omega, by omega, by omega⟩
    · simp only [if_pos h]
  obtain ⟨e, h1, h2⟩ := C99_send_and_restore_partial L H hH S hS srch' hsr t t' f g hf hg hp has hne u ul hu hv hsp short
  refine ⟨e, ?_, h2⟩
  rw [← h1]
  rcases session_inv hH S hS hf with ⟨h0, -⟩ | ⟨p, e1, i0⟩
  · cases h0
  rcases session_inv hH S hS hg with ⟨h0, -⟩ | ⟨o, e2, j0⟩
  · cases h0
  cases e1
  cases e2
  have i := i0.stored
  have j := j0.stored
  have hc := transportEncode_congr (srch := ownSearch junk) (srch' := srch') (i.sendable (some (storedPkg o.file)).isSome hp)
    (fun x hx => Option.some.inj hx ▸ i.originFor j has u ul hu hv)
    (fun x hx q hq oq hoq hid he => by
      have := Option.some.inj hx
      subst this
      exact hag _ _ (within q hq oq hoq hid he)) (pkgOpen H true []).2.file
  unfold transportEncodeCmd transportOpen
  simp only
  rw [show pkgOpen H true p.file = (.ok, storedPkg p.file) from i.open true, show pkgOpen H true o.file = (.ok, storedPkg o.file) from j.open true]
  simp only [Option.map_some, Pkg.pair] at hc
  simp only [ne_eq, not_true_eq_false, if_false, hc]

end Bpak
