import Verif.Props.TransportEx
import Verif.Props.Set
import Verif.Props.LzmaExample
/-! Encoding a package for transport that is encoded already (C95). -/
namespace Bpak
section
variable [LzmaLib]

omit [LzmaLib] in
theorem getPartGo_ids (id : U32) (a : List PartHdr) : ∀ (b : List PartHdr) (i : Nat), a.map (·.id) = b.map (·.id) → getPartGo id a i = getPartGo id b i := by
  induction a with
  | nil => intro b i h; cases b with | nil => rfl | cons y ys => cases h
  | cons x xs ih =>
    intro b i h
    cases b with
    | nil => cases h
    | cons y ys =>
      simp only [List.map_cons, List.cons.injEq] at h
      rw [getPartGo, getPartGo, h.1, ih ys (i+1) h.2]

omit [LzmaLib] in
theorem getPart_ids {h h' : Header} (id : U32) (e : h.parts.map (·.id) = h'.parts.map (·.id)) : getPart h id = getPart h' id := getPartGo_ids id _ _ 0 e

/-- All a second encoding needs to know about a part: it is marked as encoded and has a transport entry; the origin, if any, has it too. -/
def Done (h : Header) (org : Option (Header × Bytes)) (id : U32) : Prop :=
  (∃ i r, getPart h id = some i ∧ h.parts[i]? = some r ∧ r.isTransport = true) ∧ (∃ j alg, getMeta h idBpakTransport id = some j ∧ transportWord h j 0 = some alg) ∧
  ∃ o, originPart org id = .ok o

theorem encodeOne_done {srch : Bytes → Bytes → Int → Option (Int × Int)} {h : Header} {org : Option (Header × Bytes)} {id : U32} (d : Done h org id) (inp out : Bytes) :
    encodeOne srch h inp org id h out = .ok (h, out) := by
  obtain ⟨⟨i, r, h1, h2, h3⟩, ⟨j, alg, h4, h5⟩, o, h6⟩ := d
  unfold encodeOne
  rw [h4]
  simp only
  rw [h5]
  simp only
  unfold encodePart
  rw [h1]
  simp only
  rw [h2]
  simp only
  rw [h6]
  simp only
  rw [if_pos h3]

theorem encodeGo_done {srch : Bytes → Bytes → Int → Option (Int × Int)} {h : Header} {org : Option (Header × Bytes)} (inp out : Bytes) (qs : List PartHdr) :
    (∀ q ∈ qs.takeWhile (fun q => q.id ≠ 0), Done h org q.id) → encodeGo srch h inp org qs h out = .ok (h, out) := by
  induction qs with
  | nil => intro _; rfl
  | cons q qs ih =>
    intro hd
    rw [encodeGo]
    by_cases hq : q.id = 0
    · rw [if_pos hq]
    · rw [if_neg hq]
      rw [List.takeWhile_cons_of_pos (by simpa using hq)] at hd
      rw [encodeOne_done (hd q (by simp)) inp out]
      simp only
      exact ih (fun x hx => hd x (List.mem_cons_of_mem _ hx))

/-- "Encoding keeps the payload" is false for a package whose parts are marked as encoded: the call succeeds, and the output gets the
header and nothing else, whatever the package contains. (Without origin; every part has a transport entry.) -/
theorem C95_encoded_package_is_false (srch : Bytes → Bytes → Int → Option (Int × Int)) (h : Header) (hr : Reachable h)
    (hd : ∀ q ∈ usedParts h, q.isTransport = true ∧ ∃ e ∈ entries h, e.id = idBpakTransport ∧ e.ref = q.id ∧ 4 ≤ e.data.length) (payload : Bytes) :
    transportEncode srch h (h.image ++ payload) none [] = .ok (h, h.image) := by
  obtain ⟨wf, ⟨us, k, im⟩, ⟨ps, kp, ip⟩, -, -⟩ := hr.inv
  have : encodeGo srch h (h.image ++ payload) none h.parts h [] = .ok (h, []) := by
    refine encodeGo_done _ _ _ ?_
    intro q hq
    obtain ⟨h1, e, he, h2, h3, h4⟩ := hd q hq
    have hq' : q ∈ ps := by rw [← ip.used]; exact hq
    obtain ⟨pre, post, hs⟩ := List.append_of_mem hq'
    have hg := getPart_used ip pre post q hs
    rw [entries_inv im] at he
    obtain ⟨m, hm, rfl⟩ := List.mem_map.1 he
    obtain ⟨pre', post', hs'⟩ := List.append_of_mem hm
    have hg' := getMeta_used im pre' post' m hs'
    have e2 : m.id = idBpakTransport := h2
    have e3 : m.partRef = q.id := h3
    rw [e2, e3] at hg'
    have hb := (im.packed.ge m hm).2
    have hmd := im.md
    have hl : (entOf h m).data.length = m.size.toNat := by
      show ((h.metadata.drop m.offset.toNat).take m.size.toNat).length = _
      rw [List.length_take, List.length_drop]; omega
    refine ⟨⟨_, q, hg.1, hg.2, h1⟩, ⟨_, ofLe32 ((h.metadata.drop m.offset.toNat).take 4), hg'.1, ?_⟩, none, rfl⟩
    unfold transportWord metaBytes
    rw [hg'.2]
    simp only
    rw [Nat.add_zero, readAt_eq_some (by omega)]
    rfl
  unfold transportEncode encodeOriginCheck
  simp only
  rw [this]
  simp only
  congr 2
  rw [fileWrite_zero]
  simp

/-! ### Encoding twice -/

omit [LzmaLib] in
theorem markEncoded_transport (q : PartHdr) (n : Nat) : (markEncoded q n).isTransport = true ∧ (markEncoded q n).id = q.id := by
  refine ⟨?_, rfl⟩
  unfold markEncoded PartHdr.isTransport
  simp only [BitVec.getLsbD_or]
  rw [show ((2 : U8).getLsbD 1) = true from rfl, Bool.or_true]

theorem encodeOne_marks {srch : Bytes → Bytes → Int → Option (Int × Int)} {inH outH h1 : Header} {org : Option (Header × Bytes)} {inp out o1 : Bytes} {id : U32}
    (hids : outH.parts.map (·.id) = inH.parts.map (·.id)) (he : encodeOne srch inH inp org id outH out = .ok (h1, o1)) :
    h1 = { outH with parts := h1.parts } ∧ h1.parts.map (·.id) = inH.parts.map (·.id) ∧
    (∀ (i : Nat) (r : PartHdr), outH.parts[i]? = some r → r.isTransport = true → ∃ r', h1.parts[i]? = some r' ∧ r'.isTransport = true) ∧
    ((∃ j, getMeta inH idBpakTransport id = some j) → (∃ i r, getPart inH id = some i ∧ h1.parts[i]? = some r ∧ r.isTransport = true) ∧
      (∃ j alg, getMeta inH idBpakTransport id = some j ∧ transportWord inH j 0 = some alg) ∧ ∃ o, originPart org id = .ok o) := by
  unfold encodeOne at he
  cases hm : getMeta inH idBpakTransport id with
  | none =>
    rw [hm] at he
    simp only at he
    split at he
    · obtain ⟨rfl, rfl⟩ := Prod.mk.inj (Drv.ok.inj he)
      exact ⟨rfl, hids, fun i r h1 h2 => ⟨r, h1, h2⟩, fun ⟨j, hj⟩ => by cases hj⟩
    · cases he
    · cases he
    · cases he
  | some j =>
    rw [hm] at he
    simp only at he
    cases hw : transportWord inH j 0 with
    | none => rw [hw] at he; cases he
    | some alg =>
      rw [hw] at he
      simp only at he
      unfold encodePart at he
      rw [getPart_ids id hids] at he
      cases hp : getPart inH id with
      | none => rw [hp] at he; cases he
      | some i =>
        rw [hp] at he
        simp only at he
        cases hq : inH.parts[i]? with
        | none => rw [hq] at he; cases he
        | some q =>
          cases hr : outH.parts[i]? with
          | none => rw [hq, hr] at he; cases he
          | some r =>
            rw [hq, hr] at he
            simp only at he
            cases ho : originPart org id with
            | error e => rw [ho] at he; cases he
            | ok o =>
              rw [ho] at he
              simp only at he
              by_cases ht : r.isTransport = true
              · rw [if_pos ht] at he
                obtain ⟨rfl, rfl⟩ := Prod.mk.inj (Drv.ok.inj he)
                exact ⟨rfl, hids, fun i r h1 h2 => ⟨r, h1, h2⟩, fun _ => ⟨⟨i, r, rfl, hr, ht⟩, ⟨j, alg, rfl, hw⟩, o, rfl⟩⟩
              · rw [if_neg ht] at he
                split at he
                · cases he
                · split at he
                  · rename_i out' n _
                    obtain ⟨rfl, rfl⟩ := Prod.mk.inj (Drv.ok.inj he)
                    refine ⟨rfl, ?_, ?_, fun _ => ⟨⟨i, markEncoded r n, rfl, ?_, (markEncoded_transport r n).1⟩, ⟨j, alg, rfl, hw⟩, o, rfl⟩⟩
                    · simp only
                      rw [← hids]
                      apply List.ext_getElem?
                      intro l
                      simp only [List.getElem?_map, List.getElem?_modify]
                      by_cases hl : i = l
                      · subst hl; simp [hr, (markEncoded_transport r n).2]
                      · simp [hl]
                    · intro l r' h1 h2
                      simp only [List.getElem?_modify]
                      by_cases hl : i = l
                      · subst hl
                        rw [hr] at h1
                        cases h1
                        exact absurd h2 ht
                      · exact ⟨r', by simp [hl, h1], h2⟩
                    · simp only [List.getElem?_modify]
                      simp [hr]
                  · cases he
                  · cases he
                  · cases he

theorem encodeGo_marks {srch : Bytes → Bytes → Int → Option (Int × Int)} {inH : Header} {org : Option (Header × Bytes)} {inp : Bytes} (qs : List PartHdr) :
    ∀ (outH h1 : Header) (out o1 : Bytes), outH.parts.map (·.id) = inH.parts.map (·.id) → encodeGo srch inH inp org qs outH out = .ok (h1, o1) →
    h1 = { outH with parts := h1.parts } ∧ h1.parts.map (·.id) = inH.parts.map (·.id) ∧
    (∀ (i : Nat) (r : PartHdr), outH.parts[i]? = some r → r.isTransport = true → ∃ r', h1.parts[i]? = some r' ∧ r'.isTransport = true) ∧
    ∀ q ∈ qs.takeWhile (fun q => q.id ≠ 0), (∃ j, getMeta inH idBpakTransport q.id = some j) →
      (∃ i r, getPart inH q.id = some i ∧ h1.parts[i]? = some r ∧ r.isTransport = true) ∧
      (∃ j alg, getMeta inH idBpakTransport q.id = some j ∧ transportWord inH j 0 = some alg) ∧ ∃ o, originPart org q.id = .ok o := by
  induction qs with
  | nil =>
    intro outH h1 out o1 hids he
    obtain ⟨rfl, rfl⟩ := Prod.mk.inj (Drv.ok.inj he)
    exact ⟨rfl, hids, fun i r h1 h2 => ⟨r, h1, h2⟩, fun q hq => by cases hq⟩
  | cons q qs ih =>
    intro outH h1 out o1 hids he
    rw [encodeGo] at he
    by_cases hq : q.id = 0
    · rw [if_pos hq] at he
      obtain ⟨rfl, rfl⟩ := Prod.mk.inj (Drv.ok.inj he)
      refine ⟨rfl, hids, fun i r h1 h2 => ⟨r, h1, h2⟩, fun x hx => ?_⟩
      rw [List.takeWhile_cons_of_neg (by simpa using hq)] at hx
      cases hx
    · rw [if_neg hq] at he
      split at he
      · rename_i h2 o2 hstep
        obtain ⟨a1, a2, a3, a4⟩ := encodeOne_marks hids hstep
        obtain ⟨b1, b2, b3, b4⟩ := ih h2 h1 o2 o1 a2 he
        refine ⟨?_, b2, ?_, ?_⟩
        · rw [b1, a1]
        · intro i r hi ht
          obtain ⟨r', h3, h4⟩ := a3 i r hi ht
          exact b3 i r' h3 h4
        · intro x hx hm
          rw [List.takeWhile_cons_of_pos (by simpa using hq)] at hx
          rcases List.mem_cons.1 hx with rfl | hx
          · obtain ⟨⟨i, r, c1, c2, c3⟩, c4, c5⟩ := a4 hm
            obtain ⟨r', d1, d2⟩ := b3 i r c2 c3
            exact ⟨⟨i, r', c1, d1, d2⟩, c4, c5⟩
          · exact b4 x hx hm
      · cases he
      · cases he
      · cases he

/-- "Encoding the result of an encoding gives it again" is false: if every part has a transport entry and the first encoding succeeds, so
does the second, with the same origin and with none; its output is the header, written over whatever is in the output file, and nothing
else: of the encoded parts no byte is copied. -/
theorem C95_encode_twice_is_false (srch : Bytes → Bytes → Int → Option (Int × Int)) (h h1 : Header) (f f1 : Bytes) (org : Option (Header × Bytes)) (out : Bytes)
    (hm : ∀ q ∈ usedParts h, ∃ j, getMeta h idBpakTransport q.id = some j) (h1e : transportEncode srch h f org out = .ok (h1, f1)) (out2 : Bytes) :
    transportEncode srch h1 f1 org out2 = .ok (h1, fileWrite out2 0 h1.image) ∧ transportEncode srch h1 f1 none out2 = .ok (h1, fileWrite out2 0 h1.image) := by
  have hc : encodeOriginCheck h org = .ok () := by
    unfold transportEncode at h1e
    split at h1e
    · assumption
    · cases h1e
    · cases h1e
    · cases h1e
  have hg : ∃ o, encodeGo srch h f org h.parts h out = .ok (h1, o) := by
    unfold transportEncode at h1e
    rw [hc] at h1e
    simp only at h1e
    split at h1e
    · rename_i h2 o2 hgo
      obtain ⟨rfl, -⟩ := Prod.mk.inj (Drv.ok.inj h1e)
      exact ⟨o2, hgo⟩
    · cases h1e
    · cases h1e
    · cases h1e
  obtain ⟨o, hg⟩ := hg
  obtain ⟨b1, b2, -, b4⟩ := encodeGo_marks h.parts h h1 out o rfl hg
  have em : h1.metas = h.metas := by rw [b1]
  have ed : h1.metadata = h.metadata := by rw [b1]
  have egm : ∀ a b, getMeta h1 a b = getMeta h a b := by intro a b; unfold getMeta; rw [em]
  have emb : ∀ i d n, metaBytes h1 h1 i d n = metaBytes h h i d n := by intro i d n; unfold metaBytes; rw [em, ed]
  have hused : ∀ q ∈ h1.parts.takeWhile (fun q => q.id ≠ 0), ∃ q' ∈ h.parts.takeWhile (fun q => q.id ≠ 0), q'.id = q.id := by
    have key : ∀ a b : List PartHdr, a.map (·.id) = b.map (·.id) → ∀ q ∈ a.takeWhile (fun q => decide (q.id ≠ 0)), ∃ q' ∈ b.takeWhile (fun q => decide (q.id ≠ 0)), q'.id = q.id := by
      intro a
      induction a with
      | nil => intro b _ q hq; cases hq
      | cons x xs ih =>
        intro b e q hq
        cases b with
        | nil => cases e
        | cons y ys =>
          simp only [List.map_cons, List.cons.injEq] at e
          by_cases hx : x.id = 0
          · rw [List.takeWhile_cons_of_neg (by simpa using hx)] at hq; cases hq
          · rw [List.takeWhile_cons_of_pos (by simpa using hx)] at hq
            rw [List.takeWhile_cons_of_pos (by rw [← e.1]; simpa using hx)]
            rcases List.mem_cons.1 hq with rfl | hq
            · exact ⟨y, by simp, e.1.symm⟩
            · obtain ⟨q', h1, h2⟩ := ih ys e.2 q hq
              exact ⟨q', List.mem_cons_of_mem _ h1, h2⟩
    exact key _ _ b2
  have done : ∀ org2 : Option (Header × Bytes), (org2 = org ∨ org2 = none) → ∀ q ∈ h1.parts.takeWhile (fun q => q.id ≠ 0), Done h1 org2 q.id := by
    intro org2 ho q hq
    obtain ⟨q', hq', e⟩ := hused q hq
    obtain ⟨⟨i, r, c1, c2, c3⟩, ⟨j, alg, c4, c5⟩, c6⟩ := b4 q' hq' (hm q' hq')
    rw [e] at c1 c4 c6
    refine ⟨⟨i, r, ?_, c2, c3⟩, ⟨j, alg, ?_, ?_⟩, ?_⟩
    · rw [getPart_ids q.id b2]; exact c1
    · rw [egm]; exact c4
    · unfold transportWord; rw [emb]; exact c5
    · rcases ho with rfl | rfl
      · exact c6
      · exact ⟨none, rfl⟩
  have ck : ∀ org2 : Option (Header × Bytes), (org2 = org ∨ org2 = none) → encodeOriginCheck h1 org2 = .ok () := by
    rintro org2 (rfl | rfl)
    · rw [← hc]
      unfold encodeOriginCheck
      simp only [egm, emb]
    · rfl
  have fin : ∀ org2 : Option (Header × Bytes), (org2 = org ∨ org2 = none) → transportEncode srch h1 f1 org2 out2 = .ok (h1, fileWrite out2 0 h1.image) := by
    intro org2 ho
    unfold transportEncode
    rw [ck org2 ho]
    simp only
    rw [encodeGo_done f1 out2 h1.parts (done org2 ho)]
  exact ⟨fin org (Or.inl rfl), fin none (Or.inr rfl)⟩

end

attribute [local instance] storeLib

/-- Two parts, one sent as a difference of 5 bytes, one removed. -/
def exEncodedOps : List Op := [.addMeta idBpakTransport 9 24, .writeMeta idBpakTransport 9 (le32 idBsdiff ++ le32 idBspatch ++ List.replicate 16 0), .addMeta idBpakTransport 7 24,
    .writeMeta idBpakTransport 7 (le32 idRemoveData ++ le32 idMerkleGenerate ++ List.replicate 16 0), .addPart 9, .addPart 7, .setPart 9 100 412 2 5, .setPart 7 512 0 2 0]
def exEncodedH : Header := (run initHeader exEncodedOps).getD initHeader

/-- C95: encoding this package loses the 5 bytes. -/
example : transportEncode (fun _ _ _ => none) exEncodedH (exEncodedH.image ++ [1, 2, 3, 4, 5]) none [] = .ok (exEncodedH, exEncodedH.image) := by
  refine C95_encoded_package_is_false _ exEncodedH ⟨exEncodedOps, by decide +kernel⟩ ?_ [1, 2, 3, 4, 5]
  decide +kernel

/-- The same package before its encoding, with the second part only. -/
def exPlainH : Header :=
  (run initHeader [.addMeta idBpakTransport 7 24, .writeMeta idBpakTransport 7 (le32 idRemoveData ++ le32 idMerkleGenerate ++ List.replicate 16 0), .addPart 7, .setPart 7 512 0 0 0]).getD initHeader

example : (usedParts exPlainH).map (fun q => (q.id, q.size)) = [(7, 512)] := by decide +kernel

/-- C95: it can be encoded, once and twice. -/
example : ∃ h1 f1, transportEncode (fun _ _ _ => none) exPlainH [] none [] = .ok (h1, f1) ∧ transportEncode (fun _ _ _ => none) h1 f1 none [] = .ok (h1, fileWrite [] 0 h1.image) := by
  have e : (match transportEncode (fun _ _ _ => none) exPlainH [] none [] with | .ok _ => true | _ => false) = true := by decide +kernel
  split at e
  · rename_i r e1
    have k : ∀ q ∈ usedParts exPlainH, (getMeta exPlainH idBpakTransport q.id).isSome = true := by decide +kernel
    exact ⟨r.1, r.2, e1, (C95_encode_twice_is_false _ _ _ [] _ none [] (fun q hq => Option.isSome_iff_exists.1 (k q hq)) e1 []).1⟩
  · cases e

end Bpak
