import Verif.Props.TransportSize
import Verif.Props.TransportId
/-!
Packages that meet the hypotheses of C38-C40, with any data; and what C38 does not hold for.
-/
namespace Bpak
variable [LzmaLib]

omit [LzmaLib] in
theorem at_index {α : Type} (l : List α) (P : List α → α → Prop) (h : ∀ i, (hi : i < l.length) → P (l.take i) l[i]) : ∀ pre m post, l = pre ++ m :: post → P pre m := by
  intro pre m post e
  have hi : pre.length < l.length := by rw [e]; simp
  have := h pre.length hi
  simp only [e] at this
  simpa using this

def exTreeId : U32 := partIdToHashTreeId 9
def exUuid : Bytes := List.replicate 16 7
def exUuid2 : Bytes := List.replicate 16 8
def exSalt : Bytes := List.replicate 32 5

def exMetasA : List MetaHdr := [⟨idBpakPackage, 16, 0, 0, [0,0,0,0]⟩, ⟨idBpakTransport, 8, 16, 9, [0,0,0,0]⟩, ⟨idMerkleSalt, 32, 24, 9, [0,0,0,0]⟩, ⟨idBpakTransport, 8, 56, exTreeId, [0,0,0,0]⟩]

def exMetasB : List MetaHdr := [⟨0x1234, 16, 0, 0, [0,0,0,0]⟩, ⟨idBpakPackage, 16, 16, 0, [0,0,0,0]⟩]

/-- A header with a package id, a part 9 sent as a compressed delta, and its hash tree, left out. -/
def exBaseA (u : Bytes) : Header := { initHeader with
  metas := exMetasA ++ List.replicate 28 MetaHdr.zero
  metadata := u ++ le32 idBsdiffLzma ++ le32 idBspatchLzma ++ exSalt ++ le32 idRemoveData ++ le32 idMerkleGenerate ++ List.replicate 1856 0 }

/-- A header with the same package id at another place. -/
def exBaseB : Header := { initHeader with
  metas := exMetasB ++ List.replicate 30 MetaHdr.zero
  metadata := List.replicate 16 0 ++ exUuid ++ List.replicate 1888 0 }

def trParts (a f t : Nat) : List PartHdr := [⟨7, BitVec.ofNat 64 a, 0, 0, 0, 0, 0⟩, ⟨9, BitVec.ofNat 64 f, 0, 0, 0, 0, 0⟩, ⟨exTreeId, BitVec.ofNat 64 t, 0, 0, 0, 0, 0⟩]

def trHdr (base : Header) (A F T : Bytes) : Header := { base with parts := trParts A.length F.length T.length ++ List.replicate 29 PartHdr.zero }

def trPkg (base : Header) (A F T : Bytes) : Pkg := ⟨trHdr base A F T, (trHdr base A F T).image ++ A ++ F ++ T, []⟩

omit [LzmaLib] in
theorem exIds : (9 : U32) ≠ 0 ∧ (7 : U32) ≠ 0 ∧ exTreeId ≠ 0 ∧ (7 : U32) ≠ 9 ∧ (7 : U32) ≠ exTreeId ∧ (9 : U32) ≠ exTreeId := by decide +kernel

omit [LzmaLib] in
theorem exInv (base : Header) (A F T : Bytes) : PartInv (trHdr base A F T) (trParts A.length F.length T.length) 29 := by
  obtain ⟨i1, i2, i3, i4, i5, i6⟩ := exIds
  refine ⟨rfl, rfl, ?_, ?_⟩
  · intro p hp
    simp only [trParts, List.mem_cons, List.not_mem_nil, or_false] at hp
    rcases hp with rfl | rfl | rfl <;> assumption
  · simp only [trParts, List.pairwise_cons, List.mem_cons, List.not_mem_nil, or_false, forall_eq_or_imp, forall_eq]
    exact ⟨⟨i4, i5⟩, i6, by simp, List.Pairwise.nil⟩

omit [LzmaLib] in
theorem exUsed (base : Header) (A F T : Bytes) : usedParts (trHdr base A F T) = trParts A.length F.length T.length := (exInv base A F T).used

omit [LzmaLib] in
theorem exStored (a : Nat) (id : U32) (h : a < 2^63) : storedSize ⟨id, BitVec.ofNat 64 a, 0, 0, 0, 0, 0⟩ = a := by
  unfold storedSize
  simp only
  rw [if_neg (by decide), BitVec.toNat_ofNat, Nat.mod_eq_of_lt (by omega)]
  rfl

omit [LzmaLib] in
theorem exGood (base : Header) (wf : base.WF) (hk : base.hashKind = 1) (A F T : Bytes) (hs : A.length + F.length + T.length < 2^62) :
    GoodPkg (trPkg base A F T) ∧ Saved (trPkg base A F T) ∧ (trPkg base A F T).file.length = 4096 + A.length + F.length + T.length := by
  have w : (trHdr base A F T).WF := withParts_wf wf _ rfl
  have him := image_length w
  have hu := exUsed base A F T
  have hl : (trPkg base A F T).file.length = 4096 + A.length + F.length + T.length := by
    show ((trHdr base A F T).image ++ A ++ F ++ T).length = _
    rw [List.length_append, List.length_append, List.length_append, him]
  refine ⟨⟨w, ⟨?_, ?_⟩, ⟨32, ?_⟩, ?_, ?_⟩, ⟨by omega, ?_⟩, hl⟩
  · show (trHdr base A F T).parts = usedParts (trHdr base A F T) ++ _
    rw [hu]; rfl
  · show (usedParts (trHdr base A F T)).Pairwise _
    rw [hu]; exact (exInv base A F T).distinct
  · show digestLen base.hashKind = some 32
    rw [hk]; rfl
  · show ∀ q ∈ usedParts (trHdr base A F T), _
    rw [hu]
    intro p hp
    simp only [trParts, List.mem_cons, List.not_mem_nil, or_false] at hp
    rcases hp with rfl | rfl | rfl <;> exact (by decide : (0 : U8) &&& 2 = 0)
  · rw [hl]
    show _ = 4096 + ((usedParts (trHdr base A F T)).map storedSize).sum
    rw [hu]
    simp only [trParts, List.map_cons, List.map_nil, List.sum_cons, List.sum_nil]
    rw [exStored _ _ (by omega), exStored _ _ (by omega), exStored _ _ (by omega)]
    omega
  · show parseHeader (((trHdr base A F T).image ++ A ++ F ++ T).take 4096) = trHdr base A F T
    rw [List.append_assoc, List.append_assoc, List.take_append_of_le_length (by omega), List.take_of_length_le (by omega)]
    exact parse_image w

omit [LzmaLib] in
theorem exBytes (base : Header) (wf : base.WF) (hk : base.hashKind = 1) (A F T : Bytes) (hs : A.length + F.length + T.length < 2^62) :
    storedBytes (trPkg base A F T) ⟨9, BitVec.ofNat 64 F.length, 0, 0, 0, 0, 0⟩ = F ∧ storedBytes (trPkg base A F T) ⟨exTreeId, BitVec.ofNat 64 T.length, 0, 0, 0, 0, 0⟩ = T := by
  obtain ⟨g, _, hl⟩ := exGood base wf hk A F T hs
  have w : (trHdr base A F T).WF := withParts_wf wf _ rfl
  have him := image_length w
  have hu := exUsed base A F T
  have e1 := (good_part g (by omega) (pre := [⟨7, BitVec.ofNat 64 A.length, 0, 0, 0, 0, 0⟩]) (q := ⟨9, BitVec.ofNat 64 F.length, 0, 0, 0, 0, 0⟩) (post := [⟨exTreeId, BitVec.ofNat 64 T.length, 0, 0, 0, 0, 0⟩]) hu).1
  have e2 := (good_part g (by omega) (pre := [⟨7, BitVec.ofNat 64 A.length, 0, 0, 0, 0, 0⟩, ⟨9, BitVec.ofNat 64 F.length, 0, 0, 0, 0, 0⟩]) (q := ⟨exTreeId, BitVec.ofNat 64 T.length, 0, 0, 0, 0, 0⟩) (post := []) hu).1
  simp only [List.map_cons, List.map_nil, List.sum_cons, List.sum_nil] at e1 e2
  rw [exStored _ _ (by omega)] at e1 e2
  rw [exStored _ _ (by omega)] at e2
  unfold storedBytes
  rw [e1, e2, exStored _ _ (by omega), exStored _ _ (by omega)]
  show fileRead ((trHdr base A F T).image ++ A ++ F ++ T) _ _ = _ ∧ fileRead ((trHdr base A F T).image ++ A ++ F ++ T) _ _ = _
  unfold fileRead
  constructor
  · rw [show (trHdr base A F T).image ++ A ++ F ++ T = ((trHdr base A F T).image ++ A) ++ (F ++ T) from by simp,
      show 4096 + (A.length + 0) = ((trHdr base A F T).image ++ A).length from by rw [List.length_append, him]; omega, List.drop_left, List.take_left]
  · rw [show 4096 + (A.length + (F.length + 0)) = ((trHdr base A F T).image ++ A ++ F).length from by rw [List.length_append, List.length_append, him]; omega, List.drop_left, List.take_length]

omit [LzmaLib] in
theorem exWfA : (exBaseA exUuid).WF ∧ (exBaseA exUuid2).WF ∧ exBaseB.WF := by decide +kernel

omit [LzmaLib] in
theorem goodMetas_of {h : Header} (us : List MetaHdr) (hu : usedMetas h = us) (hs : h.metas = us ++ List.replicate (32 - us.length) MetaHdr.zero)
    (hd : us.Pairwise (fun a b => ¬ (a.id = b.id ∧ a.partRef = b.partRef)))
    (hl : ∀ i, (hi : i < us.length) → us[i].offset.toNat = ((us.take i).map (fun x => (x.size.toNat + 7) / 8 * 8)).sum ∧ us[i].offset.toNat + us[i].size.toNat ≤ 1920) : GoodMetas h :=
  ⟨by rw [hu]; exact hs, by rw [hu]; exact hd, by rw [hu]; exact at_index us (fun pre m => m.offset.toNat = (pre.map (fun x => (x.size.toNat + 7) / 8 * 8)).sum ∧ m.offset.toNat + m.size.toNat ≤ 1920) hl⟩

omit [LzmaLib] in
theorem exMetasA_good (u : Bytes) : GoodMetas (exBaseA u) :=
  goodMetas_of exMetasA (by show (exMetasA ++ List.replicate 28 MetaHdr.zero).takeWhile _ = _; decide +kernel) rfl (by decide +kernel) (by decide +kernel)

omit [LzmaLib] in
theorem exMetasB_good : GoodMetas exBaseB :=
  goodMetas_of exMetasB (by decide +kernel) rfl (by decide +kernel) (by decide +kernel)

omit [LzmaLib] in
theorem exEntriesA : entries (exBaseA exUuid) = [⟨idBpakPackage, 0, exUuid⟩, ⟨idBpakTransport, 9, le32 idBsdiffLzma ++ le32 idBspatchLzma ++ []⟩, ⟨idMerkleSalt, 9, exSalt⟩, ⟨idBpakTransport, exTreeId, le32 idRemoveData ++ le32 idMerkleGenerate ++ []⟩] := by
  decide +kernel

omit [LzmaLib] in
theorem exEntriesA2 : HasEntry (exBaseA exUuid2) idBpakPackage 0 exUuid2 := by unfold HasEntry; decide +kernel
omit [LzmaLib] in
theorem exEntriesB : HasEntry exBaseB idBpakPackage 0 exUuid := by unfold HasEntry; decide +kernel

omit [LzmaLib] in
theorem exTree_len (F : Bytes) (h : TreeSupported F.length) : (hashTree exHash exSalt F).length ≤ 4 * F.length + 4 * 4096 := by
  have := C29_tree_size exHash exHash_len exSalt F h
  obtain ⟨h1, h2, h3⟩ := h
  rw [merkleComputeSize_eq, if_neg (by omega), if_neg (by omega)] at this
  rw [← Except.ok.inj this]
  unfold treeSize
  generalize hm : F.length / 4096 = m at *
  split <;> split <;> split <;> omega

omit [LzmaLib] in
/-- A package with a copied part, a part sent as a delta, and its hash tree is sendable, whatever the data. -/
theorem exSendable (A F : Bytes) (hF : TreeSupported F.length) (hA : A.length < 2^50) : Sendable exHash (trPkg (exBaseA exUuid) A F (hashTree exHash exSalt F)) true := by
  have hT := exTree_len F hF
  have hF3 := hF.2.2
  obtain ⟨g, s, l⟩ := exGood (exBaseA exUuid) exWfA.1 rfl A F (hashTree exHash exSalt F) (by omega)
  obtain ⟨b1, b2⟩ := exBytes (exBaseA exUuid) exWfA.1 rfl A F (hashTree exHash exSalt F) (by omega)
  have hu := exUsed (exBaseA exUuid) A F (hashTree exHash exSalt F)
  have hen : ∀ e, e ∈ entries (trPkg (exBaseA exUuid) A F (hashTree exHash exSalt F)).hdr ↔ e ∈ entries (exBaseA exUuid) := fun e => Iff.rfl
  refine ⟨g, ?_, s, by omega, ?_, ?_⟩
  · have := exMetasA_good exUuid
    exact ⟨this.slots, this.distinct, this.layout⟩
  · show ∀ q ∈ usedParts (trHdr (exBaseA exUuid) A F (hashTree exHash exSalt F)), _
    rw [hu]
    intro p hp
    simp only [trParts, List.mem_cons, List.not_mem_nil, or_false] at hp
    rcases hp with rfl | rfl | rfl <;> rfl
  · show ∀ pre q post, usedParts (trHdr (exBaseA exUuid) A F (hashTree exHash exSalt F)) = pre ++ q :: post → _
    rw [hu]
    refine at_index _ _ ?_
    intro i hi
    have hi3 : i < 3 := hi
    match i with
    | 0 =>
      refine .copied ?_
      intro e he
      rw [hen, exEntriesA] at he
      simp only [List.mem_cons, List.not_mem_nil, or_false] at he
      show ¬ (e.id = idBpakTransport ∧ e.ref = 7)
      rcases he with rfl | rfl | rfl | rfl
      · decide +kernel
      · decide +kernel
      · decide +kernel
      · decide +kernel
    | 1 => exact .delta idBsdiffLzma idBspatchLzma [] (by unfold HasEntry; rw [hen, exEntriesA]; simp [trParts]) (.inr (.inr ⟨rfl, rfl⟩)) rfl
    | 2 =>
      refine .tree [] (by unfold HasEntry; rw [hen, exEntriesA]; simp [trParts]) ⟨9, BitVec.ofNat 64 F.length, 0, 0, 0, 0, 0⟩ (by simp [trParts]) rfl exSalt
        (by unfold HasEntry; rw [hen, exEntriesA]; simp) rfl ?_ ?_
      · rw [exStored _ _ (by omega)]; exact hF
      · rw [b1]; exact b2
    | n+3 => omega

omit [LzmaLib] in
theorem exOriginFor (A F A' F' T' : Bytes) (base : Header) (wf : base.WF) (hk : base.hashKind = 1) (gm : GoodMetas base) (he : HasEntry base idBpakPackage 0 exUuid)
    (hs : A'.length + F'.length + T'.length < 2^62) : OriginFor (trPkg (exBaseA exUuid) A F (hashTree exHash exSalt F)) (trPkg base A' F' T') := by
  obtain ⟨g, s, l⟩ := exGood base wf hk A' F' T' hs
  refine ⟨g, ⟨gm.slots, gm.distinct, gm.layout⟩, by omega, ?_, exUuid, rfl, ?_, he⟩
  · show ∀ q ∈ usedParts (trHdr (exBaseA exUuid) A F (hashTree exHash exSalt F)), ∃ o ∈ usedParts (trHdr base A' F' T'), o.id = q.id
    rw [exUsed, exUsed]
    intro p hp
    simp only [trParts, List.mem_cons, List.not_mem_nil, or_false] at hp ⊢
    rcases hp with rfl | rfl | rfl
    · exact ⟨_, .inl rfl, rfl⟩
    · exact ⟨_, .inr (.inl rfl), rfl⟩
    · exact ⟨_, .inr (.inr rfl), rfl⟩
  · show _ ∈ entries (exBaseA exUuid)
    rw [exEntriesA]; simp

omit [LzmaLib] in
/-- A match search that finds nothing answers within range. -/
theorem exSearch (o n : Bytes) : SearchOk o n (fun _ => some (0, 0)) := fun scan h1 h2 => ⟨0, 0, rfl, by omega, by omega, by omega, by omega⟩

/-- C38 is false: a package sent against an origin of the same package id is not restored if the id lies elsewhere in the origin's header: the
decoder refuses the very origin the delta was made against. -/
theorem C38_round_trip_is_false (L : LzmaLaws) (H : HashFn) (srch : Bytes → Bytes → Int → Option (Int × Int)) (hsr : ∀ o n, SearchOk o n (srch o n)) (inp o : Pkg) (hs : Sendable H inp true)
    (ho : OriginFor inp o) (short : 29 * inp.file.length < 2^63) (m : MetaHdr) (hm : m ∈ usedMetas inp.hdr) (m1 : m.id = idBpakPackage) (m2 : m.partRef = 0) (m3 : m.size.toNat = 16)
    (u : Bytes) (hu : HasEntry o.hdr idBpakPackage 0 u) (lu : u.length = 16) (other : (o.hdr.metadata.drop m.offset.toNat).take 16 ≠ u) (out0 : Bytes) :
    ∃ eh ef, transportEncode srch inp.hdr inp.file (some o.pair) out0 = .ok (eh, ef) ∧ ∀ out, transportDecode H eh ef (some o.pair) out = .fail .packageUuidMismatch := by
  have ho' : ∀ p, some o = some p → OriginFor inp p := fun p e => Option.some.inj e ▸ ho
  obtain ⟨eh, ef, e, _, _⟩ := C38_encode L H srch hsr inp (some o) hs ho' short out0
  refine ⟨eh, ef, e, ?_⟩
  obtain ⟨rs, Z, _, h1, _, _, wf, _⟩ := encoded_shape L hsr (org := some o) hs ho' e
  intro out
  have gm : GoodMetas eh := by
    have g := hs.metas
    rw [h1]
    exact ⟨g.slots, g.distinct, g.layout⟩
  have := (C40_decode_partial eh o.hdr wf ho.good.wf gm ho.metas (TDec.init 4096 eh 4096 out) rfl o.file 4096).2 m (by rw [h1]; exact hm) m1 m2 m3 u hu lu
  rw [if_neg other] at this
  unfold transportDecode decodeInit
  simp only [Pkg.pair]
  rw [this]

/-- C38 is false for a package without parts: nothing is written, not even the header. -/
theorem C38_no_parts_is_false (H : HashFn) (patch : Header) (wf : patch.WF) (good : GoodParts patch) (no : usedParts patch = []) (inp out : Bytes) :
    transportDecode H patch inp none out = .ok (patch, out) := by
  have inv := good.inv wf
  rw [no] at inv
  unfold transportDecode decodeInit
  simp only
  have : (TDec.init 4096 patch 4096 out).hdr.parts[0]? = some PartHdr.zero := by
    show patch.parts[0]? = _
    rw [inv.slots]; rfl
  rw [decodeGo, this]
  simp only
  rw [if_pos (show PartHdr.zero.id = 0 from rfl)]
  rfl

/-! ### The hypotheses are met -/

/-- C38: any data in a copied part, and in a part sent as an LZMA-compressed delta with a hash tree; any data in the origin. The round trip works. -/
example (L : LzmaLaws) (A F A' F' T' out : Bytes) (hF : TreeSupported F.length) (hA : A.length < 2^50) (hs : A'.length + F'.length + T'.length < 2^62) (hout : out.length ≤ 4096) :
    ∃ eh ef, transportEncode (fun _ _ _ => some (0, 0)) (trPkg (exBaseA exUuid) A F (hashTree exHash exSalt F)).hdr (trPkg (exBaseA exUuid) A F (hashTree exHash exSalt F)).file
        (some (trPkg (exBaseA exUuid) A' F' T').pair) [] = .ok (eh, ef) ∧
      transportDecode exHash eh ef (some (trPkg (exBaseA exUuid) A' F' T').pair) out =
        .ok ((trPkg (exBaseA exUuid) A F (hashTree exHash exSalt F)).hdr, (trPkg (exBaseA exUuid) A F (hashTree exHash exSalt F)).file) := by
  have hT := exTree_len F hF
  have hF3 := hF.2.2
  have sd := exSendable A F hF hA
  have l := (exGood (exBaseA exUuid) exWfA.1 rfl A F (hashTree exHash exSalt F) (by omega)).2.2
  have og := exOriginFor A F A' F' T' (exBaseA exUuid) exWfA.1 rfl (exMetasA_good exUuid) (by unfold HasEntry; rw [exEntriesA]; simp) hs
  have og' : ∀ p, some (trPkg (exBaseA exUuid) A' F' T') = some p → OriginFor (trPkg (exBaseA exUuid) A F (hashTree exHash exSalt F)) p := fun p e => Option.some.inj e ▸ og
  have mm : (⟨idBpakPackage, 16, 0, 0, [0,0,0,0]⟩ : MetaHdr) ∈ usedMetas (exBaseA exUuid) := by decide +kernel
  obtain ⟨eh, ef, e, _⟩ := C38_encode L exHash _ (fun o n => exSearch o n) _ (some _) sd og' (by omega) []
  refine ⟨eh, ef, e, ?_⟩
  exact C38_round_trip_partial L exHash exHash_len _ (fun o n => exSearch o n) _ (some _) sd og' (fun p hp => Option.some.inj hp ▸ ⟨_, mm, _, mm, rfl, rfl, rfl, rfl, rfl⟩)
    (by show usedParts (trHdr (exBaseA exUuid) A F _) ≠ []; rw [exUsed]; exact List.cons_ne_nil _ _) [] eh ef e out hout

/-- C38_round_trip_is_false: the same package against an origin with its id elsewhere. -/
example (L : LzmaLaws) (A F A' F' T' : Bytes) (hF : TreeSupported F.length) (hA : A.length < 2^50) (hs : A'.length + F'.length + T'.length < 2^62) :
    ∃ eh ef, transportEncode (fun _ _ _ => some (0, 0)) (trPkg (exBaseA exUuid) A F (hashTree exHash exSalt F)).hdr (trPkg (exBaseA exUuid) A F (hashTree exHash exSalt F)).file
        (some (trPkg exBaseB A' F' T').pair) [] = .ok (eh, ef) ∧ ∀ out, transportDecode exHash eh ef (some (trPkg exBaseB A' F' T').pair) out = .fail .packageUuidMismatch := by
  have hT := exTree_len F hF
  have hF3 := hF.2.2
  have l := (exGood (exBaseA exUuid) exWfA.1 rfl A F (hashTree exHash exSalt F) (by omega)).2.2
  have mm : (⟨idBpakPackage, 16, 0, 0, [0,0,0,0]⟩ : MetaHdr) ∈ usedMetas (exBaseA exUuid) := by decide +kernel
  exact C38_round_trip_is_false L exHash _ (fun o n => exSearch o n) _ _ (exSendable A F hF hA) (exOriginFor A F A' F' T' exBaseB exWfA.2.2 rfl exMetasB_good exEntriesB hs) (by omega)
    _ mm rfl rfl rfl exUuid exEntriesB rfl (by show (exBaseB.metadata.drop _).take 16 ≠ exUuid; decide +kernel) []

/-- C38_no_parts_is_false, C39_is_false: met. -/
example : GoodParts initHeader ∧ usedParts initHeader = [] := by
  refine ⟨⟨by decide +kernel, by rw [used_init]; exact List.Pairwise.nil⟩, used_init⟩

example (base : Header) (F T out : Bytes) : ∃ q, (TDec.init 4096 (trHdr base [1, 2, 3, 4, 5] F T) 4096 out).hdr.parts[0]? = some q ∧ q.size = 5 ∧ q.padBytes = 0 ∧ q.flags = 0 := ⟨_, rfl, rfl, rfl, rfl⟩

/-- C40_encode, C40_decode_is_false: two headers with different ids at the same place. -/
example (inp org out : Bytes) (d : TDec) (hd : d.hdr = exBaseA exUuid) (of : Bytes) (off : U64) :
    transportEncode (fun _ _ _ => some (0, 0)) (exBaseA exUuid) inp (some (exBaseA exUuid2, org)) out = .fail .packageUuidMismatch ∧
    setOrigin d (exBaseA exUuid2) of off = .ok { d with origin := some (exBaseA exUuid2, of, off) } := by
  have e1 : HasEntry (exBaseA exUuid) idBpakPackage 0 exUuid := by unfold HasEntry; rw [exEntriesA]; simp
  have mm : (⟨idBpakPackage, 16, 0, 0, [0,0,0,0]⟩ : MetaHdr) ∈ usedMetas (exBaseA exUuid) := by decide +kernel
  exact ⟨C40_encode _ _ _ exWfA.1 exWfA.2.1 (exMetasA_good _) (exMetasA_good _) _ _ e1 exEntriesA2 rfl rfl (by decide) inp org out,
    C40_decode_is_false _ _ exWfA.2.1 (exMetasA_good _) (exMetasA_good _) exWfA.1 _ _ e1 exEntriesA2 rfl rfl ⟨_, mm, _, mm, rfl, rfl, rfl, rfl, rfl⟩ d hd of off⟩

/-- C40_encode_missing_id: a new header has no package id. -/
example : ∀ e ∈ entries initHeader, ¬ (e.id = idBpakPackage ∧ e.ref = 0) := by
  rw [show entries initHeader = [] from by decide +kernel]; intro e he; cases he

end Bpak
