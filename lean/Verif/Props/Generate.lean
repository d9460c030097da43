import Verif.Props.Offsets
import Verif.Model.Generate
/-! `bpak generate keystore` (C97, C98). -/
namespace Bpak

/-! ### Decimal numbers and symbols -/

def decVal (s : Bytes) : Nat := s.foldl (fun a c => 10 * a + (c.toNat - 48)) 0

theorem decVal_decimal (v : Nat) : decVal (decimal v) = v := by
  induction v using Nat.strongRecOn with
  | ind v ih =>
    rw [decimal.eq_def]
    split
    · rename_i h
      simp only [decVal, List.foldl_cons, List.foldl_nil, BitVec.toNat_ofNat]
      omega
    · rename_i h
      have := ih (v / 10) (by omega)
      unfold decVal at this ⊢
      rw [List.foldl_append, this]
      simp only [List.foldl_cons, List.foldl_nil, BitVec.toNat_ofNat]
      omega

theorem genKeySymbol_inj {name : Bytes} {i j : Nat} (h : genKeySymbol name i = genKeySymbol name j) : i = j := by
  have := List.append_cancel_left h
  rw [← decVal_decimal i, this, decVal_decimal]

theorem genKeySymbol_ne (name : Bytes) (i : Nat) : genKeySymbol name i ≠ genStoreSymbol name := by
  intro h
  have := congrArg List.length h
  unfold genKeySymbol genStoreSymbol at this
  simp only [List.length_append] at this
  have : (ascii "_key").length = 4 := by decide
  omega

/-! ### The loop -/

theorem genParts_pre (f name : Bytes) (deco : Bool) (parse : Bytes → Except Err Key) (pre : List PartHdr) : ∀ (rest : List PartHdr) (i : Nat),
    (∀ q ∈ pre, q.id ≠ 0 ∧ ∃ k, genKey f q parse = .ok k) →
    ∃ ks : List GenKey, ks.length = pre.length ∧
      (∀ (j : Nat) (q : PartHdr), pre[j]? = some q → ∃ k, genKey f q parse = .ok k ∧ ks[j]? = some ⟨genKeySymbol name (i + j), deco, q.id, q.size, k.kind, k.data⟩) ∧
      genParts f name deco parse i (pre ++ rest) =
        (ks ++ (genParts f name deco parse (i + pre.length) rest).1, (genParts f name deco parse (i + pre.length) rest).2) := by
  induction pre with
  | nil => intro rest i _; exact ⟨[], rfl, by simp, by simp⟩
  | cons a pre ih =>
    intro rest i h
    obtain ⟨ks, h1, h2, h3⟩ := ih rest (i + 1) (fun q hq => h q (by simp [hq]))
    obtain ⟨ha, k, hk⟩ := h a (by simp)
    refine ⟨⟨genKeySymbol name i, deco, a.id, a.size, k.kind, k.data⟩ :: ks, by simp [h1], ?_, ?_⟩
    · intro j q hj
      cases j with
      | zero =>
        simp only [List.getElem?_cons_zero, Option.some.injEq] at hj
        subst hj
        exact ⟨k, hk, by simp⟩
      | succ j =>
        obtain ⟨k', e1, e2⟩ := h2 j q (by simpa using hj)
        refine ⟨k', e1, ?_⟩
        rw [List.getElem?_cons_succ, e2, show i + 1 + j = i + (j + 1) by omega]
    · rw [List.cons_append, genParts, if_neg ha, hk, h3, List.length_cons, show i + 1 + pre.length = i + (pre.length + 1) by omega]
      rfl

theorem genParts_free (f name : Bytes) (deco : Bool) (parse : Bytes → Except Err Key) (n i : Nat) :
    genParts f name deco parse i (List.replicate n PartHdr.zero) = ([], none) := by
  induction n with
  | zero => rfl
  | succ n ih => rw [List.replicate_succ, genParts, if_pos (by decide), ih]

/-- On a package as the API leaves it, whatever the payload. -/
theorem genKey_good {H : HashFn} {p : Pkg} {s : List (U32 × Bytes)} (i : PkgInv H p s) {f : Bytes} (hf : f.length = p.file.length)
    (q : PartHdr) (hq : q ∈ usedParts p.hdr) (parse : Bytes → Except Err Key) :
    (fileRead f q.offset.toNat q.size.toNat).length = q.size.toNat ∧
    genKey f q parse = keyVerdict parse (fileRead f q.offset.toNat q.size.toNat) := by
  obtain ⟨-, -, -, hin, -⟩ := i.at_offsets.1 q hq
  have hs := i.small
  have hl : (fileRead f q.offset.toNat q.size.toNat).length = q.size.toNat := by
    unfold fileRead; rw [List.length_take, List.length_drop]; omega
  refine ⟨hl, ?_⟩
  unfold genKey keyVerdict
  rw [if_neg (by omega), hl]
  by_cases h : q.size.toNat > 4096
  · rw [if_pos h, if_pos h]
  · rw [if_neg h, if_neg h, if_neg (by simp)]
    cases parse (fileRead f q.offset.toNat q.size.toNat) with
    | error e => rfl
    | ok k =>
      simp only
      by_cases hk : k.kind = 2 ∨ k.kind = 3 ∨ k.kind = 4 ∨ k.kind = 1
      · rw [if_pos hk, if_pos]
        rcases hk with h | h | h | h <;> simp [h]
      · rw [if_neg hk, if_neg]
        intro hc
        simp only [List.mem_cons, List.not_mem_nil, or_false] at hc
        rcases hc with h | h | h | h <;> simp [h] at hk

theorem good_verdict {parse : Bytes → Except Err Key} {d : Bytes} (h : goodKey parse d = true) : ∃ k, keyVerdict parse d = .ok k := by
  unfold goodKey at h
  split at h
  · rename_i k hk; exact ⟨k, hk⟩
  · cases h

/-- The key definitions printed for the files `fs`, one after another. -/
def KeysFor (name : Bytes) (deco : Bool) (parse : Bytes → Except Err Key) (fs : List (U32 × Bytes)) (ks : List GenKey) : Prop :=
  ks.length = fs.length ∧ ∀ (j : Nat) (c : U32 × Bytes), fs[j]? = some c → ∃ k, parse c.2 = .ok k ∧
    ks[j]? = some ⟨genKeySymbol name j, deco, c.1, BitVec.ofNat 64 c.2.length, k.kind, k.data⟩

theorem verdict_parse {parse : Bytes → Except Err Key} {d : Bytes} {k : Key} (h : keyVerdict parse d = .ok k) : parse d = .ok k ∧ d.length ≤ 4096 := by
  unfold keyVerdict at h
  split at h
  · cases h
  · split at h
    · cases h
    · rename_i k' hk
      split at h
      · injection h with h; subst h; exact ⟨hk, by omega⟩
      · cases h

/-- The files as read from any payload under the header of `p`. -/
def filesAt (hd : Header) (f : Bytes) : List (U32 × Bytes) := (usedParts hd).map (fun q => (q.id, fileRead f q.offset.toNat q.size.toNat))

theorem genParts_good {H : HashFn} {p : Pkg} {s : List (U32 × Bytes)} (i : PkgInv H p s) {f : Bytes} (hf : f.length = p.file.length)
    (name : Bytes) (deco : Bool) (parse : Bytes → Except Err Key) :
    ((∀ c ∈ filesAt p.hdr f, goodKey parse c.2 = true) → ∃ ks, KeysFor name deco parse (filesAt p.hdr f) ks ∧ genParts f name deco parse 0 p.hdr.parts = (ks, none)) ∧
    (∀ pre c post e, filesAt p.hdr f = pre ++ c :: post → (∀ c ∈ pre, goodKey parse c.2 = true) → keyVerdict parse c.2 = .error e →
      ∃ ks, KeysFor name deco parse pre ks ∧ genParts f name deco parse 0 p.hdr.parts = (ks, some e)) := by
  have ip := i.good.parts.inv i.good.wf
  have main : ∀ pre rest, usedParts p.hdr = pre ++ rest → (∀ q ∈ pre, goodKey parse (fileRead f q.offset.toNat q.size.toNat) = true) →
      ∃ ks, KeysFor name deco parse (pre.map (fun q => (q.id, fileRead f q.offset.toNat q.size.toNat))) ks ∧
        ∀ tl, genParts f name deco parse 0 (pre ++ tl) = (ks ++ (genParts f name deco parse pre.length tl).1, (genParts f name deco parse pre.length tl).2) := by
    intro pre rest hu hg
    have hmem : ∀ q ∈ pre, q ∈ usedParts p.hdr := fun q hq => by rw [hu]; simp [hq]
    have hok : ∀ q ∈ pre, q.id ≠ 0 ∧ ∃ k, genKey f q parse = .ok k := by
      intro q hq
      refine ⟨ip.ids q (hmem q hq), ?_⟩
      rw [(genKey_good i hf q (hmem q hq) parse).2]
      exact good_verdict (hg q hq)
    obtain ⟨ks, h1, h2, -⟩ := genParts_pre f name deco parse pre [] 0 hok
    refine ⟨ks, ⟨by simpa using h1, ?_⟩, ?_⟩
    · intro j c hc
      rw [List.getElem?_map] at hc
      cases hq : pre[j]? with
      | none => rw [hq] at hc; cases hc
      | some q =>
        rw [hq] at hc
        have hc := Option.some.inj hc
        subst hc
        obtain ⟨k, e1, e2⟩ := h2 j q hq
        have hqm := hmem q (List.mem_of_getElem? hq)
        obtain ⟨g1, g2⟩ := genKey_good i hf q hqm parse
        rw [g2] at e1
        refine ⟨k, (verdict_parse e1).1, ?_⟩
        rw [e2, Nat.zero_add]
        simp only
        rw [g1, BitVec.ofNat_toNat, BitVec.setWidth_eq]
    · intro tl
      obtain ⟨ks', h1', h2', h3'⟩ := genParts_pre f name deco parse pre tl 0 hok
      have : ks' = ks := by
        apply List.ext_getElem?
        intro j
        cases hq : pre[j]? with
        | none =>
          have := List.getElem?_eq_none_iff.1 hq
          rw [List.getElem?_eq_none (by omega), List.getElem?_eq_none (by omega)]
        | some q =>
          obtain ⟨k, e1, e2⟩ := h2 j q hq
          obtain ⟨k', e1', e2'⟩ := h2' j q hq
          rw [e1] at e1'
          injection e1' with e
          rw [e2, e2', e]
      rw [h3', this, Nat.zero_add]
  refine ⟨?_, ?_⟩
  · intro hg
    obtain ⟨ks, h1, h2⟩ := main (usedParts p.hdr) [] (by simp) (fun q hq => hg (q.id, _) (List.mem_map.2 ⟨q, hq, rfl⟩))
    refine ⟨ks, h1, ?_⟩
    rw [i.good.parts.slots, h2, genParts_free]
    simp
  · intro pre c post e hs hg he
    obtain ⟨pre', rest', hu, rfl, hr⟩ := List.map_eq_append_iff.1 hs
    obtain ⟨q, post', rfl, hc, rfl⟩ := List.map_eq_cons_iff.1 hr
    subst hc
    obtain ⟨ks, h1, h2⟩ := main pre' (q :: post') hu (fun q hq => hg (q.id, _) (List.mem_map.2 ⟨q, hq, rfl⟩))
    refine ⟨ks, h1, ?_⟩
    have hqm : q ∈ usedParts p.hdr := by rw [hu]; simp
    rw [i.good.parts.slots, hu, List.append_assoc, h2, List.cons_append, genParts, if_neg (ip.ids q hqm), (genKey_good i hf q hqm parse).2, he]
    simp

/-! ### The command -/

theorem meta_absent {H : HashFn} {p : Pkg} {s : List (U32 × Bytes)} (i : PkgInv H p s) (x : U32) (hx : x ≠ 0)
    (h : ∀ e ∈ entries p.hdr, ¬ (e.id = x ∧ e.ref = 0)) : getMeta p.hdr x 0 = none := by
  have im := i.metas.inv i.good.wf
  rw [C03_get_meta_not_found]
  intro m h1 h2
  rw [im.slots] at h1
  rcases List.mem_append.1 h1 with h1 | h1
  · exact h ⟨m.id, m.partRef, metaContent p.hdr m⟩ (List.mem_map.2 ⟨m, h1, rfl⟩) h2
  · rw [(List.mem_replicate.1 h1).2] at h2
    exact hx h2.1.symm

theorem meta_present {H : HashFn} {p : Pkg} {s : List (U32 × Bytes)} (i : PkgInv H p s) (e : Entry) (he : e ∈ entries p.hdr) :
    ∃ j m, getMeta p.hdr e.id e.ref = some j ∧ p.hdr.metas[j]? = some m ∧ e.data = metaContent p.hdr m ∧ e.data.length = m.size.toNat ∧
      ∀ n, n ≤ e.data.length → readAt p.hdr.metadata m.offset.toNat n = some (e.data.take n) := by
  have im := i.metas.inv i.good.wf
  obtain ⟨m, hm, rfl⟩ := List.mem_map.1 he
  obtain ⟨pre, post, hu⟩ := List.append_of_mem hm
  obtain ⟨g1, g2⟩ := getMeta_used im pre post m hu
  have hfit := (im.packed.ge m hm).2
  have hml : (metaContent p.hdr m).length = m.size.toNat := by
    unfold metaContent; rw [List.length_take, List.length_drop, im.md]; omega
  refine ⟨_, m, g1, g2, rfl, hml, ?_⟩
  intro n hn
  simp only [hml] at hn
  rw [readAt_eq_some (by rw [im.md]; omega)]
  unfold metaContent
  rw [List.take_take, Nat.min_eq_left hn]

theorem keysFor_symbols {name : Bytes} {deco : Bool} {parse : Bytes → Except Err Key} {fs : List (U32 × Bytes)} {ks : List GenKey} (h : KeysFor name deco parse fs ks) :
    ks.map (·.symbol) = (List.range ks.length).map (genKeySymbol name) := by
  apply List.ext_getElem?
  intro j
  rw [List.getElem?_map, List.getElem?_map]
  by_cases hj : j < ks.length
  · have hj' : j < fs.length := by rw [← h.1]; exact hj
    obtain ⟨k, -, e⟩ := h.2 j fs[j] (List.getElem?_eq_getElem hj')
    rw [e, List.getElem?_range hj]
    rfl
  · rw [List.getElem?_eq_none (by omega), List.getElem?_eq_none (by simp; omega)]
    rfl

/-- Everything about the command on a package as the API leaves it, whatever its payload `f`. -/
theorem generate_good {H : HashFn} {p : Pkg} {s : List (U32 × Bytes)} (i : PkgInv H p s) {f : Bytes} (hf : f.length = p.file.length)
    (hh : f.take 4096 = p.file.take 4096) (name : Bytes) (deco : Bool) (parse : Bytes → Except Err Key) :
    (((∀ e ∈ entries p.hdr, ¬ (e.id = 0xfb2f1f3f ∧ e.ref = 0)) ∨ ∀ e ∈ entries p.hdr, ¬ (e.id = 0xfb367d9a ∧ e.ref = 0)) →
      generateKeystore (some f) (some name) deco parse = .ret (.notFound, ⟨[], none⟩)) ∧
    (∀ a ∈ entries p.hdr, a.id = 0xfb2f1f3f → a.ref = 0 → ∀ b ∈ entries p.hdr, b.id = 0xfb367d9a → b.ref = 0 → 4 ≤ b.data.length →
      ((∀ c ∈ filesAt p.hdr f, goodKey parse c.2 = true) → ∃ ks, KeysFor name deco parse (filesAt p.hdr f) ks ∧
        generateKeystore (some f) (some name) deco parse = .ret (.ok, ⟨ks, some ⟨genStoreSymbol name, deco, ofLe32 (b.data.take 4), ks.length, true, ks.map (·.symbol)⟩⟩)) ∧
      (∀ pre c post e, filesAt p.hdr f = pre ++ c :: post → (∀ c ∈ pre, goodKey parse c.2 = true) → keyVerdict parse c.2 = .error e →
        ∃ ks, KeysFor name deco parse pre ks ∧ generateKeystore (some f) (some name) deco parse = .ret (e, ⟨ks, none⟩))) := by
  have hlen : ¬ f.length < 4096 := by have := i.saved.1; omega
  have hhd : parseHeader (f.take 4096) = p.hdr := by rw [hh]; exact i.saved.2
  have hbase : generateKeystore (some f) (some name) deco parse = match getMeta p.hdr idPackage 0 with
      | none => .ret (.notFound, ⟨[], none⟩)
      | some _ => match getMeta p.hdr idProvider 0 with
        | none => .ret (.notFound, ⟨[], none⟩)
        | some j =>
          match genParts f name deco parse 0 p.hdr.parts with
          | (ks, some e) => .ret (e, ⟨ks, none⟩)
          | (ks, none) =>
            match p.hdr.metas[j]? with
            | none => .ub
            | some m =>
              match readAt p.hdr.metadata m.offset.toNat 4 with
              | none => .ub
              | some b => .ret (.ok, ⟨ks, some ⟨genStoreSymbol name, deco, ofLe32 b, ks.length, true, (List.range ks.length).map (genKeySymbol name)⟩⟩) := by
    unfold generateKeystore
    simp only
    rw [if_neg hlen, hhd, i.valid, if_neg (by simp)]
    rfl
  refine ⟨?_, ?_⟩
  · rintro (h | h)
    · rw [hbase, show getMeta p.hdr idPackage 0 = none from meta_absent i _ (by decide) h]
    · rw [hbase, show getMeta p.hdr idProvider 0 = none from meta_absent i _ (by decide) h]
      split <;> rfl
  · intro a ha a1 a2 b hb b1 b2 b4
    obtain ⟨j, m, c1, -⟩ := meta_present i a ha
    obtain ⟨j', m', d1, d2, -, -, d3⟩ := meta_present i b hb
    rw [a1, a2] at c1
    rw [b1, b2] at d1
    obtain ⟨g1, g2⟩ := genParts_good i hf name deco parse
    refine ⟨?_, ?_⟩
    · intro hg
      obtain ⟨ks, k1, k2⟩ := g1 hg
      refine ⟨ks, k1, ?_⟩
      rw [hbase, show getMeta p.hdr idPackage 0 = some j from c1, show getMeta p.hdr idProvider 0 = some j' from d1]
      simp only [k2, d2, d3 4 b4]
      rw [keysFor_symbols k1]
    · intro pre c post e hs hg he
      obtain ⟨ks, k1, k2⟩ := g2 pre c post e hs hg he
      refine ⟨ks, k1, ?_⟩
      rw [hbase, show getMeta p.hdr idPackage 0 = some j from c1, show getMeta p.hdr idProvider 0 = some j' from d1]
      simp only [k2]

/-- C97: of a keystore package made by any session of commands, in which every file is a public key of a supported kind (of up to 4096 bytes),
`bpak generate keystore` prints one key definition per file, in order, with the id of the part, the number of bytes in the file and kind and
data as parsed from the file, under different symbols; then the keystore with the id of the provider entry, the number of keys and pointers to
exactly those symbols. -/
theorem C97_generate_success {SK PK : Type} (H : HashFn) (hH : HashLen H) (S : SigScheme SK PK) (hS : ∀ sk rnd k d, S.sign sk rnd k d ≠ .error .ok)
    (t : List (Cmd SK × Err)) (f : Bytes) (h : Session H S t (some f)) (name : Bytes) (deco : Bool) (parse : Bytes → Except Err Key)
    (a b : Entry) (ha : a ∈ entries (parseHeader (f.take 4096))) (a1 : a.id = bpakId (ascii "bpak-package")) (a2 : a.ref = 0)
    (hb : b ∈ entries (parseHeader (f.take 4096))) (b1 : b.id = bpakId (ascii "keystore-provider-id")) (b2 : b.ref = 0) (b4 : 4 ≤ b.data.length)
    (hg : ∀ c ∈ sessionFiles H t, ∃ k, parse c.2 = .ok k ∧ k.kind ∈ [1, 2, 3, 4] ∧ c.2.length ≤ 4096) :
    ∃ ks st, generateKeystore (some f) (some name) deco parse = .ret (.ok, ⟨ks, some st⟩) ∧ ks.length = (sessionFiles H t).length ∧
      (∀ (j : Nat) (c : U32 × Bytes), (sessionFiles H t)[j]? = some c → ∃ (k : Key) (g : GenKey), parse c.2 = .ok k ∧ ks[j]? = some g ∧ g.id = c.1 ∧ g.size.toNat = c.2.length ∧ g.kind = k.kind ∧ g.data = k.data) ∧
      (ks.map (·.symbol)).Pairwise (· ≠ ·) ∧ st.symbol ∉ ks.map (·.symbol) ∧ st.keys = ks.map (·.symbol) ∧ st.noOfKeys = ks.length ∧ st.id = ofLe32 (b.data.take 4) := by
  rcases session_inv hH S hS h with ⟨h, -⟩ | ⟨p, hf, i⟩
  · cases h
  cases hf
  rw [i.saved.2] at ha hb
  rw [show bpakId (ascii "bpak-package") = 0xfb2f1f3f by decide +kernel] at a1
  rw [show bpakId (ascii "keystore-provider-id") = 0xfb367d9a by decide +kernel] at b1
  have hfs : filesAt p.hdr p.file = sessionFiles H t := i.at_offsets.2
  obtain ⟨ks, k1, k2⟩ := ((generate_good i rfl rfl name deco parse).2 a ha a1 a2 b hb b1 b2 b4).1 (by
    intro c hc
    rw [hfs] at hc
    obtain ⟨k, e1, e2, e3⟩ := hg c hc
    unfold goodKey keyVerdict
    rw [if_neg (by omega), e1]
    simp only
    rw [if_pos e2])
  rw [hfs] at k1
  refine ⟨ks, _, k2, k1.1, ?_, ?_, ?_, rfl, rfl, rfl⟩
  · intro j c hc
    obtain ⟨k, e1, e2⟩ := k1.2 j c hc
    refine ⟨k, _, e1, e2, rfl, ?_, rfl, rfl⟩
    obtain ⟨k', -, -, e3⟩ := hg c (List.mem_of_getElem? hc)
    simp only [BitVec.toNat_ofNat]
    omega
  · rw [keysFor_symbols k1, List.pairwise_map]
    exact List.Pairwise.imp (fun hne h => hne (genKeySymbol_inj h)) List.nodup_range
  · rw [keysFor_symbols k1]
    intro hc
    obtain ⟨j, -, e⟩ := List.mem_map.1 hc
    exact genKeySymbol_ne name j e

/-- C97, the flaw: the claim "`.size` is the number of bytes in `.data`" is false. The parser brings keys into its own form; whenever that
has another length than the file (a PEM file, an RSA key in PKCS#1 form), the size printed is that of the file. -/
theorem C97_size_is_false {SK PK : Type} (H : HashFn) (hH : HashLen H) (S : SigScheme SK PK) (hS : ∀ sk rnd k d, S.sign sk rnd k d ≠ .error .ok)
    (t : List (Cmd SK × Err)) (f : Bytes) (h : Session H S t (some f)) (name : Bytes) (deco : Bool) (parse : Bytes → Except Err Key)
    (a b : Entry) (ha : a ∈ entries (parseHeader (f.take 4096))) (a1 : a.id = bpakId (ascii "bpak-package")) (a2 : a.ref = 0)
    (hb : b ∈ entries (parseHeader (f.take 4096))) (b1 : b.id = bpakId (ascii "keystore-provider-id")) (b2 : b.ref = 0) (b4 : 4 ≤ b.data.length)
    (hg : ∀ c ∈ sessionFiles H t, ∃ k, parse c.2 = .ok k ∧ k.kind ∈ [1, 2, 3, 4] ∧ c.2.length ≤ 4096)
    (c : U32 × Bytes) (hc : c ∈ sessionFiles H t) (k : Key) (hk : parse c.2 = .ok k) (hl : k.data.length ≠ c.2.length) :
    ∃ o g, generateKeystore (some f) (some name) deco parse = .ret (.ok, o) ∧ g ∈ o.keys ∧ g.id = c.1 ∧ g.data = k.data ∧ g.size.toNat ≠ g.data.length := by
  obtain ⟨ks, st, h1, -, h3, -⟩ := C97_generate_success H hH S hS t f h name deco parse a b ha a1 a2 hb b1 b2 b4 hg
  obtain ⟨j, hj⟩ := List.getElem?_of_mem hc
  obtain ⟨k', g, e1, e2, e3, e4, -, e5⟩ := h3 j c hj
  rw [hk] at e1
  injection e1 with e1
  subst e1
  exact ⟨_, g, h1, List.mem_of_getElem? e2, e3, e5, by rw [e4, e5]; exact fun h => hl h.symm⟩

/-- C97: if not every file is such a key, the command fails with the code of the first that is not, and prints no keystore, only the keys
before that one; without the two metadata entries it fails with "not found" and prints nothing. -/
theorem C97_generate_failure {SK PK : Type} (H : HashFn) (hH : HashLen H) (S : SigScheme SK PK) (hS : ∀ sk rnd k d, S.sign sk rnd k d ≠ .error .ok)
    (t : List (Cmd SK × Err)) (f : Bytes) (h : Session H S t (some f)) (name : Bytes) (deco : Bool) (parse : Bytes → Except Err Key) :
    (((∀ e ∈ entries (parseHeader (f.take 4096)), ¬ (e.id = bpakId (ascii "bpak-package") ∧ e.ref = 0)) ∨
      ∀ e ∈ entries (parseHeader (f.take 4096)), ¬ (e.id = bpakId (ascii "keystore-provider-id") ∧ e.ref = 0)) →
      generateKeystore (some f) (some name) deco parse = .ret (.notFound, ⟨[], none⟩)) ∧
    (∀ a b, a ∈ entries (parseHeader (f.take 4096)) → a.id = bpakId (ascii "bpak-package") → a.ref = 0 →
      b ∈ entries (parseHeader (f.take 4096)) → b.id = bpakId (ascii "keystore-provider-id") → b.ref = 0 → 4 ≤ b.data.length →
      ∀ pre id d post e, sessionFiles H t = pre ++ (id, d) :: post → (∀ c ∈ pre, ∃ k, parse c.2 = .ok k ∧ k.kind ∈ [1, 2, 3, 4] ∧ c.2.length ≤ 4096) →
        (4096 < d.length ∧ e = .bufferTooSmall ∨ d.length ≤ 4096 ∧ parse d = .error e ∨
          d.length ≤ 4096 ∧ e = .unsupportedKey ∧ ∃ k, parse d = .ok k ∧ k.kind ∉ [1, 2, 3, 4]) →
        ∃ ks, generateKeystore (some f) (some name) deco parse = .ret (e, ⟨ks, none⟩) ∧ ks.map (·.id) = pre.map (·.1)) := by
  rcases session_inv hH S hS h with ⟨h, -⟩ | ⟨p, hf, i⟩
  · cases h
  cases hf
  have hfs : filesAt p.hdr p.file = sessionFiles H t := i.at_offsets.2
  rw [i.saved.2, show bpakId (ascii "bpak-package") = 0xfb2f1f3f by decide +kernel, show bpakId (ascii "keystore-provider-id") = 0xfb367d9a by decide +kernel]
  obtain ⟨g1, g2⟩ := generate_good i rfl rfl name deco parse
  refine ⟨g1, ?_⟩
  intro a b ha a1 a2 hb b1 b2 b4 pre id d post e hs hg he
  obtain ⟨ks, k1, k2⟩ := (g2 a ha a1 a2 b hb b1 b2 b4).2 pre (id, d) post e (by rw [hfs]; exact hs) (by
    intro c hc
    obtain ⟨k, e1, e2, e3⟩ := hg c hc
    unfold goodKey keyVerdict
    rw [if_neg (by omega), e1]
    simp only
    rw [if_pos e2]) (by
    unfold keyVerdict
    rcases he with ⟨h1, rfl⟩ | ⟨h1, h2⟩ | ⟨h1, rfl, k, h2, h3⟩
    · rw [if_pos h1]
    · rw [if_neg (by simp only; omega), h2]
    · rw [if_neg (by simp only; omega), h2]
      simp only
      rw [if_neg h3])
  refine ⟨ks, k2, ?_⟩
  apply List.ext_getElem?
  intro j
  rw [List.getElem?_map, List.getElem?_map]
  by_cases hj : j < pre.length
  · obtain ⟨k, -, e2⟩ := k1.2 j pre[j] (List.getElem?_eq_getElem hj)
    rw [e2, List.getElem?_eq_getElem hj]
    rfl
  · have := k1.1
    rw [List.getElem?_eq_none (by omega), List.getElem?_eq_none (by omega)]
    rfl

/-! ### The compiled keystore -/

theorem first_bad {α : Type} (P : α → Bool) (l : List α) : (∀ c ∈ l, P c = true) ∨ ∃ pre c post, l = pre ++ c :: post ∧ (∀ c ∈ pre, P c = true) ∧ P c = false := by
  induction l with
  | nil => exact Or.inl (by simp)
  | cons a l ih =>
    cases ha : P a with
    | false => exact Or.inr ⟨[], a, l, rfl, by simp, ha⟩
    | true =>
      rcases ih with h | ⟨pre, c, post, rfl, h2, h3⟩
      · left
        intro c hc
        rcases List.mem_cons.1 hc with rfl | hc
        · exact ha
        · exact h c hc
      · refine Or.inr ⟨a :: pre, c, post, rfl, ?_, h3⟩
        intro c hc
        rcases List.mem_cons.1 hc with rfl | hc
        · exact ha
        · exact h2 c hc

/-- What a successful run says about the package. -/
theorem generate_inv {H : HashFn} {p : Pkg} {s : List (U32 × Bytes)} (i : PkgInv H p s) (name : Bytes) (deco : Bool) (parse : Bytes → Except Err Key) (o : GenOut) (ks : Keystore)
    (hprov : ∀ e ∈ entries p.hdr, e.id = 0xfb367d9a → e.ref = 0 → 4 ≤ e.data.length)
    (hg : generateKeystore (some p.file) (some name) deco parse = .ret (.ok, o)) (hc : o.compiled = some ks) :
    ∃ b ∈ entries p.hdr, b.id = 0xfb367d9a ∧ b.ref = 0 ∧ ks.id = ofLe32 (b.data.take 4) ∧ ks.verified = true ∧ KeysFor name deco parse s o.keys ∧
      (∀ c ∈ s, goodKey parse c.2 = true) := by
  obtain ⟨g1, g2⟩ := generate_good i rfl rfl name deco parse
  have hfs : filesAt p.hdr p.file = s := i.at_offsets.2
  by_cases h1 : ∀ e ∈ entries p.hdr, ¬ (e.id = 0xfb2f1f3f ∧ e.ref = 0)
  · rw [g1 (Or.inl h1)] at hg
    cases hg
  by_cases h2 : ∀ e ∈ entries p.hdr, ¬ (e.id = 0xfb367d9a ∧ e.ref = 0)
  · rw [g1 (Or.inr h2)] at hg
    cases hg
  simp only [Classical.not_forall, Classical.not_not] at h1 h2
  obtain ⟨a, ha, a1, a2⟩ := h1
  obtain ⟨b, hb, b1, b2⟩ := h2
  obtain ⟨g3, g4⟩ := g2 a ha a1 a2 b hb b1 b2 (hprov b hb b1 b2)
  rw [hfs] at g3 g4
  rcases first_bad (fun c : U32 × Bytes => goodKey parse c.2) s with hall | ⟨pre, c, post, e1, e2, e3⟩
  · obtain ⟨l, k1, k2⟩ := g3 hall
    rw [k2] at hg
    cases hg
    cases hc
    exact ⟨b, hb, b1, b2, rfl, rfl, k1, hall⟩
  · have : ∃ e, keyVerdict parse c.2 = .error e := by
      unfold goodKey at e3
      split at e3
      · cases e3
      · rename_i e he; exact ⟨e, he⟩
    obtain ⟨e, he⟩ := this
    obtain ⟨l, -, k2⟩ := g4 pre c post e e1 e2 he
    rw [k2] at hg
    cases hg
    cases hc

theorem keystoreFind_keys {name : Bytes} {deco : Bool} {parse : Bytes → Except Err Key} (id : U32) : ∀ (fs : List (U32 × Bytes)) (ks : List GenKey) (n : Nat),
    ks.length = fs.length → (∀ (j : Nat) (c : U32 × Bytes), fs[j]? = some c → ∃ k, parse c.2 = .ok k ∧
      ks[j]? = some ⟨genKeySymbol name (n + j), deco, c.1, BitVec.ofNat 64 c.2.length, k.kind, k.data⟩) →
    keystoreFind id (ks.map (fun k => (⟨k.id, k.kind, k.data⟩ : Key))) = match fs.find? (fun c => c.1 = id) with
      | none => none
      | some c => match parse c.2 with
        | .error _ => none
        | .ok k => some ⟨id, k.kind, k.data⟩ := by
  intro fs
  induction fs with
  | nil => intro ks n h _; cases ks with | nil => rfl | cons _ _ => simp at h
  | cons a fs ih =>
    intro ks n h1 h2
    cases ks with
    | nil => simp at h1
    | cons g ks =>
      obtain ⟨k, e1, e2⟩ := h2 0 a rfl
      simp only [List.getElem?_cons_zero, Option.some.injEq] at e2
      subst e2
      have := ih ks (n + 1) (by simpa using h1) (by
        intro j c hj
        obtain ⟨k, e1, e2⟩ := h2 (j + 1) c (by simpa using hj)
        refine ⟨k, e1, ?_⟩
        rw [List.getElem?_cons_succ] at e2
        rw [e2, show n + 1 + j = n + (j + 1) by omega])
      rw [List.map_cons, keystoreFind, List.find?_cons]
      by_cases ha : a.1 = id
      · rw [if_pos ha]
        simp only [ha, decide_true, e1]
      · rw [if_neg ha, this]
        simp only [ha, decide_false]

/-- C98: the keystore compiled into a program from the output of `bpak generate keystore` and the keystore package itself hand out the same
keys: for every id, one gives a key exactly if the other does, and the same. Missing: keys of more than 512 bytes, for which loading from the
package overruns a buffer (C72). -/
theorem C98_static_keystore_partial {SK PK : Type} (H : HashFn) (hH : HashLen H) (S : SigScheme SK PK) (hS : ∀ sk rnd k d, S.sign sk rnd k d ≠ .error .ok)
    (t : List (Cmd SK × Err)) (f : Bytes) (h : Session H S t (some f)) (name : Bytes) (deco : Bool) (parse : Bytes → Except Err Key)
    (hprov : ∀ e ∈ entries (parseHeader (f.take 4096)), e.id = bpakId (ascii "keystore-provider-id") → e.ref = 0 → 4 ≤ e.data.length)
    (o : GenOut) (ks : Keystore) (hg : generateKeystore (some f) (some name) deco parse = .ret (.ok, o)) (hc : o.compiled = some ks)
    (keyid : U32) (hk : keyid ≠ 0) (hsize : ∀ d, (keyid, d) ∈ sessionFiles H t → d.length ≤ 512) (k : Key) :
    keystoreGet ks keyid = (.ok, some k) ↔ loadKeyFromFile H f ks.id keyid none parse = .ret (.ok, some k) := by
  rcases session_inv hH S hS h with ⟨h, -⟩ | ⟨p, hf, i⟩
  · cases h
  cases hf
  rw [i.saved.2, show bpakId (ascii "keystore-provider-id") = 0xfb367d9a by decide +kernel] at hprov
  obtain ⟨b, hb, b1, b2, e1, e2, k1, hall⟩ := generate_inv i name deco parse o ks hprov hg hc
  rw [loadKeyFromFile_saved i ks.id keyid none (fun c e => by cases e) parse, (loadKeyFromPkg_exact i ks.id keyid hk hprov parse).1 hsize]
  have hkeys : ks.keys = o.keys.map (fun k => (⟨k.id, k.kind, k.data⟩ : Key)) := by
    unfold GenOut.compiled at hc
    cases hst : o.store with
    | none => rw [hst] at hc; cases hc
    | some st => rw [hst] at hc; cases hc; rfl
  have hfind := keystoreFind_keys (name := name) (deco := deco) (parse := parse) keyid (sessionFiles H t) o.keys 0 k1.1 (by
    intro j c hj; rw [Nat.zero_add]; exact k1.2 j c hj)
  have hans : keystoreAnswer (entries p.hdr) (sessionFiles H t) ks.id keyid parse = match (sessionFiles H t).find? (fun c => c.1 = keyid) with
      | none => (.notFound, none)
      | some c => match parse c.2 with
        | .error e => (e, none)
        | .ok k => (.ok, some ⟨keyid, k.kind, k.data⟩) := by
    unfold keystoreAnswer
    have : (entries p.hdr).find? (fun e => e.id = 0xfb367d9a ∧ e.ref = 0) ≠ none := by
      intro hn
      have := List.find?_eq_none.1 hn b hb
      simp [b1, b2] at this
    cases hfe : (entries p.hdr).find? (fun e => e.id = 0xfb367d9a ∧ e.ref = 0) with
    | none => exact absurd hfe this
    | some e =>
      have he := List.mem_of_find?_eq_some hfe
      have hp := List.find?_some hfe
      simp only [decide_eq_true_eq] at hp
      have : e.data = b.data := by
        obtain ⟨j, m, g1, g2, g3, -⟩ := meta_present i e he
        obtain ⟨j', m', g1', g2', g3', -⟩ := meta_present i b hb
        rw [hp.1, hp.2] at g1
        rw [b1, b2, g1] at g1'
        rw [← Option.some.inj g1', g2] at g2'
        rw [g3, g3', Option.some.inj g2']
      simp only
      rw [if_neg (by rw [this, e1]; simp)]
      rfl
  unfold keystoreGet
  rw [hkeys, e2, hans, hfind]
  cases (sessionFiles H t).find? (fun c => c.1 = keyid) with
  | none => simp
  | some c =>
    simp only
    cases parse c.2 with
    | error e => simp
    | ok k' => simp

/-- C98, the flaw: the keystore is marked as verified although nothing was: for any other payload under the same header, with its hash and
signature, the command prints what is in that payload and marks it as verified. -/
theorem C98_verified_is_false {SK PK : Type} (H : HashFn) (hH : HashLen H) (S : SigScheme SK PK) (hS : ∀ sk rnd k d, S.sign sk rnd k d ≠ .error .ok)
    (t : List (Cmd SK × Err)) (f : Bytes) (h : Session H S t (some f)) (name : Bytes) (deco : Bool) (parse : Bytes → Except Err Key)
    (a b : Entry) (ha : a ∈ entries (parseHeader (f.take 4096))) (a1 : a.id = bpakId (ascii "bpak-package")) (a2 : a.ref = 0)
    (hb : b ∈ entries (parseHeader (f.take 4096))) (b1 : b.id = bpakId (ascii "keystore-provider-id")) (b2 : b.ref = 0) (b4 : 4 ≤ b.data.length)
    (f' : Bytes) (hl : f'.length = f.length) (hh : f'.take 4096 = f.take 4096)
    (hg : ∀ q ∈ usedParts (parseHeader (f.take 4096)), ∃ k, parse (fileRead f' q.offset.toNat q.size.toNat) = .ok k ∧ k.kind ∈ [1, 2, 3, 4] ∧ q.size.toNat ≤ 4096) :
    ∃ o ks, generateKeystore (some f') (some name) deco parse = .ret (.ok, o) ∧ o.compiled = some ks ∧ ks.verified = true ∧
      ks.keys.map some = (usedParts (parseHeader (f.take 4096))).map (fun q => match parse (fileRead f' q.offset.toNat q.size.toNat) with
        | .ok k => some ⟨q.id, k.kind, k.data⟩
        | .error _ => none) := by
  rcases session_inv hH S hS h with ⟨h, -⟩ | ⟨p, hf, i⟩
  · cases h
  cases hf
  rw [i.saved.2] at ha hb hg ⊢
  rw [show bpakId (ascii "bpak-package") = 0xfb2f1f3f by decide +kernel] at a1
  rw [show bpakId (ascii "keystore-provider-id") = 0xfb367d9a by decide +kernel] at b1
  obtain ⟨l, k1, k2⟩ := ((generate_good i hl hh name deco parse).2 a ha a1 a2 b hb b1 b2 b4).1 (by
    intro c hc
    obtain ⟨q, hq, rfl⟩ := List.mem_map.1 hc
    obtain ⟨k, e1, e2, e3⟩ := hg q hq
    have := (genKey_good i hl q hq parse).1
    unfold goodKey keyVerdict
    rw [if_neg (by simp only; omega), e1]
    simp only
    rw [if_pos e2])
  refine ⟨_, _, k2, rfl, rfl, ?_⟩
  have hlen : l.length = (usedParts p.hdr).length := by rw [k1.1]; unfold filesAt; rw [List.length_map]
  apply List.ext_getElem?
  intro j
  simp only [List.map_map, List.getElem?_map]
  cases hq : (usedParts p.hdr)[j]? with
  | none =>
    have := List.getElem?_eq_none_iff.1 hq
    rw [List.getElem?_eq_none (by omega)]
    rfl
  | some q =>
    obtain ⟨k, e1, e2⟩ := k1.2 j (q.id, fileRead f' q.offset.toNat q.size.toNat) (by unfold filesAt; rw [List.getElem?_map, hq]; rfl)
    simp only at e1 e2
    rw [e2]
    simp only [Option.map_some, Function.comp, e1]

end Bpak
