import Verif.Model.Show
import Verif.Spec.Show
import Verif.Props.Utils
import Verif.Props.Header
import Verif.Props.Id
/-! Properties C69, C70: metadata as text. -/
namespace Bpak

theorem snprintf_len (size : Nat) (s : Bytes) : (snprintf size s).length ≤ size := by
  unfold snprintf
  split
  · simp
  · simp [List.length_take]; omega

theorem withMeta_ret {h : Header} {m : MetaHdr} {n : Nat} {k : Bytes → Err × Bytes} {r : Err × Bytes} (e : withMeta h m n k = .ret r) :
    ∃ b, readAt h.metadata m.offset.toNat n = some b ∧ b.length = n ∧ r = k b := by
  unfold withMeta at e
  split at e
  · cases e
  · rename_i b hb
    refine ⟨b, hb, ?_, (Out.ret.inj e).symm⟩
    unfold readAt at hb
    split at hb
    · rw [← Option.some.inj hb, List.length_take, List.length_drop]; omega
    · cases hb

theorem withMeta_ub {h : Header} {m : MetaHdr} {n : Nat} {k : Bytes → Err × Bytes} (hl : h.metadata.length = 1920) :
    withMeta h m n k = .ub ↔ 1920 < m.offset.toNat + n := by
  unfold withMeta readAt
  rw [hl]
  split
  · rename_i hb; split at hb
    · cases hb
    · constructor
      · intro _; omega
      · intro _; rfl
  · rename_i b hb; split at hb
    · constructor
      · intro e; cases e
      · intro _; omega
    · cases hb

/-- C69: for an entry that lies inside the metadata area (as `bpak_valid_header` makes sure), `bpak_meta_to_string` reads
outside the area exactly if the bytes its kind of entry needs do not lie inside. -/
theorem C69_reads_outside_iff (h : Header) (hl : h.metadata.length = 1920) (m : MetaHdr) (hm : m.offset.toNat + m.size.toNat ≤ 1920) (size : Nat) :
    metaToString h m size = .ub ↔ 1920 < m.offset.toNat + Spec.bytesNeeded m.id m.size.toNat := by
  have key : ∀ n, Spec.bytesNeeded m.id m.size.toNat = n → ∀ k, metaToString h m size = withMeta h m n k →
      (metaToString h m size = .ub ↔ 1920 < m.offset.toNat + Spec.bytesNeeded m.id m.size.toNat) := by
    intro n hn k e
    rw [hn, e, withMeta_ub hl]
  by_cases h1 : m.id = idKeyId
  · exact key 4 (by rw [h1]; rfl) _ (by unfold metaToString; rw [if_pos h1])
  by_cases h2 : m.id = idKeyStore
  · exact key 4 (by rw [h2]; rfl) _ (by unfold metaToString; rw [if_neg h1, if_pos h2])
  by_cases h3 : m.id = idPackage
  · exact key 16 (by rw [h3]; rfl) _ (by unfold metaToString; rw [if_neg h1, if_neg h2, if_pos h3])
  by_cases h4 : m.id = idBpakTransport
  · exact key 8 (by rw [h4]; rfl) _ (by unfold metaToString; rw [if_neg h1, if_neg h2, if_neg h3, if_pos h4])
  by_cases h5 : m.id = idMerkleSalt
  · exact key 32 (by rw [h5]; rfl) _ (by unfold metaToString; rw [if_neg h1, if_neg h2, if_neg h3, if_neg h4, if_pos h5])
  by_cases h6 : m.id = idMerkleRootHash
  · exact key 32 (by rw [h6]; rfl) _ (by unfold metaToString; rw [if_neg h1, if_neg h2, if_neg h3, if_neg h4, if_neg h5, if_pos h6])
  by_cases h7 : m.id = idLoadAddr
  · exact key 8 (by rw [h7]; rfl) _ (by unfold metaToString; rw [if_neg h1, if_neg h2, if_neg h3, if_neg h4, if_neg h5, if_neg h6, if_pos h7])
  by_cases h8 : m.id = idVersion
  · by_cases hs : m.size.toNat > size
    · have : metaToString h m size = .ret (.sizeError, []) := by
        unfold metaToString; rw [if_neg h1, if_neg h2, if_neg h3, if_neg h4, if_neg h5, if_neg h6, if_neg h7, if_pos h8, if_pos hs]
      have hn : Spec.bytesNeeded m.id m.size.toNat = m.size.toNat := by rw [h8]; rfl
      rw [this, hn]
      constructor
      · intro e; cases e
      · intro _; omega
    · exact key m.size.toNat (by rw [h8]; rfl) _ (by unfold metaToString; rw [if_neg h1, if_neg h2, if_neg h3, if_neg h4, if_neg h5, if_neg h6, if_neg h7, if_pos h8, if_neg hs])
  by_cases h9 : m.id = idProvider
  · exact key 4 (by rw [h9]; rfl) _ (by unfold metaToString; rw [if_neg h1, if_neg h2, if_neg h3, if_neg h4, if_neg h5, if_neg h6, if_neg h7, if_neg h8, if_pos h9])
  have : metaToString h m size = .ret (.ok, if size = 0 then [] else [0]) := by
    unfold metaToString; rw [if_neg h1, if_neg h2, if_neg h3, if_neg h4, if_neg h5, if_neg h6, if_neg h7, if_neg h8, if_neg h9]
  have hn : Spec.bytesNeeded m.id m.size.toNat = 0 := by
    unfold Spec.bytesNeeded
    rw [if_neg (show ¬ (m.id = 0x7da19399 ∨ m.id = 0x106c13a7 ∨ m.id = 0xfb367d9a) from fun h => h.elim h1 (fun h => h.elim h2 h9)),
      if_neg (show ¬ m.id = 0xfb2f1f3f from h3), if_neg (show ¬ (m.id = 0x2d44bbfb ∨ m.id = 0xd1e64a4b) from fun h => h.elim h4 h7),
      if_neg (show ¬ (m.id = 0x7c9b2f93 ∨ m.id = 0xe68fc9be) from fun h => h.elim h5 h6), if_neg (show ¬ m.id = 0x9a5bab69 from h8)]
  rw [this, hn]
  constructor
  · intro e; cases e
  · intro _; omega

/-- C69, the flaw (reading): a header built by the API and valid can hold an entry whose text cannot be had without
reading outside the metadata area: here a package UUID entry of 8 bytes at the end of the area. -/
theorem C69_reads_inside_is_false : ∃ h m, Reachable h ∧ validHeader h = .ok ∧ m ∈ usedMetas h ∧ ∀ size, metaToString h m size = .ub := by
  have hr : ∃ h, run initHeader [.addMeta 5 0 1912, .addMeta 0xfb2f1f3f 0 8] = some h ∧ validHeader h = .ok ∧
      (usedMetas h).map (fun m => (m.id, m.offset, m.size)) = [(5, 0, 1912), (0xfb2f1f3f, 1912, 8)] ∧ h.metadata.length = 1920 := by
    have : (run initHeader [.addMeta 5 0 1912, .addMeta 0xfb2f1f3f 0 8]).map (fun h => (validHeader h, (usedMetas h).map (fun m => (m.id, m.offset, m.size)), h.metadata.length)) =
      some (.ok, [(5, 0, 1912), (0xfb2f1f3f, 1912, 8)], 1920) := by decide +kernel
    cases hh : run initHeader [.addMeta 5 0 1912, .addMeta 0xfb2f1f3f 0 8] with
    | none => rw [hh] at this; cases this
    | some h =>
      rw [hh] at this
      have := Option.some.inj this
      simp only [Prod.mk.injEq] at this
      exact ⟨h, rfl, this⟩
  obtain ⟨h, h1, h2, h3, h4⟩ := hr
  have hex : ∃ m ∈ usedMetas h, (m.id, m.offset, m.size) = ((0xfb2f1f3f, 1912, 8) : U32 × U16 × U16) := by
    have : ((0xfb2f1f3f, 1912, 8) : U32 × U16 × U16) ∈ (usedMetas h).map (fun m => (m.id, m.offset, m.size)) := by rw [h3]; simp
    obtain ⟨m, hm, e⟩ := List.mem_map.1 this
    exact ⟨m, hm, e⟩
  obtain ⟨m, hm, e⟩ := hex
  simp only [Prod.mk.injEq] at e
  refine ⟨h, m, ⟨_, h1⟩, h2, hm, ?_⟩
  intro size
  rw [C69_reads_outside_iff h h4 m (by rw [e.2.1, e.2.2]; decide), e.1, e.2.1, e.2.2]
  decide

/-- C69, what holds of reading: an entry of a valid header that is at least as long as its kind needs is read inside
the area. Missing: shorter entries, for which it is false. -/
theorem C69_reads_inside_partial (h : Header) (hl : h.metadata.length = 1920) (m : MetaHdr) (hm : m.offset.toNat + m.size.toNat ≤ 1920)
    (hn : Spec.bytesNeeded m.id m.size.toNat ≤ m.size.toNat) (size : Nat) : ∃ r, metaToString h m size = .ret r := by
  cases hr : metaToString h m size with
  | ret r => exact ⟨r, rfl⟩
  | ub => rw [C69_reads_outside_iff h hl m hm] at hr; omega

/-- C69, the flaw (writing): a salt or root hash entry overruns a buffer of 64 bytes (that of `bpak compare`) by one,
and reports success. -/
theorem C69_writes_inside_is_false (h : Header) (hl : h.metadata.length = 1920) (m : MetaHdr) (hk : m.id = idMerkleSalt ∨ m.id = idMerkleRootHash)
    (hm : m.offset.toNat + 32 ≤ 1920) : ∃ out, metaToString h m 64 = .ret (.ok, out) ∧ out.length = 65 := by
  have : metaToString h m 64 = withMeta h m 32 fun b => (.ok, (bin2hex b 64).2) := by
    unfold metaToString
    rcases hk with hk | hk
    · rw [if_neg (by rw [hk]; decide), if_neg (by rw [hk]; decide), if_neg (by rw [hk]; decide), if_neg (by rw [hk]; decide), if_pos hk]
    · rw [if_neg (by rw [hk]; decide), if_neg (by rw [hk]; decide), if_neg (by rw [hk]; decide), if_neg (by rw [hk]; decide), if_neg (by rw [hk]; decide), if_pos hk]
  rw [this]
  unfold withMeta readAt
  rw [if_pos (by omega)]
  have hlen : ((h.metadata.drop m.offset.toNat).take 32).length = 32 := by rw [List.length_take, List.length_drop]; omega
  obtain ⟨c1, c2⟩ := C18_bin2hex_content ((h.metadata.drop m.offset.toNat).take 32) 64
  refine ⟨_, rfl, ?_⟩
  rw [c2 (c1.2 (by omega)), List.length_append, hexText_length, hlen]; rfl

/-- C69, what holds of writing: no more than `size` bytes are written, unless the entry is a salt or root hash and the
buffer has less than 65 bytes. Missing: that case, in which it is false. -/
theorem C69_writes_inside_partial (h : Header) (m : MetaHdr) (size : Nat) (e : Err) (out : Bytes) (hr : metaToString h m size = .ret (e, out))
    (hk : m.id = idMerkleSalt ∨ m.id = idMerkleRootHash → 65 ≤ size) : out.length ≤ size := by
  unfold metaToString at hr
  repeat' split at hr
  all_goals first
    | (obtain ⟨b, hb, hl, e1⟩ := withMeta_ret hr
       have e2 := (Prod.mk.inj e1).2
       first
       | (rw [e2]; exact snprintf_len _ _)
       | (rw [e2]; exact C19_uuid_to_string_in_bounds b hl size)
       | (rw [e2, C18_bin2hex_in_bounds_iff, hl]; exact hk (by first | exact Or.inl (by assumption) | exact Or.inr (by assumption)))
       | (rw [e2, hl]; omega))
    | (have e1 := Out.ret.inj hr
       have e2 := (Prod.mk.inj e1).2
       rw [← e2]
       first | (simp; done) | (simp; omega))

/-! ### C70 -/

theorem hexNumber_append (a : Bytes) (c : U8) (v d : Nat) (ha : Spec.hexNumber a = some v) (hc : Spec.digit c = some d) :
    Spec.hexNumber (a ++ [c]) = some (16 * v + d) := by
  unfold Spec.hexNumber at ha ⊢
  rw [List.foldl_append, ha]
  simp [hc]

theorem digit_hexDigit : ∀ n, n < 16 → Spec.digit (hexDigit n) = some n ∧ Spec.digit (upperHex (hexDigit n)) = some n ∧ hexDigit n ≠ 0 ∧ upperHex (hexDigit n) ≠ 0 := by
  have : ∀ n : Fin 16, Spec.digit (hexDigit n.val) = some n.val ∧ Spec.digit (upperHex (hexDigit n.val)) = some n.val ∧ hexDigit n.val ≠ 0 ∧ upperHex (hexDigit n.val) ≠ 0 := by decide +kernel
  intro n hn
  exact this ⟨n, hn⟩

/-- The printed digits: their number value, no NUL among them, and as few as possible. -/
theorem hexMin_spec : ∀ v, Spec.hexNumber (hexMin v) = some v ∧ Spec.hexNumber ((hexMin v).map upperHex) = some v ∧
    (∀ c ∈ hexMin v, c ≠ 0 ∧ upperHex c ≠ 0) ∧ (∀ k, 0 < k → v < 16^k → (hexMin v).length ≤ k) ∧ 0 < (hexMin v).length := by
  intro v
  induction v using Nat.strongRecOn with
  | _ v ih =>
    rw [hexMin]
    split
    · rename_i h
      obtain ⟨a, b, c, d⟩ := digit_hexDigit v h
      refine ⟨?_, ?_, ?_, ?_, by simp⟩
      · simpa using hexNumber_append [] (hexDigit v) 0 v rfl a
      · simpa using hexNumber_append [] (upperHex (hexDigit v)) 0 v rfl b
      · intro x hx; simp at hx; rw [hx]; exact ⟨c, d⟩
      · intro k hk _; simp; omega
    · rename_i h
      obtain ⟨i1, i2, i3, i4, i5⟩ := ih (v / 16) (by omega)
      obtain ⟨a, b, c, d⟩ := digit_hexDigit (v % 16) (by omega)
      have e : 16 * (v / 16) + v % 16 = v := by omega
      refine ⟨?_, ?_, ?_, ?_, by simp⟩
      · rw [hexNumber_append _ _ _ _ i1 a, e]
      · rw [List.map_append, List.map_cons, List.map_nil, hexNumber_append _ _ _ _ i2 b, e]
      · intro x hx
        rcases List.mem_append.1 hx with hx | hx
        · exact i3 x hx
        · simp at hx; rw [hx]; exact ⟨c, d⟩
      · intro k hk hv
        rw [List.length_append]
        have : 0 < k - 1 := by
          rcases Nat.lt_or_ge 1 k with h | h
          · omega
          · have : k = 1 := by omega
            subst this; omega
        have := i4 (k - 1) this (by
          have : 16^k = 16^(k-1) * 16 := by rw [← Nat.pow_succ]; congr 1; omega
          rw [this] at hv
          exact Nat.div_lt_of_lt_mul (by omega))
        simp; omega

theorem hexNumber_zeros (n : Nat) (t : Bytes) : Spec.hexNumber (List.replicate n 0x30 ++ t) = Spec.hexNumber t := by
  unfold Spec.hexNumber
  rw [List.foldl_append]
  congr 1
  induction n with
  | zero => rfl
  | succ n ih =>
    rw [List.replicate_succ, List.foldl_cons]
    exact ih

theorem zeroFill_spec (n v : Nat) (hn : 0 < n) (hv : v < 16^n) : Spec.hexNumber (zeroFill n (hexMin v)) = some v ∧ (zeroFill n (hexMin v)).length = n ∧ ∀ c ∈ zeroFill n (hexMin v), c ≠ 0 := by
  obtain ⟨i1, i2, i3, i4, i5⟩ := hexMin_spec v
  have := i4 n hn hv
  unfold zeroFill
  refine ⟨by rw [hexNumber_zeros]; exact i1, by simp; omega, ?_⟩
  intro c hc
  rcases List.mem_append.1 hc with hc | hc
  · rw [(List.mem_replicate.1 hc).2]; decide
  · exact (i3 c hc).1

theorem snprintf_whole (size : Nat) (s : Bytes) (h : s.length < size) : snprintf size s = s ++ [0] := by
  unfold snprintf
  rw [if_neg (by omega), List.take_of_length_le (by omega)]

theorem hexText_no_nul (b : Bytes) : ∀ c ∈ hexText b, c ≠ 0 := by
  intro c hc e
  have := (lower_hexText b).2 c hc
  rw [e] at this
  exact absurd this (by decide)

theorem uuidText_no_nul (b : Bytes) : ∀ c ∈ uuidText b, c ≠ 0 := by
  intro c hc
  unfold uuidText at hc
  have da : ∀ c ∈ ascii "-", c ≠ 0 := by decide
  simp only [List.mem_append] at hc
  rcases hc with ((((((((hc | hc) | hc) | hc) | hc) | hc) | hc) | hc) | hc)
  all_goals first | exact hexText_no_nul _ c hc | exact da c hc

theorem zeroFill_upper (v : Nat) (hv : v < 16^16) : Spec.hexNumber (zeroFill 8 ((hexMin v).map upperHex)) = some v ∧
    8 ≤ (zeroFill 8 ((hexMin v).map upperHex)).length ∧ (zeroFill 8 ((hexMin v).map upperHex)).length ≤ 16 ∧
    ∀ c ∈ zeroFill 8 ((hexMin v).map upperHex), c ≠ 0 := by
  obtain ⟨i1, i2, i3, i4, i5⟩ := hexMin_spec v
  have := i4 16 (by omega) hv
  unfold zeroFill
  refine ⟨by rw [hexNumber_zeros]; exact i2, by simp; omega, by simp; omega, ?_⟩
  intro c hc
  rcases List.mem_append.1 hc with hc | hc
  · rw [(List.mem_replicate.1 hc).2]; decide
  · obtain ⟨x, hx, e⟩ := List.mem_map.1 hc
    rw [← e]; exact (i3 x hx).2

theorem readAt_len {b : Bytes} {o n : Nat} {r : Bytes} (h : readAt b o n = some r) : r.length = n := by
  unfold readAt at h
  split at h
  · rw [← Option.some.inj h, List.length_take, List.length_drop]; omega
  · cases h

local macro "no_way" h:term : term => `(by rw [$h:term]; intro e; first | exact absurd e (by decide) | exact absurd (show (4:Nat) = 0 from e) (by decide) | exact absurd (show (8:Nat) = 0 from e) (by decide) | exact absurd (show (16:Nat) = 0 from e) (by decide) | exact absurd (show (32:Nat) = 0 from e) (by decide))

/-- C70: with a buffer of at least 65 bytes, an entry that holds the bytes of its kind is rendered thus, NUL-terminated:
a key or keystore id as its hexadecimal number; the keystore provider id likewise behind `0x`; the package id as
UUID text; the transport algorithms as two 8-digit numbers; salt and root hash as 64 digits; the load address with at
least 8 digits. `t` is the text without the NUL. -/
theorem C70_text (h : Header) (m : MetaHdr) (size : Nat) (hs : 65 ≤ size) (b : Bytes)
    (hb : readAt h.metadata m.offset.toNat (Spec.bytesNeeded m.id m.size.toNat) = some b) (hv : m.id ≠ idVersion) :
    ∃ t, metaToString h m size = .ret (.ok, t ++ [0]) ∧ (∀ c ∈ t, c ≠ 0) ∧
      (m.id = idKeyId ∨ m.id = idKeyStore → Spec.hexNumber t = some (ofLe32 b).toNat) ∧
      (m.id = idProvider → ∃ d, t = asciiBytes "0x" ++ d ∧ Spec.hexNumber d = some (ofLe32 b).toNat) ∧
      (m.id = idPackage → t = uuidText b) ∧
      (m.id = idBpakTransport → ∃ x y, t = asciiBytes "Encode: " ++ x ++ asciiBytes ", Decode: " ++ y ∧ x.length = 8 ∧ y.length = 8 ∧
        Spec.hexNumber x = some (ofLe32 (b.take 4)).toNat ∧ Spec.hexNumber y = some (ofLe32 (b.drop 4)).toNat) ∧
      (m.id = idMerkleSalt ∨ m.id = idMerkleRootHash → t = hexText b) ∧
      (m.id = idLoadAddr → ∃ d, t = asciiBytes "Entry: 0x" ++ d ∧ 8 ≤ d.length ∧ Spec.hexNumber d = some (ofLe64 b).toNat) ∧
      (Spec.bytesNeeded m.id m.size.toNat = 0 → t = []) := by
  have u32 : ∀ x : U32, x.toNat < 16^8 := fun x => x.isLt
  have u64 : ∀ x : U64, x.toNat < 16^16 := fun x => x.isLt
  have nm : ∀ n k, Spec.bytesNeeded m.id m.size.toNat = n → withMeta h m n k = .ret (k b) := by
    intro n k e
    rw [e] at hb
    unfold withMeta; rw [hb]
  by_cases h1 : m.id = idKeyId
  · obtain ⟨i1, i2, i3, i4, i5⟩ := hexMin_spec (ofLe32 b).toNat
    have := i4 8 (by omega) (u32 _)
    refine ⟨hexMin (ofLe32 b).toNat, ?_, fun c hc => (i3 c hc).1, fun _ => i1, no_way h1, no_way h1, no_way h1, no_way h1, no_way h1, no_way h1⟩
    unfold metaToString; rw [if_pos h1, nm 4 _ (by rw [h1]; rfl), snprintf_whole _ _ (by omega)]
  by_cases h2 : m.id = idKeyStore
  · obtain ⟨i1, i2, i3, i4, i5⟩ := hexMin_spec (ofLe32 b).toNat
    have := i4 8 (by omega) (u32 _)
    refine ⟨hexMin (ofLe32 b).toNat, ?_, fun c hc => (i3 c hc).1, fun _ => i1, no_way h2, no_way h2, no_way h2, no_way h2, no_way h2, no_way h2⟩
    unfold metaToString; rw [if_neg h1, if_pos h2, nm 4 _ (by rw [h2]; rfl), snprintf_whole _ _ (by omega)]
  by_cases h3 : m.id = idPackage
  · refine ⟨uuidText b, ?_, uuidText_no_nul b, no_way h3, no_way h3, fun _ => rfl, no_way h3, no_way h3, no_way h3, no_way h3⟩
    have hl : b.length = 16 := by rw [readAt_len hb, h3]; rfl
    unfold metaToString; rw [if_neg h1, if_neg h2, if_pos h3, nm 16 _ (by rw [h3]; rfl), C19_uuid_to_string b hl, if_neg (by omega)]
  by_cases h4 : m.id = idBpakTransport
  · obtain ⟨x1, x2, x3⟩ := zeroFill_spec 8 (ofLe32 (b.take 4)).toNat (by omega) (u32 _)
    obtain ⟨y1, y2, y3⟩ := zeroFill_spec 8 (ofLe32 (b.drop 4)).toNat (by omega) (u32 _)
    refine ⟨asciiBytes "Encode: " ++ zeroFill 8 (hexMin (ofLe32 (b.take 4)).toNat) ++ asciiBytes ", Decode: " ++ zeroFill 8 (hexMin (ofLe32 (b.drop 4)).toNat),
      ?_, ?_, no_way h4, no_way h4, no_way h4, fun _ => ⟨_, _, rfl, x2, y2, x1, y1⟩, no_way h4, no_way h4, no_way h4⟩
    · unfold metaToString; rw [if_neg h1, if_neg h2, if_neg h3, if_pos h4, nm 8 _ (by rw [h4]; rfl)]
      rw [show ascii "Encode: " = asciiBytes "Encode: " from rfl, show ascii ", Decode: " = asciiBytes ", Decode: " from rfl]
      rw [snprintf_whole]
      have l1 : (asciiBytes "Encode: ").length = 8 := by decide
      have l2 : (asciiBytes ", Decode: ").length = 10 := by decide
      simp only [List.length_append, x2, y2, l1, l2]; omega
    · have d1 : ∀ c ∈ asciiBytes "Encode: ", c ≠ 0 := by decide
      have d2 : ∀ c ∈ asciiBytes ", Decode: ", c ≠ 0 := by decide
      intro c hc
      simp only [List.mem_append] at hc
      rcases hc with (((hc | hc) | hc) | hc)
      · exact d1 c hc
      · exact x3 c hc
      · exact d2 c hc
      · exact y3 c hc
  by_cases h5 : m.id = idMerkleSalt
  · refine ⟨hexText b, ?_, hexText_no_nul b, no_way h5, no_way h5, no_way h5, no_way h5, fun _ => rfl, no_way h5, no_way h5⟩
    have hl : b.length = 32 := by rw [readAt_len hb, h5]; rfl
    obtain ⟨c1, c2⟩ := C18_bin2hex_content b size
    unfold metaToString; rw [if_neg h1, if_neg h2, if_neg h3, if_neg h4, if_pos h5, nm 32 _ (by rw [h5]; rfl), c2 (c1.2 (by omega))]
  by_cases h6 : m.id = idMerkleRootHash
  · refine ⟨hexText b, ?_, hexText_no_nul b, no_way h6, no_way h6, no_way h6, no_way h6, fun _ => rfl, no_way h6, no_way h6⟩
    have hl : b.length = 32 := by rw [readAt_len hb, h6]; rfl
    obtain ⟨c1, c2⟩ := C18_bin2hex_content b size
    unfold metaToString; rw [if_neg h1, if_neg h2, if_neg h3, if_neg h4, if_neg h5, if_pos h6, nm 32 _ (by rw [h6]; rfl), c2 (c1.2 (by omega))]
  by_cases h7 : m.id = idLoadAddr
  · obtain ⟨x1, x2, x3, x4⟩ := zeroFill_upper (ofLe64 b).toNat (u64 _)
    refine ⟨asciiBytes "Entry: 0x" ++ zeroFill 8 ((hexMin (ofLe64 b).toNat).map upperHex), ?_, ?_, no_way h7, no_way h7, no_way h7, no_way h7, no_way h7,
      fun _ => ⟨_, rfl, x2, x1⟩, no_way h7⟩
    · unfold metaToString; rw [if_neg h1, if_neg h2, if_neg h3, if_neg h4, if_neg h5, if_neg h6, if_pos h7, nm 8 _ (by rw [h7]; rfl)]
      rw [show ascii "Entry: 0x" = asciiBytes "Entry: 0x" from rfl, snprintf_whole]
      have l1 : (asciiBytes "Entry: 0x").length = 9 := by decide
      simp only [List.length_append, l1]; omega
    · have d1 : ∀ c ∈ asciiBytes "Entry: 0x", c ≠ 0 := by decide
      intro c hc
      rcases List.mem_append.1 hc with hc | hc
      · exact d1 c hc
      · exact x4 c hc
  by_cases h9 : m.id = idProvider
  · obtain ⟨i1, i2, i3, i4, i5⟩ := hexMin_spec (ofLe32 b).toNat
    have := i4 8 (by omega) (u32 _)
    refine ⟨asciiBytes "0x" ++ hexMin (ofLe32 b).toNat, ?_, ?_, no_way h9, fun _ => ⟨_, rfl, i1⟩, no_way h9, no_way h9, no_way h9, no_way h9, no_way h9⟩
    · unfold metaToString
      rw [if_neg h1, if_neg h2, if_neg h3, if_neg h4, if_neg h5, if_neg h6, if_neg h7, if_neg hv, if_pos h9, nm 4 _ (by rw [h9]; rfl)]
      rw [show ascii "0x" = asciiBytes "0x" from rfl, snprintf_whole]
      have l1 : (asciiBytes "0x").length = 2 := by decide
      simp only [List.length_append, l1]; omega
    · have d1 : ∀ c ∈ asciiBytes "0x", c ≠ 0 := by decide
      intro c hc
      rcases List.mem_append.1 hc with hc | hc
      · exact d1 c hc
      · exact (i3 c hc).1
  refine ⟨[], ?_, by simp, fun e => (e.elim h1 h2).elim, fun e => (h9 e).elim, fun e => (h3 e).elim, fun e => (h4 e).elim, fun e => (e.elim h5 h6).elim,
    fun e => (h7 e).elim, fun _ => rfl⟩
  unfold metaToString
  rw [if_neg h1, if_neg h2, if_neg h3, if_neg h4, if_neg h5, if_neg h6, if_neg h7, if_neg hv, if_neg h9, if_neg (by omega)]
  rfl

/-- C70: the version entry is handed out as it is stored, with no NUL added. -/
theorem C70_version_as_stored (h : Header) (m : MetaHdr) (hv : m.id = idVersion) (size : Nat) (b : Bytes)
    (hb : readAt h.metadata m.offset.toNat m.size.toNat = some b) :
    metaToString h m size = if m.size.toNat > size then .ret (.sizeError, []) else .ret (.ok, b) := by
  unfold metaToString
  rw [if_neg (by rw [hv]; decide), if_neg (by rw [hv]; decide), if_neg (by rw [hv]; decide), if_neg (by rw [hv]; decide), if_neg (by rw [hv]; decide),
    if_neg (by rw [hv]; decide), if_neg (by rw [hv]; decide), if_pos hv]
  split
  · rfl
  · unfold withMeta; rw [hb]

/-- C70, the flaw: success does not mean that the buffer holds a string: a version entry of three characters, made
by the API in a valid header, gives three bytes and no NUL whatever the size of the buffer, and a package UUID in a buffer
of 36 bytes writes nothing at all and reports success. -/
theorem C70_terminated_is_false :
    (∃ h m, Reachable h ∧ validHeader h = .ok ∧ m ∈ usedMetas h ∧ ∀ size, 3 ≤ size → ∃ t, metaToString h m size = .ret (.ok, t) ∧ t.length = 3 ∧ ∀ c ∈ t, c ≠ 0) ∧
    (∃ h m, Reachable h ∧ validHeader h = .ok ∧ m ∈ usedMetas h ∧ metaToString h m 36 = .ret (.ok, [])) := by
  have wit : ∀ ops x, ((run initHeader ops).bind fun h => (usedMetas h).head?.map fun m => (validHeader h, m.id, m.offset, m.size, h.metadata.take 16)) = some x →
      ∃ h m, Reachable h ∧ m ∈ usedMetas h ∧ (validHeader h, m.id, m.offset, m.size, h.metadata.take 16) = x := by
    intro ops x e
    cases hr : run initHeader ops with
    | none => rw [hr] at e; cases e
    | some h =>
      rw [hr] at e
      replace e : (usedMetas h).head?.map (fun m => (validHeader h, m.id, m.offset, m.size, h.metadata.take 16)) = some x := e
      cases hm : (usedMetas h).head? with
      | none => rw [hm] at e; cases e
      | some m => rw [hm] at e; exact ⟨h, m, ⟨ops, hr⟩, List.mem_of_head? hm, Option.some.inj e⟩
  refine ⟨?_, ?_⟩
  · obtain ⟨h, m, hr, hm, e⟩ := wit [.addMeta 0x9a5bab69 0 3, .writeMeta 0x9a5bab69 0 (asciiBytes "1.2")]
      (.ok, idVersion, 0, 3, asciiBytes "1.2" ++ List.replicate 13 0) (by decide +kernel)
    simp only [Prod.mk.injEq] at e
    obtain ⟨e1, e2, e3, e4, e5⟩ := e
    have hl : h.metadata.length = 1920 := hr.inv.wf.2.2.2.1
    have hb : readAt h.metadata m.offset.toNat m.size.toNat = some (asciiBytes "1.2") := by
      rw [e3, e4]
      unfold readAt
      rw [if_pos (by rw [hl]; decide)]
      have : (h.metadata.take 16).take 3 = asciiBytes "1.2" := by rw [e5]; decide
      rw [List.take_take] at this
      exact congrArg some this
    refine ⟨h, m, hr, e1, hm, fun size hs => ⟨asciiBytes "1.2", ?_, by decide, by decide⟩⟩
    rw [C70_version_as_stored h m e2 size _ hb, e4, if_neg (by simpa using hs)]
  · obtain ⟨h, m, hr, hm, e⟩ := wit [.addMeta 0xfb2f1f3f 0 16] (.ok, idPackage, 0, 16, List.replicate 16 0) (by decide +kernel)
    simp only [Prod.mk.injEq] at e
    obtain ⟨e1, e2, e3, e4, e5⟩ := e
    have hl : h.metadata.length = 1920 := hr.inv.wf.2.2.2.1
    refine ⟨h, m, hr, e1, hm, ?_⟩
    unfold metaToString
    rw [if_neg (by rw [e2]; decide), if_neg (by rw [e2]; decide), if_pos e2]
    unfold withMeta readAt
    rw [if_pos (by rw [hl, e3]; decide)]
    dsimp only
    rw [C19_uuid_to_string _ (by rw [List.length_take, List.length_drop, hl, e3]; decide), if_pos (by decide)]

/-- The hypotheses of `C70_text` are met: a load address. -/
example : ∃ (h : Header) (m : MetaHdr), metaToString h m 65 = .ret (.ok, asciiBytes "Entry: 0x0000ABCD" ++ [0]) :=
  ⟨{ initHeader with metadata := [0xcd, 0xab, 0, 0, 0, 0, 0, 0] ++ List.replicate 1912 0 }, ⟨0xd1e64a4b, 8, 0, 0, [0, 0, 0, 0]⟩, by decide +kernel⟩

end Bpak
