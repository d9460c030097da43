import Verif.Model.Image
import Verif.Spec.Bytes
namespace Bpak

theorem ofLe16_le16 (x : U16) : ofLe16 (le16 x) = x := by
  unfold ofLe16 le16
  apply BitVec.eq_of_getLsbD_eq
  intro i hi
  simp only [BitVec.getLsbD_append, BitVec.getLsbD_extractLsb']
  grind

theorem ofLe32_le32 (x : U32) : ofLe32 (le32 x) = x := by
  unfold ofLe32 le32
  apply BitVec.eq_of_getLsbD_eq
  intro i hi
  simp only [BitVec.getLsbD_append, BitVec.getLsbD_extractLsb']
  grind

theorem ofLe64_le64 (x : U64) : ofLe64 (le64 x) = x := by
  unfold ofLe64 le64
  apply BitVec.eq_of_getLsbD_eq
  intro i hi
  simp only [BitVec.getLsbD_append, BitVec.getLsbD_extractLsb']
  grind

theorem len2 {b : Bytes} (h : b.length = 2) : ∃ x y, b = [x, y] := by
  match b, h with
  | [x, y], _ => exact ⟨x, y, rfl⟩
theorem len4 {b : Bytes} (h : b.length = 4) : ∃ x y z w, b = [x, y, z, w] := by
  match b, h with
  | [x, y, z, w], _ => exact ⟨x, y, z, w, rfl⟩
theorem len8 {b : Bytes} (h : b.length = 8) : ∃ x y z w x' y' z' w', b = [x, y, z, w, x', y', z', w'] := by
  match b, h with
  | [x, y, z, w, x', y', z', w'], _ => exact ⟨x, y, z, w, x', y', z', w', rfl⟩
theorem len1 {b : Bytes} (h : b.length = 1) : ∃ x, b = [x] := by
  match b, h with
  | [x], _ => exact ⟨x, rfl⟩

theorem le16_ofLe16 {b : Bytes} (h : b.length = 2) : le16 (ofLe16 b) = b := by
  obtain ⟨x, y, rfl⟩ := len2 h
  simp only [ofLe16, le16, List.cons.injEq, and_true]
  refine ⟨?_, ?_⟩ <;>
  · apply BitVec.eq_of_getLsbD_eq
    intro i hi
    simp only [BitVec.getLsbD_append, BitVec.getLsbD_extractLsb']
    grind

theorem le32_ofLe32 {b : Bytes} (h : b.length = 4) : le32 (ofLe32 b) = b := by
  obtain ⟨x, y, z, w, rfl⟩ := len4 h
  simp only [ofLe32, le32, List.cons.injEq, and_true]
  refine ⟨?_, ?_, ?_, ?_⟩ <;>
  · apply BitVec.eq_of_getLsbD_eq
    intro i hi
    simp only [BitVec.getLsbD_append, BitVec.getLsbD_extractLsb']
    grind

theorem le64_ofLe64 {b : Bytes} (h : b.length = 8) : le64 (ofLe64 b) = b := by
  obtain ⟨x, y, z, w, x', y', z', w', rfl⟩ := len8 h
  simp only [ofLe64, le64, List.cons.injEq, and_true]
  refine ⟨?_, ?_, ?_, ?_, ?_, ?_, ?_, ?_⟩ <;>
  · apply BitVec.eq_of_getLsbD_eq
    intro i hi
    simp only [BitVec.getLsbD_append, BitVec.getLsbD_extractLsb']
    grind

/-! slices -/

theorem slice_append_right {a b : Bytes} {n o l : Nat} (h : a.length = n) :
    slice (a ++ b) (n + o) l = slice b o l := by
  subst h
  unfold slice
  rw [← List.drop_drop, List.drop_left]

theorem slice_append_exact {a b : Bytes} {n : Nat} (h : a.length = n) : slice (a ++ b) 0 n = a := by
  subst h; unfold slice; simp

theorem slice_all {a : Bytes} {n : Nat} (h : a.length = n) : slice a 0 n = a := by
  subst h; unfold slice; simp

theorem slice_length {b : Bytes} {o n : Nat} (h : o + n ≤ b.length) : (slice b o n).length = n := by
  unfold slice; simp; omega

theorem slice_add {b : Bytes} {o n m : Nat} : slice b o n ++ slice b (o + n) m = slice b o (n + m) := by
  unfold slice
  rw [List.take_add, List.drop_drop]

theorem slice_slice {b : Bytes} {o n o' n' : Nat} (h : o' + n' ≤ n) :
    slice (slice b o n) o' n' = slice b (o + o') n' := by
  unfold slice
  rw [List.drop_take, List.drop_drop, List.take_take]
  congr 1; omega

theorem flatMap_slice {α : Type} (f : α → Bytes) (w : Nat) (l : List α) (hf : ∀ a ∈ l, (f a).length = w)
    (i : Nat) (hi : i < l.length) (tail : Bytes) : slice (l.flatMap f ++ tail) (w * i) w = f l[i] := by
  induction l generalizing i with
  | nil => simp at hi
  | cons a l ih =>
    rw [List.flatMap_cons, List.append_assoc]
    cases i with
    | zero => rw [Nat.mul_zero, slice_append_exact (hf a (by simp))]; rfl
    | succ i =>
      rw [Nat.mul_succ, Nat.add_comm, slice_append_right (hf a (by simp))]
      exact ih (fun x hx => hf x (by simp [hx])) i (by simpa using hi)

theorem flatMap_length {α : Type} (f : α → Bytes) (w : Nat) (l : List α) (hf : ∀ a ∈ l, (f a).length = w) :
    (l.flatMap f).length = w * l.length := by
  induction l with
  | nil => simp
  | cons a l ih =>
    rw [List.flatMap_cons, List.length_append, hf a (by simp), ih (fun x hx => hf x (by simp [hx]))]
    simp [Nat.mul_succ]; omega

theorem range_flatMap_slices (b : Bytes) (o w n : Nat) :
    (List.range n).flatMap (fun i => slice b (o + w * i) w) = slice b o (w * n) := by
  induction n with
  | zero => simp [slice]
  | succ n ih =>
    rw [List.range_succ, List.flatMap_append, ih, List.flatMap_singleton, slice_add, Nat.mul_succ]

theorem metaImage_length {m : MetaHdr} (h : m.pad.length = 4) : (metaImage m).length = 16 := by
  simp [metaImage, le32, le16, h]

theorem partImage_length (p : PartHdr) : (partImage p).length = 32 := by
  simp [partImage, le32, le16, le64]

theorem parseMeta_image {m : MetaHdr} (h : m.pad.length = 4) : parseMeta (metaImage m) = m := by
  obtain ⟨a, b, c, d, hp⟩ := len4 h
  obtain ⟨id, size, offset, partRef, pad⟩ := m
  simp only at hp
  subst hp
  have e1 : ofLe32 (slice (metaImage ⟨id, size, offset, partRef, [a,b,c,d]⟩) 0 4) = id := ofLe32_le32 id
  have e2 : ofLe16 (slice (metaImage ⟨id, size, offset, partRef, [a,b,c,d]⟩) 4 2) = size := ofLe16_le16 size
  have e3 : ofLe16 (slice (metaImage ⟨id, size, offset, partRef, [a,b,c,d]⟩) 6 2) = offset := ofLe16_le16 offset
  have e4 : ofLe32 (slice (metaImage ⟨id, size, offset, partRef, [a,b,c,d]⟩) 8 4) = partRef := ofLe32_le32 partRef
  unfold parseMeta
  rw [e1, e2, e3, e4]
  rfl

theorem parsePart_image (p : PartHdr) : parsePart (partImage p) = p := by
  obtain ⟨id, size, offset, ts, pb, fl, pad⟩ := p
  have e1 : ofLe32 (slice (partImage ⟨id, size, offset, ts, pb, fl, pad⟩) 0 4) = id := ofLe32_le32 id
  have e2 : ofLe64 (slice (partImage ⟨id, size, offset, ts, pb, fl, pad⟩) 4 8) = size := ofLe64_le64 size
  have e3 : ofLe64 (slice (partImage ⟨id, size, offset, ts, pb, fl, pad⟩) 12 8) = offset := ofLe64_le64 offset
  have e4 : ofLe64 (slice (partImage ⟨id, size, offset, ts, pb, fl, pad⟩) 20 8) = ts := ofLe64_le64 ts
  have e5 : ofLe16 (slice (partImage ⟨id, size, offset, ts, pb, fl, pad⟩) 28 2) = pb := ofLe16_le16 pb
  unfold parsePart
  rw [e1, e2, e3, e4, e5]
  rfl

theorem metaImage_parse {b : Bytes} (h : b.length = 16) : metaImage (parseMeta b) = b := by
  unfold metaImage parseMeta
  simp only
  rw [le32_ofLe32 (slice_length (by omega)), le16_ofLe16 (slice_length (by omega)),
    le16_ofLe16 (slice_length (by omega)), le32_ofLe32 (slice_length (by omega))]
  rw [slice_add (n := 4) (m := 2), slice_add (n := 4+2) (m := 2), slice_add (n := 4+2+2) (m := 4),
    slice_add (n := 4+2+2+4) (m := 4)]
  exact slice_all h

theorem partImage_parse {b : Bytes} (h : b.length = 32) : partImage (parsePart b) = b := by
  unfold partImage parsePart
  simp only
  rw [le32_ofLe32 (slice_length (by omega)), le64_ofLe64 (slice_length (by omega)),
    le64_ofLe64 (slice_length (by omega)), le64_ofLe64 (slice_length (by omega)),
    le16_ofLe16 (slice_length (by omega))]
  have e : [(slice b 30 1).headD 0, (slice b 31 1).headD 0] = slice b 30 1 ++ slice b 31 1 := by
    obtain ⟨x, hx⟩ := len1 (slice_length (b := b) (o := 30) (n := 1) (by omega))
    obtain ⟨y, hy⟩ := len1 (slice_length (b := b) (o := 31) (n := 1) (by omega))
    rw [hx, hy]; rfl
  rw [e, slice_add (o := 30) (n := 1) (m := 1)]
  rw [slice_add (n := 4) (m := 8), slice_add (n := 4+8) (m := 8), slice_add (n := 4+8+8) (m := 8),
    slice_add (n := 4+8+8+8) (m := 2), slice_add (n := 4+8+8+8+2) (m := 1+1)]
  exact slice_all h

theorem image_length {h : Header} (w : h.WF) : h.image.length = 4096 := by
  obtain ⟨w1, w2, w3, w4, w5, w6, w7, w8⟩ := w
  unfold Header.image
  simp only [List.length_append, w1, w4, w5, w6, w7]
  rw [flatMap_length metaImage 16 h.metas (fun m hm => metaImage_length (w8 m hm)),
    flatMap_length partImage 32 h.parts (fun p _ => partImage_length p), w2, w3]
  rfl

theorem image_parse {b : Bytes} (h : b.length = 4096) : (parseHeader b).image = b := by
  unfold Header.image parseHeader
  simp only
  rw [le32_ofLe32 (slice_length (by omega)), le32_ofLe32 (slice_length (by omega)),
    le32_ofLe32 (slice_length (by omega)), le16_ofLe16 (slice_length (by omega)),
    le16_ofLe16 (slice_length (by omega))]
  have e : [(slice b 3464 1).headD 0, (slice b 3465 1).headD 0] = slice b 3464 1 ++ slice b 3465 1 := by
    obtain ⟨x, hx⟩ := len1 (slice_length (b := b) (o := 3464) (n := 1) (by omega))
    obtain ⟨y, hy⟩ := len1 (slice_length (b := b) (o := 3465) (n := 1) (by omega))
    rw [hx, hy]; rfl
  rw [e, slice_add (o := 3464) (n := 1) (m := 1)]
  have em : List.flatMap metaImage (List.map (fun i => parseMeta (slice b (8 + 16 * i) 16)) (List.range 32))
      = slice b 8 512 := by
    rw [List.flatMap_map, ← range_flatMap_slices b 8 16 32, List.flatMap_def, List.flatMap_def]
    congr 1
    apply List.map_congr_left
    intro i hi
    have := List.mem_range.1 hi
    exact metaImage_parse (slice_length (by omega))
  have ep : List.flatMap partImage (List.map (fun i => parsePart (slice b (520 + 32 * i) 32)) (List.range 32))
      = slice b 520 1024 := by
    rw [List.flatMap_map, ← range_flatMap_slices b 520 32 32, List.flatMap_def, List.flatMap_def]
    congr 1
    apply List.map_congr_left
    intro i hi
    have := List.mem_range.1 hi
    exact partImage_parse (slice_length (by omega))
  rw [em, ep]
  rw [slice_add (o := 0) (n := 4) (m := 4), slice_add (o := 0) (n := 4+4) (m := 512),
    slice_add (o := 0) (n := 4+4+512) (m := 1024), slice_add (o := 0) (n := 4+4+512+1024) (m := 1920),
    slice_add (o := 0) (n := 4+4+512+1024+1920) (m := 1+1),
    slice_add (o := 0) (n := 4+4+512+1024+1920+(1+1)) (m := 2),
    slice_add (o := 0) (n := 4+4+512+1024+1920+(1+1)+2) (m := 64),
    slice_add (o := 0) (n := 4+4+512+1024+1920+(1+1)+2+64) (m := 4),
    slice_add (o := 0) (n := 4+4+512+1024+1920+(1+1)+2+64+4) (m := 4),
    slice_add (o := 0) (n := 4+4+512+1024+1920+(1+1)+2+64+4+4) (m := 42),
    slice_add (o := 0) (n := 4+4+512+1024+1920+(1+1)+2+64+4+4+42) (m := 512),
    slice_add (o := 0) (n := 4+4+512+1024+1920+(1+1)+2+64+4+4+42+512) (m := 2)]
  exact slice_all h

theorem flatMap_inj {α : Type} (f : α → Bytes) (w : Nat) (l l' : List α) (hlen : l.length = l'.length)
    (hf : ∀ a ∈ l, (f a).length = w) (hf' : ∀ a ∈ l', (f a).length = w)
    (hi : ∀ a ∈ l, ∀ b ∈ l', f a = f b → a = b) (h : l.flatMap f = l'.flatMap f) : l = l' := by
  induction l generalizing l' with
  | nil => cases l' with
    | nil => rfl
    | cons _ _ => simp at hlen
  | cons a l ih => cases l' with
    | nil => simp at hlen
    | cons b l' =>
      rw [List.flatMap_cons, List.flatMap_cons] at h
      have h2 := List.append_inj h (by rw [hf a (by simp), hf' b (by simp)])
      rw [hi a (by simp) b (by simp) h2.1,
        ih l' (by simpa using hlen) (fun x hx => hf x (by simp [hx])) (fun x hx => hf' x (by simp [hx]))
          (fun x hx y hy => hi x (by simp [hx]) y (by simp [hy])) h2.2]

theorem metaImage_inj {a b : MetaHdr} (ha : a.pad.length = 4) (hb : b.pad.length = 4)
    (h : metaImage a = metaImage b) : a = b := by
  rw [← parseMeta_image ha, ← parseMeta_image hb, h]

theorem partImage_inj {a b : PartHdr} (h : partImage a = partImage b) : a = b := by
  rw [← parsePart_image a, ← parsePart_image b, h]

theorem le32_inj {a b : U32} (h : le32 a = le32 b) : a = b := by rw [← ofLe32_le32 a, ← ofLe32_le32 b, h]
theorem le16_inj {a b : U16} (h : le16 a = le16 b) : a = b := by rw [← ofLe16_le16 a, ← ofLe16_le16 b, h]
theorem le64_inj {a b : U64} (h : le64 a = le64 b) : a = b := by rw [← ofLe64_le64 a, ← ofLe64_le64 b, h]

theorem image_inj {a b : Header} (wa : a.WF) (wb : b.WF) (h : a.image = b.image) : a = b := by
  obtain ⟨a1, a2, a3, a4, a5, a6, a7, a8⟩ := wa
  obtain ⟨b1, b2, b3, b4, b5, b6, b7, b8⟩ := wb
  have fa := flatMap_length metaImage 16 a.metas (fun m hm => metaImage_length (a8 m hm))
  have fb := flatMap_length metaImage 16 b.metas (fun m hm => metaImage_length (b8 m hm))
  have ga := flatMap_length partImage 32 a.parts (fun p _ => partImage_length p)
  have gb := flatMap_length partImage 32 b.parts (fun p _ => partImage_length p)
  unfold Header.image at h
  have l16 : ∀ x : U16, (le16 x).length = 2 := fun _ => rfl
  have l32 : ∀ x : U32, (le32 x).length = 4 := fun _ => rfl
  have h := List.append_inj' h (by simp [l16])
  obtain ⟨h, e14⟩ := h
  have h := List.append_inj' h (by simp [a7, b7])
  obtain ⟨h, e13⟩ := h
  have h := List.append_inj' h (by simp [a6, b6])
  obtain ⟨h, e12⟩ := h
  have h := List.append_inj' h (by simp [l32])
  obtain ⟨h, e11⟩ := h
  have h := List.append_inj' h (by simp [l32])
  obtain ⟨h, e10⟩ := h
  have h := List.append_inj' h (by simp [a5, b5])
  obtain ⟨h, e9⟩ := h
  have h := List.append_inj' h (by simp [l16])
  obtain ⟨h, e8⟩ := h
  have h := List.append_inj' h (by simp)
  obtain ⟨h, e7⟩ := h
  have h := List.append_inj' h (by simp [a4, b4])
  obtain ⟨h, e6⟩ := h
  have h := List.append_inj' h (by rw [ga, gb, a3, b3])
  obtain ⟨h, e5⟩ := h
  have h := List.append_inj' h (by rw [fa, fb, a2, b2])
  obtain ⟨h, e4⟩ := h
  have h := List.append_inj' h (by simp [a1, b1])
  obtain ⟨e1, e3⟩ := h
  have m := flatMap_inj metaImage 16 a.metas b.metas (by omega) (fun m hm => metaImage_length (a8 m hm))
    (fun m hm => metaImage_length (b8 m hm)) (fun x hx y hy => metaImage_inj (a8 x hx) (b8 y hy)) e4
  have p := flatMap_inj partImage 32 a.parts b.parts (by omega) (fun p _ => partImage_length p)
    (fun p _ => partImage_length p) (fun x _ y _ => partImage_inj) e5
  simp only [List.cons.injEq, and_true] at e7
  have := le32_inj e1
  have := le16_inj e8
  have := le32_inj e10
  have := le32_inj e11
  have := le16_inj e14
  cases a; cases b
  simp_all

theorem parseHeader_wf {b : Bytes} (h : b.length = 4096) : (parseHeader b).WF := by
  unfold Header.WF parseHeader
  simp only
  refine ⟨slice_length (by omega), by simp, by simp, slice_length (by omega), slice_length (by omega),
    slice_length (by omega), slice_length (by omega), ?_⟩
  intro m hm
  simp only [List.mem_map, List.mem_range] at hm
  obtain ⟨i, hi, rfl⟩ := hm
  unfold parseMeta
  simp only
  rw [slice_slice (by omega)]
  exact slice_length (by omega)

theorem parse_image {h : Header} (w : h.WF) : parseHeader h.image = h :=
  image_inj (parseHeader_wf (image_length w)) w (image_parse (image_length w))

/-! ### byte order -/

theorem extract_byte {w : Nat} (x : BitVec w) (k : Nat) : x.extractLsb' (8 * k) 8 = BitVec.ofNat 8 (x.toNat / 256^k) := by
  show BitVec.ofNat 8 (x.toNat >>> (8*k)) = _
  rw [Nat.shiftRight_eq_div_pow, Nat.pow_mul]
theorem le64_spec (x : U64) : le64 x = Spec.leBytes 8 x.toNat := by
  unfold le64 Spec.leBytes
  rw [show x.extractLsb' 0 8 = _ from extract_byte x 0, show x.extractLsb' 8 8 = _ from extract_byte x 1, show x.extractLsb' 16 8 = _ from extract_byte x 2,
    show x.extractLsb' 24 8 = _ from extract_byte x 3, show x.extractLsb' 32 8 = _ from extract_byte x 4, show x.extractLsb' 40 8 = _ from extract_byte x 5,
    show x.extractLsb' 48 8 = _ from extract_byte x 6, show x.extractLsb' 56 8 = _ from extract_byte x 7]
  rfl
theorem le32_spec (x : U32) : le32 x = Spec.leBytes 4 x.toNat := by
  unfold le32 Spec.leBytes
  rw [show x.extractLsb' 0 8 = _ from extract_byte x 0, show x.extractLsb' 8 8 = _ from extract_byte x 1, show x.extractLsb' 16 8 = _ from extract_byte x 2,
    show x.extractLsb' 24 8 = _ from extract_byte x 3]
  rfl
theorem le16_spec (x : U16) : le16 x = Spec.leBytes 2 x.toNat := by
  unfold le16 Spec.leBytes
  rw [show x.extractLsb' 0 8 = _ from extract_byte x 0, show x.extractLsb' 8 8 = _ from extract_byte x 1]
  rfl

end Bpak
