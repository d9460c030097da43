import Verif.Proof.Pkg
namespace Bpak

theorem GoodParts.inv {h : Header} (g : GoodParts h) (w : h.WF) : PartInv h (usedParts h) (32 - (usedParts h).length) where
  slots := g.slots
  len := by
    have := w.2.2.1
    have : (usedParts h).length ≤ h.parts.length := List.IsPrefix.length_le (List.takeWhile_prefix _)
    omega
  ids := used_ids h
  distinct := g.distinct

theorem PartInv.good {h : Header} {ps : List PartHdr} {k : Nat} (i : PartInv h ps k) : GoodParts h := by
  have hu := i.used
  have := i.len
  refine ⟨?_, by rw [hu]; exact i.distinct⟩
  rw [hu, i.slots]
  congr 2; omega

theorem GoodParts.tidy {h : Header} (g : GoodParts h) (hf : 4096 + ((usedParts h).map storedSize).sum < 2^63) : TidyParts h where
  compact := by
    intro p hp
    have e := used_append h
    have e2 : h.parts.drop (usedParts h).length = List.replicate (32 - (usedParts h).length) PartHdr.zero := by
      have := g.slots
      rw [e] at this
      exact List.append_cancel_left this
    rw [e2] at hp
    rw [(List.mem_replicate.1 hp).2]; rfl
  distinct := g.distinct
  fits := hf

/-! ### file helpers -/

theorem fileWrite_end (f d : Bytes) : fileWrite f f.length d = f ++ d := by
  by_cases h : d = []
  · subst h; simp [fileWrite_nil]
  · unfold fileWrite
    rw [if_neg h, List.take_length, Nat.sub_self, List.drop_eq_nil_of_le (by omega)]
    simp

theorem fileWrite_zero (f d : Bytes) : fileWrite f 0 d = d ++ f.drop d.length := by
  by_cases h : d = []
  · subst h; simp [fileWrite_nil]
  · unfold fileWrite
    rw [if_neg h]; simp

theorem writeHeader_eq (p : Pkg) (w : p.hdr.WF) :
    writeHeader p = ⟨p.hdr, p.hdr.image ++ p.file.drop 4096, p.log ++ [.write 0 p.hdr.image]⟩ := by
  unfold writeHeader Pkg.write
  rw [fileWrite_zero, image_length w]

/-! ### the copy loop -/

/-- The pieces of a byte string, with the positions they are written to. -/
def chunkWrites (pos : Nat) (d : Bytes) : List FOp :=
  if h : d = [] then [] else .write pos (d.take 4096) :: chunkWrites (pos + (d.take 4096).length) (d.drop 4096)
  termination_by d.length
  decreasing_by
    have := List.length_pos_iff.2 h
    simp; omega

theorem addCopyLoop_eq (n : Nat) : ∀ (d : Bytes) (fuel : Nat) (p : Pkg) (pos : Nat), d.length = n → n < 2^64 → (n + 4095) / 4096 + 1 ≤ fuel →
    addCopyLoop fuel p pos d (BitVec.ofNat 64 n) =
      some ({ p with file := fileWrite p.file pos d, log := p.log ++ chunkWrites pos d }, pos + n) := by
  induction n using Nat.strongRecOn with
  | ind n ih =>
    intro d fuel p pos hd hn hf
    obtain ⟨k, rfl⟩ : ∃ k, fuel = k + 1 := ⟨fuel - 1, by omega⟩
    unfold addCopyLoop
    by_cases h0 : n = 0
    · have : d = [] := List.eq_nil_of_length_eq_zero (by omega)
      subst this; subst h0
      rw [if_pos (show (BitVec.ofNat 64 0) = 0 from rfl), fileWrite_nil]
      unfold chunkWrites
      simp
    · have hz : BitVec.ofNat 64 n ≠ 0 := by
        intro h
        have := congrArg BitVec.toNat h
        simp at this; omega
      have hne : d ≠ [] := by intro h; subst h; simp at hd; omega
      have hl : (d.take 4096).length = min 4096 n := by simp [hd]
      rw [if_neg hz]
      have hrem : BitVec.ofNat 64 n - BitVec.ofNat 64 (d.take 4096).length = BitVec.ofNat 64 (n - min 4096 n) := by
        apply BitVec.eq_of_toNat_eq
        rw [BitVec.toNat_sub, BitVec.toNat_ofNat, BitVec.toNat_ofNat, BitVec.toNat_ofNat, hl]
        omega
      rw [hrem, ih (n - min 4096 n) (by omega) (d.drop 4096) k _ _ (by simp; omega) (by omega) (by omega)]
      have ec : chunkWrites pos d = .write pos (d.take 4096) :: chunkWrites (pos + (d.take 4096).length) (d.drop 4096) := by
        rw [chunkWrites, dif_neg hne]
      rw [ec]
      unfold Pkg.write
      simp only [List.append_assoc, List.singleton_append]
      rw [fileWrite_append, List.take_append_drop, hl]
      congr 2; omega

theorem newOffset_eq (h : Header) (g : GoodParts h) (hp : ∀ q ∈ usedParts h, q.flags &&& 2 = 0)
    (hs : 4096 + ((usedParts h).map storedSize).sum < 2^63) : (newOffset h).toNat = 4096 + ((usedParts h).map storedSize).sum := by
  have aux : ∀ (ps : List PartHdr) (s : U64), (∀ q ∈ ps, q.flags &&& 2 = 0) → s.toNat + (ps.map storedSize).sum < 2^63 →
      (ps.foldl (fun s p => s + (p.size + p.padBytes.setWidth 64)) s).toNat = s.toNat + (ps.map storedSize).sum := by
    intro ps
    induction ps with
    | nil => intro s _ _; simp
    | cons q ps ih =>
      intro s hq hs
      simp only [List.map_cons, List.sum_cons] at hs ⊢
      rw [List.foldl_cons]
      have hpq := hq q List.mem_cons_self
      have e : q.size + q.padBytes.setWidth 64 = partSize q := by
        unfold partSize
        rw [if_neg]
        intro hx
        exact (isTransport_iff q).1 hx hpq
      have e2 := partSize_stored q (by omega)
      have e3 : (s + (q.size + q.padBytes.setWidth 64)).toNat = s.toNat + storedSize q := by
        rw [e, BitVec.toNat_add, e2, Nat.mod_eq_of_lt (by omega)]
      rw [ih _ (fun x hx => hq x (List.mem_cons_of_mem _ hx)) (by omega), e3]; omega
  have zeros : ∀ (k : Nat) (s : U64), (List.replicate k PartHdr.zero).foldl (fun s p => s + (p.size + p.padBytes.setWidth 64)) s = s := by
    intro k
    induction k with
    | zero => intro s; rfl
    | succ k ih =>
      intro s
      rw [List.replicate_succ, List.foldl_cons, ih]
      simp [PartHdr.zero]
  unfold newOffset
  rw [g.slots, List.foldl_append, zeros, aux _ _ hp (by simpa using hs)]
  rfl

/-- The slot a new part gets. -/
def addedPart (id : U32) (flags : U8) (off n pad : Nat) : PartHdr :=
  { PartHdr.zero with id := id, offset := BitVec.ofNat 64 off, flags := flags, size := BitVec.ofNat 64 n, padBytes := BitVec.ofNat 16 pad }

theorem padFor_lt (n : Nat) : padFor n < 512 := by unfold padFor; split <;> omega
theorem padFor_aligned (n : Nat) : (n + padFor n) % 512 = 0 := by unfold padFor; split <;> omega

theorem addedPart_stored (id : U32) (flags : U8) (off n pad : Nat) (hf : flags &&& 2 = 0) (hn : n < 2^64) (hp : pad < 512) :
    storedSize (addedPart id flags off n pad) = n + pad := by
  unfold storedSize addedPart
  simp only
  rw [if_neg (by simpa using hf), BitVec.toNat_ofNat, BitVec.toNat_ofNat, Nat.mod_eq_of_lt hn, Nat.mod_eq_of_lt (by omega)]

/-- Appending a part to a good table. -/
theorem good_append {h : Header} (g : GoodParts h) (w : h.WF) (q : PartHdr) (hq : q.id ≠ 0) (hnew : ∀ x ∈ usedParts h, x.id ≠ q.id)
    (hroom : (usedParts h).length < 32) (h' : Header)
    (hp : h'.parts = usedParts h ++ q :: List.replicate (32 - (usedParts h).length - 1) PartHdr.zero) :
    usedParts h' = usedParts h ++ [q] ∧ GoodParts h' ∧ h'.parts.length = 32 := by
  have i := g.inv w
  have i2 : PartInv h' (usedParts h ++ [q]) (32 - (usedParts h).length - 1) := by
    refine ⟨by rw [hp]; simp, by simp; omega, ?_, ?_⟩
    · intro x hx
      rcases List.mem_append.1 hx with hx | hx
      · exact used_ids h x hx
      · simp at hx; rw [hx]; exact hq
    · rw [List.pairwise_append]
      refine ⟨g.distinct, by simp, ?_⟩
      intro a ha b hb
      simp at hb; subst hb
      exact hnew a ha
  exact ⟨i2.used, i2.good, by rw [hp]; simp; omega⟩

theorem withPayloadHash_wf (H : HashFn) (hH : HashLen H) (h : Header) (w : h.WF) (f : Bytes) (n : Nat) (hk : digestLen h.hashKind = some n) :
    (withPayloadHash H h f).WF := by
  obtain ⟨w1, w2, w3, w4, w5, w6, w7, w8⟩ := w
  refine ⟨w1, w2, w3, w4, ?_, w6, w7, w8⟩
  unfold withPayloadHash
  simp only [List.length_append, List.length_drop]
  have := digestLen_le hk
  rw [hH _ n hk]; omega

theorem withParts_wf {h : Header} (w : h.WF) (ps : List PartHdr) (hl : ps.length = 32) : ({ h with parts := ps } : Header).WF :=
  ⟨w.1, w.2.1, hl, w.2.2.2.1, w.2.2.2.2.1, w.2.2.2.2.2.1, w.2.2.2.2.2.2.1, w.2.2.2.2.2.2.2⟩

/-- What `bpak_pkg_add_file` does when it succeeds. -/
theorem addFile_ok (H : HashFn) (hH : HashLen H) (p : Pkg) (g : GoodPkg p) (id : U32) (hid : id ≠ 0) (hnew : ∀ q ∈ usedParts p.hdr, q.id ≠ id)
    (hroom : (usedParts p.hdr).length < 32) (flags : U8) (hfl : flags &&& 2 = 0) (d : Bytes) (hsz : p.file.length + d.length + 512 < 2^63)
    (fuel : Nat) (hfuel : d.length / 4096 + 2 ≤ fuel) :
    ∃ h h0 : Header,
      h0 = { p.hdr with parts := usedParts p.hdr ++ addedPart id flags p.file.length d.length (padFor d.length) :: List.replicate (32 - (usedParts p.hdr).length - 1) PartHdr.zero } ∧
      h = withPayloadHash H h0 (p.file ++ d ++ List.replicate (padFor d.length) 0) ∧
      usedParts h0 = usedParts p.hdr ++ [addedPart id flags p.file.length d.length (padFor d.length)] ∧ GoodParts h0 ∧ h.WF ∧
      addFile H fuel p id flags d.length d = some (.ok,
        ⟨h, h.image ++ p.file.drop 4096 ++ d ++ List.replicate (padFor d.length) 0,
          p.log ++ chunkWrites p.file.length d ++ [.write (p.file.length + d.length) (List.replicate (padFor d.length) 0), .write 0 h.image]⟩) := by
  obtain ⟨w, gp, ⟨n, hk⟩, plain, exact⟩ := g
  have hpl := padFor_lt d.length
  have hst := addedPart_stored id flags p.file.length d.length (padFor d.length) hfl (by omega) hpl
  have hoff := newOffset_eq p.hdr gp plain (by omega)
  rw [← exact] at hoff
  have hoff' : newOffset p.hdr = BitVec.ofNat 64 p.file.length := by rw [← hoff]; simp
  obtain ⟨u1, u2, u3⟩ := good_append gp w (addedPart id flags p.file.length d.length (padFor d.length)) hid hnew hroom
    { p.hdr with parts := usedParts p.hdr ++ addedPart id flags p.file.length d.length (padFor d.length) :: List.replicate (32 - (usedParts p.hdr).length - 1) PartHdr.zero } rfl
  have w0 := withParts_wf w _ u3
  refine ⟨_, _, rfl, rfl, u1, u2, withPayloadHash_wf H hH _ w0 _ n hk, ?_⟩
  unfold addFile
  rcases addPart_cases (gp.inv w) id with ⟨⟨q, hq, e⟩, _⟩ | ⟨_, hk0, _⟩ | ⟨_, _, e⟩
  · exact absurd e (hnew q hq)
  · omega
  rw [e]
  simp only
  rw [modify_append_cons, if_neg (by omega), addCopyLoop_eq d.length d fuel _ _ rfl (by omega) (by omega)]
  simp only [Pkg.write]
  have e1 : ({ newPart id with id := id, offset := newOffset p.hdr, flags := flags, size := BitVec.ofNat 64 d.length, padBytes := BitVec.ofNat 16 (padFor d.length) } : PartHdr)
      = addedPart id flags p.file.length d.length (padFor d.length) := by rw [hoff']; rfl
  rw [e1, hoff, fileWrite_end]
  have e2 : p.file.length + d.length = (p.file ++ d).length := by simp
  rw [e2, fileWrite_end]
  have hfit : 4096 + ((usedParts p.hdr ++ [addedPart id flags p.file.length d.length (padFor d.length)]).map storedSize).sum = p.file.length + d.length + padFor d.length := by
    simp only [List.map_append, List.sum_append, List.map_cons, List.map_nil, List.sum_cons, List.sum_nil, hst]; omega
  rw [updateHash_eq H _ ?_ ?_ ?_ n ?_ (digestLen_le hk)]
  · simp only
    rw [writeHeader_eq _ (withPayloadHash_wf H hH _ w0 _ n hk)]
    congr 3
    · rw [List.append_assoc, List.drop_append_of_le_length (by omega)]; simp
    · simp
  · exact u2.tidy (by rw [u1]; omega)
  · simp; omega
  · unfold Whole; rw [u1]; simp; simp at hfit; omega
  · exact hk

end Bpak

namespace Bpak

/-! ### contents as a splitting of the payload -/

def splitParts : List PartHdr → Bytes → List (U32 × Bytes)
  | [], _ => []
  | q :: qs, b => (q.id, b.take (storedSize q)) :: splitParts qs (b.drop (storedSize q))

theorem splitParts_append (ps qs : List PartHdr) (P Q : Bytes) (hP : P.length = (ps.map storedSize).sum) :
    splitParts (ps ++ qs) (P ++ Q) = splitParts ps P ++ splitParts qs Q := by
  induction ps generalizing P with
  | nil =>
    have : P = [] := List.eq_nil_of_length_eq_zero (by simpa using hP)
    subst this; rfl
  | cons q ps ih =>
    simp only [List.map_cons, List.sum_cons] at hP
    rw [List.cons_append, splitParts, splitParts, List.cons_append, List.take_append_of_le_length (by omega),
      List.drop_append_of_le_length (by omega), ih _ (by rw [List.length_drop]; omega)]

theorem splitParts_map (f : PartHdr → PartHdr) (hi : ∀ q, (f q).id = q.id) (hs : ∀ q, storedSize (f q) = storedSize q) (ps : List PartHdr) (P : Bytes) :
    splitParts (ps.map f) P = splitParts ps P := by
  induction ps generalizing P with
  | nil => rfl
  | cons q ps ih => simp only [List.map_cons, splitParts, hi, hs, ih]

theorem contents_aux (h : Header) (f : Bytes) (t : TidyParts h) (post : List PartHdr) : ∀ pre, usedParts h = pre ++ post →
    post.map (fun q => (q.id, fileRead f (partOffset h q).toNat (storedSize q))) = splitParts post (f.drop (4096 + (pre.map storedSize).sum)) := by
  induction post with
  | nil => intro pre _; rfl
  | cons q post ih =>
    intro pre hu
    obtain ⟨e1, _⟩ := tidy_offset h t pre post q hu
    rw [List.map_cons, splitParts, ih (pre ++ [q]) (by rw [hu]; simp), e1]
    congr 2
    rw [List.drop_drop]
    congr 1
    simp only [List.map_append, List.sum_append, List.map_cons, List.map_nil, List.sum_cons, List.sum_nil]; omega

theorem contents_eq (p : Pkg) (t : TidyParts p.hdr) : contents p = splitParts (usedParts p.hdr) (p.file.drop 4096) := by
  have := contents_aux p.hdr p.file t (usedParts p.hdr) [] rfl
  simpa [contents, storedBytes] using this

/-! ### extraction -/

theorem extractLoop_eq (f : Bytes) (n : Nat) : ∀ off, off + n ≤ f.length → extractLoop f off n = (.ok, fileRead f off n) := by
  induction n using Nat.strongRecOn with
  | ind n ih =>
    intro off h
    rw [extractLoop]
    by_cases h0 : n = 0
    · rw [dif_pos h0]; subst h0; simp [fileRead]
    · have hl : (fileRead f off (min n 4096)).length = min n 4096 := by unfold fileRead; simp; omega
      rw [dif_neg h0, if_neg (by rw [hl]; simp), ih _ (by omega) _ (by omega)]
      simp only
      rw [← fileRead_add]
      congr 2; omega

theorem getPart_used {h : Header} {ps : List PartHdr} {k : Nat} (i : PartInv h ps k) (pre post : List PartHdr) (q : PartHdr) (hu : ps = pre ++ q :: post) :
    getPart h q.id = some pre.length ∧ h.parts[pre.length]? = some q := by
  have hid : q.id ≠ 0 := i.ids q (by rw [hu]; simp)
  have hslot : h.parts[pre.length]? = some q := by rw [i.slots, hu]; simp
  refine ⟨?_, hslot⟩
  rw [C10_get_part_is_first_match]
  refine ⟨⟨q, hslot, rfl⟩, ?_⟩
  intro j hj x hx
  rw [i.slots, hu, List.append_assoc, List.getElem?_append_left hj] at hx
  have hxm := List.mem_of_getElem? hx
  have hd := i.distinct
  rw [hu, List.pairwise_append] at hd
  exact hd.2.2 x hxm q (by simp)

/-- Extraction of a part that is not transport-encoded, from a file that holds all of it. -/
theorem extractFile_ok (p : Pkg) (w : p.hdr.WF) (g : GoodParts p.hdr) (hw : Whole p.hdr p.file) (hf : p.file.length < 2^63) (q : PartHdr) (hq : q ∈ usedParts p.hdr)
    (hpl : q.flags &&& 2 = 0) : extractFile p q.id = (.ok, some ((storedBytes p q).take q.size.toNat)) := by
  unfold Whole at hw
  have t : TidyParts p.hdr := g.tidy (by omega)
  obtain ⟨pre, post, hu⟩ := List.append_of_mem hq
  obtain ⟨e1, e2⟩ := getPart_used (g.inv w) pre post q hu
  obtain ⟨e3, e4⟩ := tidy_offset p.hdr t pre post q hu
  rw [hu] at hw
  simp only [List.map_append, List.map_cons, List.sum_append, List.sum_cons] at hw
  have hst : storedSize q = q.size.toNat + q.padBytes.toNat := by unfold storedSize; rw [if_neg (by simpa using hpl)]
  have hn : (partSize q - q.padBytes.setWidth 64).toNat = q.size.toNat := by
    have : partSize q = q.size + q.padBytes.setWidth 64 := by
      unfold partSize; rw [if_neg]; intro hx; exact (isTransport_iff q).1 hx hpl
    rw [this, BitVec.add_sub_cancel]
  unfold extractFile
  rw [e1]
  simp only [e2]
  rw [if_neg (by omega), hn, extractLoop_eq _ _ _ (by omega)]
  simp only [storedBytes]
  congr 2
  unfold fileRead
  rw [List.take_take, Nat.min_eq_left (by omega)]

theorem parse_saved (h : Header) (w : h.WF) (rest : Bytes) (lg : List FOp) : Saved ⟨h, h.image ++ rest, lg⟩ := by
  have := image_length w
  unfold Saved
  simp only
  rw [List.take_append_of_le_length (by omega), List.take_of_length_le (by omega), parse_image w]
  simp; omega

end Bpak
