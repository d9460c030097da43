import Verif.Proof.Set
/-! `bpak set` (C75, C76, C77). -/
namespace Bpak

/-! ### C75 a metadata entry set to a text -/

theorem setText_fits {h : Header} {pre post : List MetaHdr} {m : MetaHdr} {k : Nat} (im : MetaInv h (pre ++ m :: post) k)
    (text : Bytes) (hfit : text.length + 1 ≤ m.size.toNat) :
    ∃ h', setText h m text = .ret (.ok, h') ∧
      run h [.writeMeta m.id m.partRef (text ++ 0 :: List.replicate (m.size.toNat - text.length - 1) 0)] = some h' ∧
      h' = { h with metas := h'.metas, metadata := h'.metadata } ∧
      entries h' = pre.map (entOf h) ++ ⟨m.id, m.partRef, text ++ 0 :: List.replicate (m.size.toNat - text.length - 1) 0⟩ :: post.map (entOf h) := by
  obtain ⟨md, e1, e2, e3, e4⟩ := putText_eq im text hfit
  obtain ⟨g1, g2⟩ := getMeta_used im pre post m rfl
  refine ⟨_, ?_, ?_, rfl, e4⟩
  · unfold setText
    rw [if_neg (by omega), e1]
  · have hid := im.packed.ids m (by simp)
    simp only [run, step]
    rw [if_neg hid, g1]
    simp only
    rw [g2]
    simp only
    rw [if_pos (by simp; omega), e2]

theorem setText_grows {h : Header} {pre post : List MetaHdr} {m : MetaHdr} {k : Nat} (im : MetaInv h (pre ++ m :: post) (k+1))
    (text : Bytes) (hfit : m.size.toNat < text.length + 1) :
    (text.length + 1 < 65536 → ((pre ++ post).map (fun x => roundUp8 x.size.toNat)).sum + text.length + 1 ≤ 1920 →
      ∃ h', setText h m text = .ret (.ok, h') ∧
      run h [.delMeta m.id m.partRef, .addMeta m.id m.partRef (BitVec.ofNat 16 (text.length + 1)), .writeMeta m.id m.partRef (text ++ [0])] = some h' ∧
      h' = { h with metas := h'.metas, metadata := h'.metadata } ∧
      entries h' = pre.map (entOf h) ++ post.map (fun x => truncateTo (roundUp8 m.size.toNat) (entOf h x)) ++ [⟨m.id, m.partRef, text ++ [0]⟩]) ∧
    (((pre ++ post).map (fun x => roundUp8 x.size.toNat)).sum + (text.length + 1) % 65536 > 1920 → setText h m text = .ret (.noSpaceLeft, h)) ∧
    (65536 ≤ text.length + 1 → ((pre ++ post).map (fun x => roundUp8 x.size.toNat)).sum + (text.length + 1) % 65536 ≤ 1920 → setText h m text = .ub) := by
  obtain ⟨g1, g2⟩ := getMeta_used im pre post m rfl
  have hid := im.packed.ids m (by simp)
  obtain ⟨h1, d1, im1, d3, q1, q2⟩ := delMeta_inv im
  have hent1 := del_entries im im1 q1 q2
  have hne : ¬ ∃ x ∈ pre ++ post.map (shiftMeta (metaAlignSize m.size.toNat)), x.id = m.id ∧ x.partRef = m.partRef := by
    have hd := im.distinct
    rw [List.pairwise_append, List.pairwise_cons] at hd
    obtain ⟨-, ⟨hpost, -⟩, hpre⟩ := hd
    rintro ⟨x, hx, hc⟩
    rw [List.mem_append, List.mem_map] at hx
    rcases hx with hx | ⟨y, hy, rfl⟩
    · exact hpre x hx m (by simp) hc
    · exact hpost y hy ⟨hc.1.symm, hc.2.symm⟩
  have hsum : endOff 0 (pre ++ post.map (shiftMeta (metaAlignSize m.size.toNat))) = ((pre ++ post).map (fun x => roundUp8 x.size.toNat)).sum := by
    rw [endOff_sum _ (by omega), Nat.zero_add]
    simp only [metaAlignSize_eq, List.map_append, List.map_map]
    rfl
  have hset : setText h m text = (let r := addMeta h1 m.id m.partRef (BitVec.ofNat 16 (text.length + 1))
        if r.1 ≠ .ok then .ret (r.1, h)
        else match r.2.1.metas[r.2.2]? with
          | none => .ub
          | some m2 => match putText r.2.1 m2 text with
            | .ub => .ub
            | .ret h2 => .ret (.ok, h2)) := by
    unfold setText
    rw [if_pos (by omega), g1]
    simp only
    rw [d1]
    rfl
  have hsz : (BitVec.ofNat 16 (text.length + 1)).toNat = (text.length + 1) % 65536 := by simp
  refine ⟨?_, ?_, ?_⟩
  · intro hlt hroom
    obtain ⟨m2, a1, a2, a3, a4, a5, a6, im2⟩ := addMeta_ok_inv im1 (id := m.id) (ref := m.partRef) (size := BitVec.ofNat 16 (text.length + 1)) hid hne (by omega)
      (by rw [hsz, hsum, Nat.mod_eq_of_lt hlt]; omega)
    have hsz2 : m2.size.toNat = text.length + 1 := by rw [a3, hsz, Nat.mod_eq_of_lt hlt]
    rw [a6] at hset
    obtain ⟨md, e1, e2, e3, e4⟩ := putText_eq im2 text (by omega)
    have hz : m2.size.toNat - text.length - 1 = 0 := by omega
    rw [hz, List.replicate_zero] at e2 e4
    obtain ⟨g3, g4⟩ := getMeta_used im2 _ [] m2 rfl
    simp only [ne_eq, not_true_eq_false, if_false] at hset
    rw [g4] at hset
    simp only at hset
    rw [e1] at hset
    refine ⟨_, hset, ?_, by simp only; rw [d3], ?_⟩
    · simp only [run, step]
      rw [if_neg hid, g1]
      simp only
      rw [d1]
      simp only
      rw [if_neg hid, a6]
      simp only [true_or, if_true]
      rw [if_neg hid, ← a1, ← a2, g3]
      simp only
      rw [g4]
      simp only
      rw [if_pos (by simp; omega), e2]
    · rw [e4, a1, a2]
      congr 1
      have hsame : ∀ x, entOf { h1 with metas := pre ++ post.map (shiftMeta (metaAlignSize m.size.toNat)) ++ m2 :: List.replicate (k + 2 - 1) MetaHdr.zero } x = entOf h1 x := fun x => rfl
      rw [List.map_congr_left (fun x _ => hsame x), ← entries_inv im1, hent1]
      congr 1
      apply List.map_congr_left
      intro x hx
      unfold truncateTo entOf
      rw [metaAlignSize_eq]
  · intro hbig
    have := addMeta_cases im1 m.id m.partRef (BitVec.ofNat 16 (text.length + 1))
    rw [hsz, hsum] at this
    have hc : (addMeta h1 m.id m.partRef (BitVec.ofNat 16 (text.length + 1))).1 = .noSpaceLeft := by
      rcases this with ⟨ha, -⟩ | ⟨-, hk, -⟩ | ⟨-, -, -, hr⟩ | ⟨-, -, hle, -⟩
      · exact absurd ha hne
      · omega
      · exact hr
      · omega
    rw [hset]
    simp only
    rw [hc, if_pos (by simp)]
  · intro hlong hroom
    obtain ⟨m2, a1, a2, a3, a4, a5, a6, im2⟩ := addMeta_ok_inv im1 (id := m.id) (ref := m.partRef) (size := BitVec.ofNat 16 (text.length + 1)) hid hne (by omega)
      (by rw [hsz, hsum]; omega)
    obtain ⟨g3, g4⟩ := getMeta_used im2 _ [] m2 rfl
    rw [a6] at hset
    simp only [ne_eq, not_true_eq_false, if_false] at hset
    rw [g4] at hset
    simp only at hset
    have hu : putText { h1 with metas := pre ++ post.map (shiftMeta (metaAlignSize m.size.toNat)) ++ m2 :: List.replicate (k + 2 - 1) MetaHdr.zero } m2 text = .ub := by
      unfold putText
      rw [if_pos]
      have := Nat.mod_lt (text.length + 1) (show 65536 > 0 by decide)
      rw [a3, hsz]; omega
    rw [hu] at hset
    exact hset

/-- The table entry behind a visible entry. -/
theorem entry_slot {h : Header} {us : List MetaHdr} {k : Nat} (im : MetaInv h us k) {pre post : List Entry} {e : Entry} (he : entries h = pre ++ e :: post) :
    ∃ pre' m post', us = pre' ++ m :: post' ∧ pre = pre'.map (entOf h) ∧ post = post'.map (entOf h) ∧ e = entOf h m := by
  rw [entries_inv im] at he
  obtain ⟨pre', r, hu, h1, h2⟩ := List.map_eq_append_iff.1 he
  obtain ⟨m, post', hr, h3, h4⟩ := List.map_eq_cons_iff.1 h2
  exact ⟨pre', m, post', by rw [hu, hr], h1.symm, h4.symm, h3.symm⟩

theorem setMeta_text {h : Header} {pre post : List MetaHdr} {m : MetaHdr} {k : Nat} (im : MetaInv h (pre ++ m :: post) k) (name text : Bytes)
    (hn : m.id = bpakId name ∧ m.partRef = 0) :
    setMeta h name text none = match setText h m text with
      | .ub => .ub
      | .ret (e, h') => .ret (e, h', decide (e = .ok)) := by
  obtain ⟨g1, g2⟩ := getMeta_used im pre post m rfl
  rw [hn.1, hn.2] at g1
  unfold setMeta
  rw [g1]
  simp only
  rw [g2]
  simp only
  generalize setText h m text = r
  cases r <;> rfl

/-- C75: a text that fits the entry (with its NUL) replaces its content, and the rest of the entry is zeroed; no other entry, no other
field of the header and no byte of a part changes. The file is again one that calls of the library could have made. -/
theorem C75_set_text_in_place {SK PK : Type} (H : HashFn) (hH : HashLen H) (S : SigScheme SK PK) (hS : ∀ sk rnd k d, S.sign sk rnd k d ≠ .error .ok)
    (ops : List (PkgOp SK)) (p0 p : Pkg) (h0 : pkgOpen H true [] = (.ok, p0)) (hr : pkgRun H S p0 ops = some p)
    (name text : Bytes) (pre post : List Entry) (e : Entry) (he : entries p.hdr = pre ++ e :: post) (hn : e.id = bpakId name ∧ e.ref = 0)
    (hfit : text.length + 1 ≤ e.data.length) :
    ∃ p' ops', setCmd p.file { name := some name, text := some text } = .ret (.ok, p'.file) ∧ pkgRun H S p0 (ops ++ ops') = some p' ∧
      entries p'.hdr = pre ++ { e with data := text ++ 0 :: List.replicate (e.data.length - text.length - 1) 0 } :: post ∧
      p'.hdr = { p.hdr with metas := p'.hdr.metas, metadata := p'.hdr.metadata } ∧ p'.file.drop 4096 = p.file.drop 4096 := by
  have i := run_inv H hH S hS ops p0 p h0 hr
  obtain ⟨us, k, im⟩ := i.hdr.metas
  obtain ⟨pre', m, post', rfl, rfl, rfl, rfl⟩ := entry_slot im he
  have hl : (entOf p.hdr m).data.length = m.size.toNat := content_len im (by simp)
  rw [hl] at hfit ⊢
  obtain ⟨h', e1, e2, e3, e4⟩ := setText_fits im text hfit
  obtain ⟨p', ops', r1, r2, r3, r4⟩ := setCmd_made S hr i _ (by simp [Op.keepsParts]) h' e2
  refine ⟨p', ops', ?_, r1, by rw [r2]; exact e4, by rw [r2]; exact e3, r4⟩
  rw [setCmd_open i _ name text rfl rfl, setMeta_text im name text hn, e1]
  simp only [decide_true, if_true]
  rw [r3]

/-- C75: a longer text. If there is a free table slot, the text is shorter than 65535 and the entries fit the 1920 bytes, the entry is
moved to the end of the table with the new text; the other header fields and the parts stay. But every later entry is cut to the rounded
size of the old one (C08). If the entries do not fit, the file is untouched. -/
theorem C75_set_text_grow {SK PK : Type} (H : HashFn) (hH : HashLen H) (S : SigScheme SK PK) (hS : ∀ sk rnd k d, S.sign sk rnd k d ≠ .error .ok)
    (ops : List (PkgOp SK)) (p0 p : Pkg) (h0 : pkgOpen H true [] = (.ok, p0)) (hr : pkgRun H S p0 ops = some p)
    (name text : Bytes) (pre post : List Entry) (e : Entry) (he : entries p.hdr = pre ++ e :: post) (hn : e.id = bpakId name ∧ e.ref = 0)
    (hfit : e.data.length < text.length + 1) (hslot : (entries p.hdr).length < 32) (hlt : text.length + 1 < 65536) :
    if ((pre ++ post).map (fun x => roundUp8 x.data.length)).sum + text.length + 1 ≤ 1920 then
      ∃ p' ops', setCmd p.file { name := some name, text := some text } = .ret (.ok, p'.file) ∧ pkgRun H S p0 (ops ++ ops') = some p' ∧
        entries p'.hdr = pre ++ post.map (truncateTo (roundUp8 e.data.length)) ++ [{ e with data := text ++ [0] }] ∧
        p'.hdr = { p.hdr with metas := p'.hdr.metas, metadata := p'.hdr.metadata } ∧ p'.file.drop 4096 = p.file.drop 4096
    else setCmd p.file { name := some name, text := some text } = .ret (.noSpaceLeft, p.file) := by
  have i := run_inv H hH S hS ops p0 p h0 hr
  obtain ⟨us, k, im⟩ := i.hdr.metas
  have hlen := im.len
  have hne : (entries p.hdr).length = us.length := by rw [entries_inv im, List.length_map]
  obtain ⟨pre', m, post', rfl, rfl, rfl, rfl⟩ := entry_slot im he
  have hl : (entOf p.hdr m).data.length = m.size.toNat := content_len im (by simp)
  have hsum : (((pre'.map (entOf p.hdr)) ++ (post'.map (entOf p.hdr))).map (fun x => roundUp8 x.data.length)).sum = ((pre' ++ post').map (fun x => roundUp8 x.size.toNat)).sum := by
    rw [← List.map_append, List.map_map]
    congr 1
    apply List.map_congr_left
    intro x hx
    show roundUp8 (metaContent p.hdr x).length = _
    rw [content_len im (by rw [List.mem_append] at hx; rcases hx with hx | hx <;> simp [hx])]
  rw [hsum, hl]
  rw [hl] at hfit
  obtain ⟨k, rfl⟩ : ∃ k', k = k' + 1 := ⟨k - 1, by omega⟩
  obtain ⟨t1, t2, -⟩ := setText_grows im text hfit
  split
  · rename_i hroom
    obtain ⟨h', e1, e2, e3, e4⟩ := t1 hlt hroom
    obtain ⟨p', ops', r1, r2, r3, r4⟩ := setCmd_made S hr i _ (by simp [Op.keepsParts]) h' e2
    refine ⟨p', ops', ?_, r1, ?_, by rw [r2]; exact e3, r4⟩
    · rw [setCmd_open i _ name text rfl rfl, setMeta_text im name text hn, e1]
      simp only [decide_true, if_true]
      rw [r3]
    · rw [r2, e4, List.map_map]; rfl
  · rename_i hroom
    have e1 := t2 (by rw [Nat.mod_eq_of_lt hlt]; omega)
    rw [setCmd_open i _ name text rfl rfl, setMeta_text im name text hn, e1]
    rfl

/-- C75, what holds of the claim: if the text fits the entry, or the table has a free slot, the text is shorter than 65535 and no later
entry is longer than the (rounded) old one, then setting a text either changes exactly that entry - the others keep their contents -
or fails and changes nothing. Missing: later longer entries, a full table and longer texts, see `C75_set_text_is_false`. -/
theorem C75_set_text_partial {SK PK : Type} (H : HashFn) (hH : HashLen H) (S : SigScheme SK PK) (hS : ∀ sk rnd k d, S.sign sk rnd k d ≠ .error .ok)
    (ops : List (PkgOp SK)) (p0 p : Pkg) (h0 : pkgOpen H true [] = (.ok, p0)) (hr : pkgRun H S p0 ops = some p)
    (name text : Bytes) (pre post : List Entry) (e : Entry) (he : entries p.hdr = pre ++ e :: post) (hn : e.id = bpakId name ∧ e.ref = 0)
    (hok : text.length + 1 ≤ e.data.length ∨
      ((entries p.hdr).length < 32 ∧ text.length + 1 < 65536 ∧ ∀ x ∈ post, x.data.length ≤ roundUp8 e.data.length)) :
    (∃ p' ops' d z, setCmd p.file { name := some name, text := some text } = .ret (.ok, p'.file) ∧ pkgRun H S p0 (ops ++ ops') = some p' ∧
      (entries p'.hdr = pre ++ { e with data := d } :: post ∨ entries p'.hdr = pre ++ post ++ [{ e with data := d }]) ∧
      d = text ++ 0 :: List.replicate z 0 ∧
      p'.hdr = { p.hdr with metas := p'.hdr.metas, metadata := p'.hdr.metadata } ∧ p'.file.drop 4096 = p.file.drop 4096) ∨
    setCmd p.file { name := some name, text := some text } = .ret (.noSpaceLeft, p.file) := by
  by_cases hfit : text.length + 1 ≤ e.data.length
  · obtain ⟨p', ops', a, b, c, d, f⟩ := C75_set_text_in_place H hH S hS ops p0 p h0 hr name text pre post e he hn hfit
    exact Or.inl ⟨p', ops', _, _, a, b, Or.inl c, rfl, d, f⟩
  · obtain ⟨h1, h2, h3⟩ := hok.resolve_left hfit
    have := C75_set_text_grow H hH S hS ops p0 p h0 hr name text pre post e he hn (by omega) h1 h2
    split at this
    · obtain ⟨p', ops', a, b, c, d, f⟩ := this
      refine Or.inl ⟨p', ops', text ++ [0], 0, a, b, Or.inr ?_, rfl, d, f⟩
      rw [c]
      congr 2
      conv => rhs; rw [← List.map_id post]
      apply List.map_congr_left
      intro x hx
      unfold truncateTo
      have := h3 x hx
      rw [List.take_of_length_le this, Nat.sub_eq_zero_of_le this]
      simp
    · exact Or.inr this

/-- C75: a name under which there is no entry without part reference: reported, and the file is untouched. -/
theorem C75_unknown_name {SK PK : Type} (H : HashFn) (hH : HashLen H) (S : SigScheme SK PK) (hS : ∀ sk rnd k d, S.sign sk rnd k d ≠ .error .ok)
    (ops : List (PkgOp SK)) (p0 p : Pkg) (h0 : pkgOpen H true [] = (.ok, p0)) (hr : pkgRun H S p0 ops = some p)
    (name text : Bytes) (enc : Option Bytes) (hid : bpakId name ≠ 0) (hno : ∀ e ∈ entries p.hdr, ¬ (e.id = bpakId name ∧ e.ref = 0)) :
    setCmd p.file { name := some name, text := some text, encoder := enc } = .ret (.notFound, p.file) := by
  have i := run_inv H hH S hS ops p0 p h0 hr
  obtain ⟨us, k, im⟩ := i.hdr.metas
  rw [setCmd_open i _ name text rfl rfl]
  have : getMeta p.hdr (bpakId name) 0 = none := by
    rw [getMeta_none_iff im _ _ hid]
    intro m hm
    rw [entries_inv im] at hno
    exact hno (entOf p.hdr m) (List.mem_map_of_mem hm)
  unfold setMeta
  rw [this]
  rfl

/-- C75 fails: (1) in every package whose 32 entries are all used, setting a text that is longer than the entry is undefined behaviour;
(2) so is every text of 65535 bytes. -/
theorem C75_set_text_overruns_is_false {SK PK : Type} (H : HashFn) (hH : HashLen H) (S : SigScheme SK PK) (hS : ∀ sk rnd k d, S.sign sk rnd k d ≠ .error .ok)
    (ops : List (PkgOp SK)) (p0 p : Pkg) (h0 : pkgOpen H true [] = (.ok, p0)) (hr : pkgRun H S p0 ops = some p)
    (name text : Bytes) (e : Entry) (he : e ∈ entries p.hdr) (hn : e.id = bpakId name ∧ e.ref = 0)
    (hbad : (e.data.length < text.length + 1 ∧ (entries p.hdr).length = 32) ∨ text.length = 65535) :
    setCmd p.file { name := some name, text := some text } = .ub := by
  have i := run_inv H hH S hS ops p0 p h0 hr
  obtain ⟨us, k, im⟩ := i.hdr.metas
  have hlen := im.len
  have hne : (entries p.hdr).length = us.length := by rw [entries_inv im, List.length_map]
  obtain ⟨pre, post, he'⟩ := List.append_of_mem he
  obtain ⟨pre', m, post', rfl, rfl, rfl, rfl⟩ := entry_slot im he'
  have hl : (entOf p.hdr m).data.length = m.size.toNat := content_len im (by simp)
  rw [hl] at hbad
  rw [setCmd_open i _ name text rfl rfl, setMeta_text im name text hn]
  have hb := (im.packed.ge m (by simp)).2
  have : setText p.hdr m text = .ub := by
    by_cases hk : k = 0
    · subst hk
      obtain ⟨g1, g2⟩ := getMeta_used im pre' post' m rfl
      unfold setText
      rw [if_pos (by omega), g1]
      simp only
      have : delMeta p.hdr pre'.length = .ub := by
        unfold delMeta
        split
        · rfl
        · simp only []
          rw [delMetaGo_full]
          intro x hx
          have := List.mem_of_mem_drop hx
          rw [im.slots] at this
          exact im.packed.ids x (by simpa using this)
      rw [this]
    · obtain ⟨k, rfl⟩ : ∃ k', k = k' + 1 := ⟨k - 1, by omega⟩
      have ht : text.length = 65535 := by omega
      refine (setText_grows im text (by omega)).2.2 (by omega) ?_
      rw [ht]
      have h2 := endOff_sum (off := 0) (pre' ++ m :: post') (by omega)
      have h3 : endOff 0 (pre' ++ m :: post') ≤ 1920 := im.packed.end_le (by omega)
      simp only [metaAlignSize_eq, List.map_append, List.map_cons, List.sum_append, List.sum_cons] at h2 ⊢
      omega
  rw [this]

/-- A package with three entries, made by calls: "a" (3 bytes), 9 (40 bytes), "bb" (8 bytes). -/
def exSetOps : List (PkgOp Unit) :=
  [.addFile 7 0 [1, 2], .header (.addMeta (bpakId (ascii "a")) 0 3), .header (.addMeta 9 0 40), .header (.writeMeta 9 0 (List.replicate 40 0xaa)),
   .header (.addMeta (bpakId (ascii "bb")) 0 8)]

theorem exSet : ∃ p, pkgRun exHash exScheme (pkgOpen exHash true []).2 exSetOps = some p ∧
    entries p.hdr = [] ++ ⟨bpakId (ascii "a"), 0, [0, 0, 0]⟩ :: [⟨9, 0, List.replicate 40 0xaa⟩, ⟨bpakId (ascii "bb"), 0, List.replicate 8 0⟩] := by
  have h : (pkgRun exHash exScheme (pkgOpen exHash true []).2 exSetOps).map (fun p => entries p.hdr) =
      some ([] ++ ⟨bpakId (ascii "a"), 0, [0, 0, 0]⟩ :: [⟨9, 0, List.replicate 40 0xaa⟩, ⟨bpakId (ascii "bb"), 0, List.replicate 8 0⟩]) := by decide +kernel
  cases hr : pkgRun exHash exScheme (pkgOpen exHash true []).2 exSetOps with
  | none => rw [hr] at h; cases h
  | some p => rw [hr] at h; exact ⟨p, rfl, Option.some.inj h⟩

/-- C75 is false of the code: setting "a" to "abc" succeeds, and the entry 9, which had 40 bytes 0xaa, is left with 8 of them. -/
theorem C75_set_text_is_false : ∃ p s p' s', Made p s ∧ Made p' s' ∧
    setCmd p.file { name := some (ascii "a"), text := some (ascii "abc") } = .ret (.ok, p'.file) ∧
    (⟨9, 0, List.replicate 40 0xaa⟩ : Entry) ∈ entries p.hdr ∧ (⟨9, 0, List.replicate 8 0xaa ++ List.replicate 32 0⟩ : Entry) ∈ entries p'.hdr := by
  obtain ⟨q0, e0, _⟩ := C56_open_new exHash exHash_len
  obtain ⟨p, hr, he⟩ := exSet
  have h0 : pkgOpen exHash true [] = (.ok, (pkgOpen exHash true []).2) := by rw [e0]
  have := C75_set_text_grow exHash exHash_len exScheme (by intro _ _ _ _ h; cases h) exSetOps _ p h0 hr (ascii "a") (ascii "abc") _ _ _ he ⟨rfl, rfl⟩
    (by decide +kernel) (by rw [he]; decide +kernel) (by decide +kernel)
  rw [if_pos (by decide +kernel)] at this
  obtain ⟨p', ops', a, b, c, -, -⟩ := this
  refine ⟨p, _, p', _, ⟨exSetOps, hr, rfl⟩, ⟨exSetOps ++ ops', b, rfl⟩, a, by rw [he]; simp, ?_⟩
  rw [c]
  decide +kernel

/-- The hypotheses of `C75_set_text_partial`, `C75_set_text_in_place` and `C75_set_text_grow` are met: "a" fits "xy" with its NUL; "bb",
the last entry, grows. -/
example : ∃ p pre post e, Made p [(7, [1, 2])] ∧ entries p.hdr = pre ++ e :: post ∧ e.id = bpakId (ascii "a") ∧ e.ref = 0 ∧ (ascii "xy").length + 1 ≤ e.data.length := by
  obtain ⟨p, hr, he⟩ := exSet
  exact ⟨p, _, _, _, ⟨exSetOps, hr, rfl⟩, he, rfl, rfl, by decide +kernel⟩
example : ∃ p pre post e, Made p [(7, [1, 2])] ∧ entries p.hdr = pre ++ e :: post ∧ e.id = bpakId (ascii "bb") ∧ e.ref = 0 ∧
    (entries p.hdr).length < 32 ∧ e.data.length < (ascii "a longer text").length + 1 ∧ ∀ x ∈ post, x.data.length ≤ roundUp8 e.data.length := by
  obtain ⟨p, hr, he⟩ := exSet
  exact ⟨p, [⟨bpakId (ascii "a"), 0, [0, 0, 0]⟩, ⟨9, 0, List.replicate 40 0xaa⟩], [], ⟨bpakId (ascii "bb"), 0, List.replicate 8 0⟩, ⟨exSetOps, hr, rfl⟩, he, rfl, rfl,
    by rw [he]; decide +kernel, by decide +kernel, by simp⟩

end Bpak
