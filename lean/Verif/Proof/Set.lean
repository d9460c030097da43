import Verif.Model.Set
import Verif.Props.Compare
namespace Bpak

/-- A table entry as the user sees it. -/
def entOf (h : Header) (m : MetaHdr) : Entry := ⟨m.id, m.partRef, metaContent h m⟩

theorem entries_inv {h : Header} {us : List MetaHdr} {k : Nat} (im : MetaInv h us k) : entries h = us.map (entOf h) := by
  unfold entries; rw [im.used]; rfl

theorem writeAt_append (b : Bytes) (o : Nat) (x y : Bytes) :
    writeAt b o (x ++ y) = match writeAt b o x with
      | none => none
      | some b' => writeAt b' (o + x.length) y := by
  by_cases h : o + (x ++ y).length ≤ b.length
  · rw [List.length_append] at h
    rw [writeAt_eq_some (by rw [List.length_append]; omega), writeAt_eq_some (d := x) (by omega)]
    have hl : (b.take o ++ x).length = o + x.length := by simp; omega
    simp only
    rw [writeAt_eq_some (by simp; omega)]
    congr 1
    rw [List.take_left' hl, ← List.drop_drop (j := o + x.length), List.drop_left' hl, List.drop_drop, List.length_append, Nat.add_assoc]
    simp
  · rw [List.length_append] at h
    unfold writeAt
    rw [if_neg (by rw [List.length_append]; omega)]
    by_cases h1 : o + x.length ≤ b.length
    · rw [if_pos h1]
      simp only
      rw [if_neg (by simp; omega)]
    · rw [if_neg h1]

/-- Overwriting one entry changes that entry only. -/
theorem write_entries {h : Header} {pre post : List MetaHdr} {m : MetaHdr} {k : Nat} (im : MetaInv h (pre ++ m :: post) k)
    (d : Bytes) (hd : d.length = m.size.toNat) :
    ∃ md, writeAt h.metadata m.offset.toNat d = some md ∧ MetaInv { h with metadata := md } (pre ++ m :: post) k ∧
      entries { h with metadata := md } = pre.map (entOf h) ++ ⟨m.id, m.partRef, d⟩ :: post.map (entOf h) := by
  have hb := (im.packed.ge m (by simp)).2
  have hmd := im.md
  have hw := writeAt_eq_some (b := h.metadata) (o := m.offset.toNat) (d := d) (by omega)
  obtain ⟨w1, w2, w3⟩ := writeAt_some hw
  refine ⟨_, hw, writeMeta_inv im (by omega), ?_⟩
  rw [entries_inv (writeMeta_inv im (by omega))]
  have hdis := im.packed.disjoint
  rw [List.pairwise_append, List.pairwise_cons] at hdis
  obtain ⟨-, ⟨hpost, -⟩, hpre⟩ := hdis
  rw [List.map_append, List.map_cons]
  generalize hmdg : h.metadata.take m.offset.toNat ++ d ++ h.metadata.drop (m.offset.toNat + d.length) = md at *
  have other : ∀ x ∈ pre ++ m :: post, (x.offset.toNat + x.size.toNat ≤ m.offset.toNat ∨ m.offset.toNat + m.size.toNat ≤ x.offset.toNat) →
      entOf { h with metadata := md } x = entOf h x := by
    intro x hx hor
    have hbx := (im.packed.ge x hx).2
    unfold entOf metaContent
    congr 1
    apply window_eq (by show _ ≤ md.length; omega) (by omega)
    intro j hj
    show md[_]? = _
    rw [w3, if_neg (by omega)]
  congr 1
  · apply List.map_congr_left
    intro x hx
    exact other x (by simp [hx]) (Or.inl (hpre x hx m (by simp)))
  · congr 1
    · unfold entOf metaContent
      congr 1
      show (md.drop _).take _ = d
      have := readAt_write_same hw
      rw [readAt_eq_some (by omega)] at this
      rw [← hd]
      exact Option.some.inj this
    · apply List.map_congr_left
      intro x hx
      exact other x (by simp [hx]) (Or.inr (hpost x hx))

/-- The text of a value as it is stored: text, NUL, zeros up to the size. -/
theorem putText_eq {h : Header} {pre post : List MetaHdr} {m : MetaHdr} {k : Nat} (im : MetaInv h (pre ++ m :: post) k)
    (text : Bytes) (hfit : text.length + 1 ≤ m.size.toNat) :
    ∃ md, putText h m text = .ret { h with metadata := md } ∧
      writeAt h.metadata m.offset.toNat (text ++ 0 :: List.replicate (m.size.toNat - text.length - 1) 0) = some md ∧
      MetaInv { h with metadata := md } (pre ++ m :: post) k ∧
      entries { h with metadata := md } = pre.map (entOf h) ++ ⟨m.id, m.partRef, text ++ 0 :: List.replicate (m.size.toNat - text.length - 1) 0⟩ :: post.map (entOf h) := by
  obtain ⟨md, e1, e2, e3⟩ := write_entries im (text ++ 0 :: List.replicate (m.size.toNat - text.length - 1) 0) (by simp; omega)
  refine ⟨md, ?_, e1, e2, e3⟩
  unfold putText
  rw [if_neg (by omega)]
  have hs : text ++ 0 :: List.replicate (m.size.toNat - text.length - 1) 0 = (text ++ [0]) ++ List.replicate (m.size.toNat - text.length - 1) (0 : U8) := by simp
  rw [hs, writeAt_append] at e1
  revert e1
  generalize writeAt h.metadata m.offset.toNat (text ++ [0]) = r
  intro e1
  cases r with
  | none => cases e1
  | some b' =>
    simp only at e1 ⊢
    rw [List.length_append, List.length_singleton, ← Nat.add_assoc] at e1
    rw [e1]

/-- A history of header calls on a package: only the header in the file changes. -/
theorem pkgRun_headers {SK PK : Type} (H : HashFn) (S : SigScheme SK PK) : ∀ (ops : List Op) (p : Pkg) (h' : Header), Inv p.hdr →
    p.file = p.hdr.image ++ p.file.drop 4096 → (∀ op ∈ ops, op.keepsParts = true) → run p.hdr ops = some h' →
    ∃ lg, pkgRun H S p (ops.map PkgOp.header) = some ⟨h', h'.image ++ p.file.drop 4096, lg⟩ := by
  intro ops
  induction ops with
  | nil =>
    intro p h' i hf _ hr
    simp only [run, Option.some.injEq] at hr
    subst hr
    exact ⟨p.log, by simp only [List.map_nil, pkgRun]; rw [← hf]⟩
  | cons op ops ih =>
    intro p h' i hf hk hr
    simp only [run] at hr
    cases hs : step p.hdr op with
    | none => rw [hs] at hr; cases hr
    | some h1 =>
      rw [hs] at hr
      have i1 := inv_step i hs
      have hl : h1.image.length = 4096 := image_length i1.wf
      simp only [List.map_cons, pkgRun, pkgStep]
      rw [if_pos (hk op (by simp)), hs]
      simp only
      rw [writeHeader_eq _ i1.wf]
      have hd : (h1.image ++ p.file.drop 4096).drop 4096 = p.file.drop 4096 := by rw [← hl, List.drop_left]
      obtain ⟨lg, e⟩ := ih ⟨h1, h1.image ++ p.file.drop 4096, p.log ++ [.write 0 h1.image]⟩ h' i1 (by simp only; rw [hd])
        (fun o ho => hk o (by simp [ho])) hr
      simp only [hd] at e
      exact ⟨lg, e⟩

theorem pkgRun_append {SK PK : Type} (H : HashFn) (S : SigScheme SK PK) : ∀ (a b : List (PkgOp SK)) (p : Pkg),
    pkgRun H S p (a ++ b) = (pkgRun H S p a).bind (fun q => pkgRun H S q b) := by
  intro a
  induction a with
  | nil => intro b p; rfl
  | cons op a ih =>
    intro b p
    simp only [List.cons_append, pkgRun]
    cases pkgStep H S p op with
    | none => rfl
    | some q => exact ih b q

/-- Header changes by the header API, written over the header in the file. -/
theorem setCmd_made {SK PK : Type} {H : HashFn} (S : SigScheme SK PK) {p p0 : Pkg} {s : List (U32 × Bytes)} {ops : List (PkgOp SK)}
    (hr : pkgRun H S p0 ops = some p) (i : PkgInv H p s) (hops : List Op) (hk : ∀ op ∈ hops, op.keepsParts = true) (h' : Header)
    (hrun : run p.hdr hops = some h') :
    ∃ p' ops', pkgRun H S p0 (ops ++ ops') = some p' ∧ p'.hdr = h' ∧ p'.file = fileWrite p.file 0 h'.image ∧ p'.file.drop 4096 = p.file.drop 4096 := by
  have hf : p.file = p.hdr.image ++ p.file.drop 4096 := by
    conv => lhs; rw [← List.take_append_drop 4096 p.file]
    rw [← i.saved.2, image_parse (by rw [List.length_take]; have := i.saved.1; omega)]
  obtain ⟨lg, e⟩ := pkgRun_headers H S hops p h' i.hdr hf hk hrun
  have hinv : Inv h' := by
    clear e hk hf
    have : ∀ (os : List Op) (h h2 : Header), Inv h → run h os = some h2 → Inv h2 := by
      intro os
      induction os with
      | nil => intro h h2 ih hr; simp only [run, Option.some.injEq] at hr; subst hr; exact ih
      | cons o os ihh =>
        intro h h2 ih hr
        simp only [run] at hr
        cases hs : step h o with
        | none => rw [hs] at hr; cases hr
        | some h1 => rw [hs] at hr; exact ihh h1 h2 (inv_step ih hs) hr
    exact this hops p.hdr h' i.hdr hrun
  have hl := image_length hinv.wf
  refine ⟨_, hops.map PkgOp.header, by rw [pkgRun_append, hr]; exact e, rfl, ?_, ?_⟩
  · simp only; rw [fileWrite_zero, hl]
  · simp only; rw [← hl, List.drop_left]

theorem setCmd_open {H : HashFn} {p : Pkg} {s : List (U32 × Bytes)} (i : PkgInv H p s) (o : SetOpts) (name text : Bytes)
    (hn : o.name = some name) (ht : o.text = some text) :
    setCmd p.file o = match setMeta p.hdr name text o.encoder with
        | .ub => .ub
        | .ret (e, h', w) => .ret (e, if w then fileWrite p.file 0 h'.image else p.file) := by
  unfold setCmd
  rw [if_neg (by rw [hn]; simp), if_neg (by rw [ht]; simp), if_neg (by have := i.saved.1; omega)]
  simp only [i.saved.2, i.valid, ne_eq, not_true_eq_false, if_false, hn, ht, Option.getD_some]
  generalize setMeta p.hdr name text o.encoder = r
  cases r <;> rfl

end Bpak
