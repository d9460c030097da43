import Verif.Proof.Extract
import Verif.Props.Pkg
import Verif.Props.Disk
/-!
C121: extraction to a disk that can be full.
-/
namespace Bpak

theorem extractFileD_cases (p : Pkg) (id : U32) (canCreate : Bool) (luck : List Luck) :
    (extractFileD p id canCreate luck = extractFile p id ∧ (extractFile p id).1 ≠ .ok ∧ (extractFile p id).2 = none) ∨
    (canCreate = false ∧ extractFileD p id canCreate luck = (.writeError, none)) ∨
    (canCreate = true ∧ ∃ off n, extractFile p id = ((extractLoop p.file off n).1, some (extractLoop p.file off n).2) ∧
      extractFileD p id canCreate luck =
        ((extractLoopD p.file off n (freshStream luck)).1, some (extractLoopD p.file off n (freshStream luck)).2.pkg.file)) := by
  unfold extractFileD extractFile
  cases getPart p.hdr id with
  | none => exact Or.inl ⟨rfl, (fun h => nomatch h), rfl⟩
  | some i =>
    dsimp only
    cases p.hdr.parts[i]? with
    | none => exact Or.inl ⟨rfl, (fun h => nomatch h), rfl⟩
    | some q =>
      dsimp only
      by_cases h : 2^63 ≤ (partOffset p.hdr q).toNat
      · rw [if_pos h, if_pos h]
        exact Or.inl ⟨rfl, (fun h => nomatch h), rfl⟩
      · rw [if_neg h, if_neg h]
        cases canCreate
        · exact Or.inr (Or.inl ⟨rfl, rfl⟩)
        · exact Or.inr (Or.inr ⟨rfl, _, _, rfl, rfl⟩)

/-- For every package, part and behaviour of the disk: success means success with room, and the output is a beginning of what
would be written with room. -/
theorem C121_extract_file (p : Pkg) (id : U32) (canCreate : Bool) (luck : List Luck) :
    Honest (extractFile p id) (extractFileD p id canCreate luck) := by
  rcases extractFileD_cases p id canCreate luck with ⟨h, _, h2⟩ | ⟨_, h⟩ | ⟨_, off, n, h1, h2⟩
  · rw [h]
    exact ⟨fun h => h, (fun o ho => by rw [h2] at ho; exact nomatch ho), Or.inl rfl⟩
  · rw [h]
    exact ⟨(fun h => nomatch h), (fun o ho => nomatch ho), Or.inr (Or.inl rfl)⟩
  · obtain ⟨i1, i2, ⟨k, i3, _⟩, _⟩ := extractLoopD_eq p.file n off (freshStream luck)
    rw [h1, h2]
    refine ⟨i1, fun o ho => ⟨_, rfl, ?_⟩, i2.elim Or.inl (fun h => Or.inr (Or.inl h))⟩
    cases ho
    rw [i3]
    exact List.take_prefix _ _

/-- If every write error is reported by the write itself, success means that all is there. -/
theorem C121_extract_file_partial (p : Pkg) (id : U32) (canCreate : Bool) (luck : List Luck) (hl : Prompt luck) :
    AllThere (extractFile p id) (extractFileD p id canCreate luck) := by
  intro hok
  rcases extractFileD_cases p id canCreate luck with ⟨h, _, h2⟩ | ⟨_, h⟩ | ⟨_, off, n, h1, h2⟩
  · exact h
  · rw [h] at hok
    exact nomatch hok
  · obtain ⟨i1, i2, _, i3⟩ := extractLoopD_eq p.file n off (freshStream luck)
    rw [h2] at hok
    rw [h1, h2, i3 rfl hl hok]
    dsimp only at hok ⊢
    rw [hok, i1 hok]
    rfl

/-- The same for the command, on every file, for parts and metadata. -/
theorem C121_command (H : HashFn) (f : Bytes) (part metaName ref : Option Bytes) (canCreate : Bool) (luck : List Luck) :
    match extractCmd H f part metaName ref with
    | .ret b => ∃ r, extractCmdD H f part metaName ref canCreate luck = .ret r ∧ Honest b r
    | .ub => canCreate = true → extractCmdD H f part metaName ref canCreate luck = .ub := by
  have same : ∀ b : Err × Option Bytes, b.2 = none → Honest b b := fun b hb =>
    ⟨fun h => h, (fun o ho => by rw [hb] at ho; exact nomatch ho), Or.inl rfl⟩
  unfold extractCmdD extractCmd
  dsimp only
  generalize ((part.map idForNameOrRef).getD 0) = pid
  generalize ((metaName.map idForNameOrRef).getD 0) = mid
  by_cases h1 : (decide (mid ≠ 0)) == (decide (pid ≠ 0))
  · rw [if_pos h1, if_pos h1]
    exact ⟨_, rfl, same _ rfl⟩
  · rw [if_neg h1, if_neg h1]
    generalize pkgOpen H true f = r
    by_cases h2 : r.1 ≠ .ok
    · rw [if_pos h2, if_pos h2]
      exact ⟨_, rfl, same _ rfl⟩
    · rw [if_neg h2, if_neg h2]
      by_cases h3 : mid ≠ 0
      · rw [if_pos h3, if_pos h3]
        cases getMeta r.2.hdr mid ((ref.map idForNameOrRef).getD 0) with
        | none => exact ⟨_, rfl, same _ rfl⟩
        | some i =>
          dsimp only
          cases r.2.hdr.metas[i]? with
          | none => exact fun _ => rfl
          | some m =>
            dsimp only
            cases readAt r.2.hdr.metadata m.offset.toNat m.size.toNat with
            | none => exact fun h => by subst h; rfl
            | some d =>
              dsimp only
              cases canCreate
              · exact ⟨_, rfl, (fun h => nomatch h), (fun o ho => nomatch ho), Or.inr (Or.inr ⟨rfl, rfl⟩)⟩
              · refine ⟨_, rfl, fun _ => rfl, fun o ho => ⟨d, rfl, ?_⟩, ?_⟩
                · cases ho
                  by_cases hd : d = []
                  · subst hd
                    exact List.nil_prefix
                  · obtain ⟨_, ⟨_, _, _, e⟩ | ⟨k, e, _⟩⟩ := fwrite_end (freshStream luck) d hd
                    · exact e ▸ List.prefix_refl _
                    · exact e ▸ List.take_prefix _ _
                · dsimp only
                  cases ((freshStream luck).fwrite 0 d).1
                  · exact Or.inr (Or.inl rfl)
                  · exact Or.inl rfl
      · rw [if_neg h3, if_neg h3]
        exact ⟨_, rfl, C121_extract_file _ _ _ _⟩

/-- And if every write error is reported by the write itself, success means that all is there. -/
theorem C121_command_partial (H : HashFn) (f : Bytes) (part metaName ref : Option Bytes) (canCreate : Bool) (luck : List Luck)
    (hl : Prompt luck) (b r : Err × Option Bytes) (hb : extractCmd H f part metaName ref = .ret b)
    (hr : extractCmdD H f part metaName ref canCreate luck = .ret r) : AllThere b r := by
  intro hok
  unfold extractCmdD at hr
  unfold extractCmd at hb
  dsimp only at hr hb
  generalize ((part.map idForNameOrRef).getD 0) = pid at *
  generalize ((metaName.map idForNameOrRef).getD 0) = mid at *
  by_cases h1 : (decide (mid ≠ 0)) == (decide (pid ≠ 0))
  · rw [if_pos h1] at hr
    cases hr
    exact nomatch hok
  · rw [if_neg h1] at hr hb
    generalize pkgOpen H true f = p at *
    by_cases h2 : p.1 ≠ .ok
    · rw [if_pos h2] at hr
      cases hr
      exact absurd hok h2
    · rw [if_neg h2] at hr hb
      by_cases h3 : mid ≠ 0
      · rw [if_pos h3] at hr hb
        cases h4 : getMeta p.2.hdr mid ((ref.map idForNameOrRef).getD 0) with
        | none => rw [h4] at hr; cases hr; exact nomatch hok
        | some i =>
          rw [h4] at hr hb
          dsimp only at hr hb
          cases h5 : p.2.hdr.metas[i]? with
          | none => rw [h5] at hr; cases hr
          | some m =>
            rw [h5] at hr hb
            dsimp only at hr hb
            cases canCreate
            · cases hr
              exact nomatch hok
            · rw [if_neg (by decide)] at hr
              cases h6 : readAt p.2.hdr.metadata m.offset.toNat m.size.toNat with
              | none => rw [h6] at hr; cases hr
              | some d =>
                rw [h6] at hr hb
                cases hr
                cases hb
                dsimp only at hok ⊢
                by_cases hd : d = []
                · subst hd
                  rfl
                · obtain ⟨_, ⟨_, e1, _, e⟩ | ⟨k, e, _, e1 | ⟨_, e1⟩⟩⟩ := fwrite_end (freshStream luck) d hd
                  · rw [show (freshStream luck).pkg.file.length = 0 from rfl] at e1 e
                    rw [e1, e]
                    rfl
                  · rw [show (freshStream luck).pkg.file.length = 0 from rfl] at e1
                    rw [e1] at hok
                    exact nomatch hok
                  · exact absurd ⟨rfl, hl⟩ e1
      · rw [if_neg h3] at hr hb
        cases hr
        cases hb
        exact C121_extract_file_partial _ _ _ _ hl hok

/-- With room on the disk, whatever is extracted with success is extracted with success, and all is there. -/
theorem C121_with_room (H : HashFn) (f : Bytes) (part metaName ref : Option Bytes) :
    extractCmdD H f part metaName ref true [] = extractCmd H f part metaName ref := by
  have loop : ∀ (f : Bytes) (n off : Nat) (w : Disk), w.luck = [] → w.pending = false →
      (extractLoopD f off n w).1 = (extractLoop f off n).1 ∧
        (extractLoopD f off n w).2.pkg.file = w.pkg.file ++ (extractLoop f off n).2 := by
    intro f n
    induction n using Nat.strongRecOn with
    | ind n ih =>
      intro off w hl hp
      rw [extractLoopD, extractLoop]
      by_cases h0 : n = 0
      · rw [dif_pos h0, dif_pos h0]
        exact ⟨rfl, (List.append_nil _).symm⟩
      · rw [dif_neg h0, dif_neg h0]
        by_cases hx : (fileRead f off (min n 4096)).length ≠ min n 4096
        · rw [if_pos hx, if_pos hx]
          exact ⟨rfl, (List.append_nil _).symm⟩
        · rw [if_neg hx, if_neg hx]
          have hx := Classical.not_not.1 hx
          have hd : fileRead f off (min n 4096) ≠ [] := fun h => by rw [h] at hx; simp at hx; omega
          obtain ⟨e1, ⟨_, e2, e3, e4⟩ | ⟨k, _, _, e⟩⟩ := fwrite_end w _ hd
          · rw [if_pos e2]
            obtain ⟨g1, g2⟩ := ih (n - min n 4096) (by omega) (off + min n 4096) _ (by rw [e1, hl]; rfl) e3
            exact ⟨g1, by rw [g2, e4, List.append_assoc]⟩
          · unfold Disk.fwrite at e
            rw [if_neg hd, hp, hl] at e
            rcases e with e | ⟨e, _⟩ <;> exact nomatch e
  unfold extractCmdD extractCmd
  dsimp only
  split
  · rfl
  · split
    · rfl
    · split
      · cases getMeta (pkgOpen H true f).2.hdr ((metaName.map idForNameOrRef).getD 0) ((ref.map idForNameOrRef).getD 0) with
        | none => rfl
        | some i =>
          dsimp only
          cases (pkgOpen H true f).2.hdr.metas[i]? with
          | none => rfl
          | some m =>
            dsimp only
            rw [if_neg (by decide)]
            cases readAt (pkgOpen H true f).2.hdr.metadata m.offset.toNat m.size.toNat with
            | none => rfl
            | some d =>
              dsimp only
              unfold Disk.fwrite
              by_cases hd : d = []
              · subst hd; rfl
              · rw [if_neg hd]
                show Out.ret (Err.ok, some (fileWrite [] ([] : Bytes).length d)) = _
                rw [fileWrite_end]
                rfl
      · congr 1
        rcases extractFileD_cases (pkgOpen H true f).2 ((part.map idForNameOrRef).getD 0) true [] with ⟨h, _, _⟩ | ⟨h, _⟩ | ⟨_, off, n, h1, h2⟩
        · exact h
        · exact nomatch h
        · obtain ⟨g1, g2⟩ := loop (pkgOpen H true f).2.file n off (freshStream []) rfl rfl
          rw [h1, h2, g1, g2]
          rfl

/-- A part of a well-formed package: with reported errors, success means that the file has exactly the bytes of the part. -/
theorem C121_part_partial (p : Pkg) (g : GoodPkg p) (hf : p.file.length < 2^63) (q : PartHdr) (hq : q ∈ usedParts p.hdr)
    (canCreate : Bool) (luck : List Luck) (hl : Prompt luck) :
    extractFileD p q.id canCreate luck = (.ok, some ((storedBytes p q).take q.size.toNat)) ∨
    ((extractFileD p q.id canCreate luck).1 = .writeError ∧
      ∀ o, (extractFileD p q.id canCreate luck).2 = some o → o <+: (storedBytes p q).take q.size.toNat) := by
  obtain ⟨h1, h2, h3⟩ := C121_extract_file p q.id canCreate luck
  have h4 := C121_extract_file_partial p q.id canCreate luck hl
  obtain ⟨e, _⟩ := C35_extract_file p g hf q hq
  rw [e] at h1 h2 h3 h4
  rcases h3 with h3 | h3 | ⟨h3, h5⟩
  · exact Or.inl (h4 h3)
  · exact Or.inr ⟨h3, fun o ho => by obtain ⟨d, hd, hp⟩ := h2 o ho; cases hd; exact hp⟩
  · exfalso
    rcases extractFileD_cases p q.id canCreate luck with ⟨h, hne, _⟩ | ⟨_, h⟩ | ⟨_, off, n, _, h⟩
    · rw [e] at hne
      exact hne rfl
    · rw [h] at h3
      exact nomatch h3
    · rw [h] at h5
      exact nomatch h5

/-- The full claim is false, for every package and every extraction that is not empty: when the error is noticed only when the
data leaves the buffers, nothing is written and success is reported. -/
theorem C121_lost_output_reported (H : HashFn) (f : Bytes) (part metaName ref : Option Bytes) (d : Bytes) (hd : d ≠ [])
    (h : extractCmd H f part metaName ref = .ret (.ok, some d)) :
    extractCmdD H f part metaName ref true [.late 0] = .ret (.ok, some []) := by
  have first : ∀ d : Bytes, d ≠ [] → (freshStream [.late 0]).fwrite 0 d = (true, ⟨⟨initHeader, [], [.write 0 []]⟩, [], true⟩) := by
    intro d hd
    unfold Disk.fwrite
    rw [if_neg hd]
    cases d with
    | nil => exact absurd rfl hd
    | cons a l => rfl
  have later : ∀ (f : Bytes) (n off : Nat) (w : Disk), w.luck = [] → w.pending = true → (extractLoop f off n).1 = .ok →
      extractLoopD f off n w = (.ok, w) := by
    intro f n
    induction n using Nat.strongRecOn with
    | ind n ih =>
      intro off w hl hp hok
      rw [extractLoop] at hok
      rw [extractLoopD]
      by_cases h0 : n = 0
      · rw [dif_pos h0]
      · rw [dif_neg h0] at hok ⊢
        by_cases hx : (fileRead f off (min n 4096)).length ≠ min n 4096
        · rw [if_pos hx] at hok
          exact nomatch hok
        · rw [if_neg hx] at hok ⊢
          have hx := Classical.not_not.1 hx
          have hd : fileRead f off (min n 4096) ≠ [] := fun h => by rw [h] at hx; simp at hx; omega
          have e : w.fwrite w.pkg.file.length (fileRead f off (min n 4096)) = (true, w) := by
            unfold Disk.fwrite
            rw [if_neg hd, if_pos hp, hl]
            obtain ⟨a, b, c⟩ := w
            cases hl
            cases hp
            rfl
          rw [e, if_pos rfl]
          exact ih _ (by omega) _ _ hl hp hok
  unfold extractCmd at h
  unfold extractCmdD
  dsimp only at h ⊢
  split at h
  · cases h
  · rename_i h1
    rw [if_neg h1]
    split at h
    · injection h with h
      exact nomatch (Prod.mk.inj h).2
    · rename_i h2
      rw [if_neg h2]
      split at h
      · rename_i h3
        rw [if_pos h3]
        split at h
        · cases h
        · rename_i i hi
          simp only [hi]
          split at h
          · cases h
          · rename_i m hm
            simp only [hm]
            split at h
            · cases h
            · rename_i x hx
              cases h
              simp only [hx, first d hd]
              rfl
      · rename_i h3
        rw [if_neg h3]
        rcases extractFileD_cases (pkgOpen H true f).2 ((part.map idForNameOrRef).getD 0) true [.late 0] with ⟨_, hne, _⟩ | ⟨hc, _⟩ | ⟨_, off, n, e1, e2⟩
        · injection h with h
          rw [h] at hne
          exact absurd rfl hne
        · exact nomatch hc
        · rw [e1] at h
          injection h with h
          obtain ⟨h4, h5⟩ := Prod.mk.inj h
          cases h5
          rw [e2]
          by_cases h0 : n = 0
          · rw [extractLoop, dif_pos h0] at hd
            exact absurd rfl hd
          · rw [extractLoop, dif_neg h0] at h4
            rw [extractLoopD, dif_neg h0]
            by_cases hx : (fileRead (pkgOpen H true f).2.file off (min n 4096)).length ≠ min n 4096
            · rw [if_pos hx] at h4
              exact nomatch h4
            · rw [if_neg hx] at h4 ⊢
              have hx := Classical.not_not.1 hx
              have hd : fileRead (pkgOpen H true f).2.file off (min n 4096) ≠ [] := fun h => by rw [h] at hx; simp at hx; omega
              dsimp only
              rw [show (freshStream [.late 0]).pkg.file.length = 0 from rfl, first _ hd, if_pos rfl, later _ _ _ _ rfl rfl h4]

/-- An empty package, with a part of three bytes added. -/
def exExtractFile : Bytes :=
  ((addFile (fun _ _ => List.replicate 32 0) 9 ⟨initHeader, initHeader.image, []⟩ 7 0 3 [1, 2, 3]).map (fun r => r.2.file)).getD []

/-- `C121_command`, `C121_command_partial`, `C121_lost_output_reported`: the part is extracted; one byte fits on the disk; nothing
fits and the error comes late; the output cannot be created. -/
example :
    (match extractCmd (fun _ _ => List.replicate 32 0) exExtractFile (some [0x30, 0x78, 0x37]) none none with
      | .ret r => r | .ub => (.failed, none)) = (.ok, some [1, 2, 3]) ∧
    (match extractCmdD (fun _ _ => List.replicate 32 0) exExtractFile (some [0x30, 0x78, 0x37]) none none true [.short 1] with
      | .ret r => r | .ub => (.failed, none)) = (.writeError, some [1]) ∧
    (match extractCmdD (fun _ _ => List.replicate 32 0) exExtractFile (some [0x30, 0x78, 0x37]) none none true [.late 0] with
      | .ret r => r | .ub => (.failed, none)) = (.ok, some []) ∧
    (match extractCmdD (fun _ _ => List.replicate 32 0) exExtractFile (some [0x30, 0x78, 0x37]) none none false [] with
      | .ret r => r | .ub => (.failed, none)) = (.writeError, none) := by
  decide +kernel

/-- `C121_part_partial`: a well-formed package with a part. -/
example : ∃ (p : Pkg) (q : PartHdr), GoodPkg p ∧ p.file.length < 2^63 ∧ q ∈ usedParts p.hdr := by
  obtain ⟨p0, _, g0, -, -, -, hf, hh⟩ := C56_open_new exHash exHash_len
  have hu : usedParts p0.hdr = [] := by rw [hh]; exact used_init
  have hl : p0.file.length = 4096 := by rw [g0.exact, hu]; rfl
  obtain ⟨p, _, g, -, l, -, -, -, hp⟩ := C35_add_file exHash exHash_len p0 g0 7 (by decide) (by rw [hu]; simp)
    (by rw [hu]; simp) 0 rfl [1, 2, 3] (by rw [hl]; decide) 9 (by decide)
  cases hq : usedParts p.hdr with
  | nil => rw [hq, hu] at hp; exact nomatch hp
  | cons q qs => exact ⟨p, q, g, by rw [l, hl]; decide, by rw [hq]; exact List.mem_cons_self⟩

end Bpak
