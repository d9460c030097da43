import Verif.Props.SessionExample
/-! What goes in under a name comes out under the name (C85). -/
namespace Bpak

/-- The command takes the part with this id away, or starts the package anew. -/
def Cmd.drops {SK : Type} (id : U32) : Cmd SK → Bool
  | .create _ _ _ _ => true
  | .delete _ true _ => true
  | .delete (some name) false _ => decide (idForNameOrRef name = id)
  | _ => false

theorem sessionStep_keeps {SK : Type} (H : HashFn) (s : List (U32 × Bytes)) (x : Cmd SK × Err) (c : U32 × Bytes) (hc : c ∈ s) (hd : x.2 = .ok → x.1.drops c.1 = false) :
    c ∈ sessionStep H s x := by
  obtain ⟨cmd, e⟩ := x
  by_cases he : e = .ok
  · replace hd := hd he
    simp only at hd
    subst he
    unfold sessionStep
    simp only [ne_eq, not_true_eq_false, if_false]
    cases cmd with
    | create => cases hd
    | addPart name b enc src key salt =>
      cases src with
      | none => cases enc <;> exact hc
      | some d =>
        cases enc with
        | none => exact List.mem_append_left _ hc
        | some enc =>
          simp only
          split
          · cases key with
            | error _ => exact hc
            | ok k => exact List.mem_append_left _ hc
          · exact List.mem_append_left _ hc
    | delete part all keep =>
      cases all with
      | true => cases part <;> cases hd
      | false =>
        cases part with
        | none => exact hc
        | some name =>
          simp only
          simp only [Cmd.drops, decide_eq_false_iff_not] at hd
          exact List.mem_filter.2 ⟨hc, by simpa using fun h => hd h.symm⟩
    | addMeta o => exact hc
    | set o => exact hc
    | sign k r => exact hc
    | signRaw s => exact hc
    | transportAdd r e d => exact hc
  · rw [sessionStep_fail H s cmd he]; exact hc

theorem sessionFiles_keeps {SK : Type} (H : HashFn) (t2 : List (Cmd SK × Err)) : ∀ (s : List (U32 × Bytes)) (c : U32 × Bytes), c ∈ s →
    (∀ x ∈ t2, x.2 = .ok → x.1.drops c.1 = false) → c ∈ t2.foldl (sessionStep H) s := by
  induction t2 with
  | nil => intro s c hc _; exact hc
  | cons x t2 ih => intro s c hc hd; exact ih _ c (sessionStep_keeps H s x c hc (hd x (by simp))) (fun y hy => hd y (by simp [hy]))

theorem find_pairwise {s : List (U32 × Bytes)} (hp : s.Pairwise (fun a b => a.1 ≠ b.1)) {c : U32 × Bytes} (hc : c ∈ s) : s.find? (fun x => decide (x.1 = c.1)) = some c := by
  induction s with
  | nil => cases hc
  | cons x s ih =>
    rw [List.pairwise_cons] at hp
    rw [List.find?_cons]
    rcases List.mem_cons.1 hc with rfl | hc
    · rw [decide_eq_true rfl]
    · rw [decide_eq_false (hp.1 c hc)]; exact ih hp.2 hc

/-- C85: once `bpak add --part NAME --from-file FILE` has succeeded, `bpak extract --part NAME` delivers the file's content after any further
commands, until a `bpak delete` of that part, `bpak delete --all` or `bpak create` succeeds. NAME does not start with "0x". -/
theorem C85_add_extract {SK PK : Type} (H : HashFn) (hH : HashLen H) (S : SigScheme SK PK) (hS : ∀ sk rnd k d, S.sign sk rnd k d ≠ .error .ok)
    (t1 t2 : List (Cmd SK × Err)) (f name d salt : Bytes) (dontHash : Bool) (key : Except Err Bytes) (hname : name.take 2 ≠ ascii "0x")
    (h : Session H S (t1 ++ (.addPart name dontHash none (some d) key salt, .ok) :: t2) (some f))
    (hkeep : ∀ c, (c, Err.ok) ∈ t2 → c.drops (bpakId name) = false) :
    extractCmd H f (some name) none none = .ret (.ok, some d) := by
  obtain ⟨hdr, -, -, -, -, -, -, hp, hz, hx⟩ := C84_session H hH S hS _ f h
  have hid : idForNameOrRef name = bpakId name := (C77_id_for_name_or_ref name).1 hname
  have hm : (bpakId name, d) ∈ sessionFiles H (t1 ++ (.addPart name dontHash none (some d) key salt, .ok) :: t2) := by
    unfold sessionFiles
    rw [List.foldl_append, List.foldl_cons]
    refine sessionFiles_keeps H t2 _ _ (List.mem_append_right _ List.mem_cons_self) ?_
    rintro ⟨c, e⟩ hm he
    simp only at he
    subst he
    exact hkeep c hm
  have := hx name (by rw [hid]; exact hz _ hm)
  rw [hid, find_pairwise hp hm] at this
  exact this

/-- C85, the flaw: `bpak add` always hashes the name, `bpak extract` and `bpak delete` read "0x..." as a number. For a name whose number
is not its hash, `bpak extract --part NAME` answers after a successful `bpak add --part NAME` as it did before, whatever was added. -/
theorem C85_hex_name_is_false {SK PK : Type} (H : HashFn) (hH : HashLen H) (S : SigScheme SK PK) (hS : ∀ sk rnd k d, S.sign sk rnd k d ≠ .error .ok)
    (t : List (Cmd SK × Err)) (f f' name d salt : Bytes) (dontHash : Bool) (key : Except Err Bytes) (hn0 : idForNameOrRef name ≠ 0) (hne : idForNameOrRef name ≠ bpakId name)
    (h : Session H S t (some f)) (ha : Allowed H (some f) (.addPart (SK := SK) name dontHash none (some d) key salt))
    (hs : cmdStep H S (some f) (.addPart name dontHash none (some d) key salt) = some (.ok, some f')) :
    extractCmd H f' (some name) none none = extractCmd H f (some name) none none := by
  have h2 : Session H S (t ++ [(.addPart name dontHash none (some d) key salt, .ok)]) (some f') := .run h ha hs (fun h => by cases h)
  obtain ⟨-, -, -, -, -, -, -, -, -, hx⟩ := C84_session H hH S hS _ f h
  obtain ⟨-, -, -, -, -, -, -, -, -, hx2⟩ := C84_session H hH S hS _ f' h2
  rw [hx name hn0, hx2 name hn0, sessionFiles_snoc]
  have : sessionStep H (sessionFiles H t) (Cmd.addPart (SK := SK) name dontHash none (some d) key salt, .ok) = sessionFiles H t ++ [(bpakId name, d)] := rfl
  rw [this, List.find?_append, List.find?_cons, decide_eq_false (fun e => hne e.symm)]
  simp

/-- Such a name is "0x10": its number is 16. -/
example : idForNameOrRef (ascii "0x10") = 16 ∧ bpakId (ascii "0x10") ≠ 16 ∧ bpakId (ascii "0x10") ≠ 0 := by decide +kernel

/-- C85: on the package of any session `bpak extract --meta NAME [--part-ref REF]` delivers the content of the entry with the name's id and
the reference's id, or reports that there is none. -/
theorem C85_extract_meta {SK PK : Type} (H : HashFn) (hH : HashLen H) (S : SigScheme SK PK) (hS : ∀ sk rnd k d, S.sign sk rnd k d ≠ .error .ok)
    (t : List (Cmd SK × Err)) (f : Bytes) (h : Session H S t (some f)) :
    ∃ hdr, pkgOpen H true f = (.ok, ⟨hdr, f, []⟩) ∧ ∀ (name : Bytes) (ref : Option Bytes) (rid : U32), idForNameOrRef name ≠ 0 →
      rid = (match ref with | none => 0 | some r => idForNameOrRef r) →
      (∀ e ∈ entries hdr, e.id = idForNameOrRef name → e.ref = rid → extractCmd H f none (some name) ref = .ret (.ok, some e.data)) ∧
      ((∀ e ∈ entries hdr, ¬ (e.id = idForNameOrRef name ∧ e.ref = rid)) → extractCmd H f none (some name) ref = .ret (.notFound, none)) := by
  rcases session_inv hH S hS h with ⟨h, -⟩ | ⟨p, hf, i⟩
  · cases h
  cases hf
  refine ⟨p.hdr, i.open true, ?_⟩
  intro name ref rid hn hr
  obtain ⟨us, k, im⟩ := i.hdr.metas
  have hr' : (ref.map idForNameOrRef).getD 0 = rid := by rw [hr]; cases ref <;> rfl
  have e : extractCmd H p.file none (some name) ref = match getMeta p.hdr (idForNameOrRef name) rid with
      | none => .ret (.notFound, none)
      | some i => match p.hdr.metas[i]? with
        | none => .ub
        | some m => match readAt p.hdr.metadata m.offset.toNat m.size.toNat with
          | none => .ub
          | some d => .ret (.ok, some d) := by
    unfold extractCmd
    rw [hr', i.open]
    simp only [Option.map_some, Option.getD_some, Option.map_none, Option.getD_none]
    rw [if_neg (by simp; exact hn), if_neg (by simp), if_pos hn]
    rfl
  constructor
  · intro x hx h1 h2
    obtain ⟨a, b, hab⟩ := List.append_of_mem hx
    obtain ⟨pre, m, post, hu, -, -, rfl⟩ := entry_slot im hab
    obtain ⟨g1, g2⟩ := getMeta_used im pre post m hu
    have e1 : idForNameOrRef name = m.id := h1.symm
    have e2 : rid = m.partRef := h2.symm
    rw [e, e1, e2, g1]
    simp only
    rw [g2]
    simp only
    have hb := (i.metas.layout pre m post (by rw [im.used, hu])).2
    unfold readAt
    rw [if_pos (by rw [im.md]; exact hb)]
    rfl
  · intro hno
    rw [e, (getMeta_none_iff im _ _ hn).2]
    intro m hm hc
    refine hno (entOf p.hdr m) ?_ hc
    rw [entries_inv im]
    exact List.mem_map.2 ⟨m, hm, rfl⟩

/-- C85: `bpak extract` wants a part or metadata, not both and not neither. -/
theorem C85_select_one (H : HashFn) (f : Bytes) (part name ref : Option Bytes)
    (h : (part = none ∧ name = none) ∨ ∃ p n, part = some p ∧ name = some n ∧ idForNameOrRef p ≠ 0 ∧ idForNameOrRef n ≠ 0) :
    extractCmd H f part name ref = .ret (.failed, none) := by
  unfold extractCmd
  rcases h with ⟨rfl, rfl⟩ | ⟨p, n, rfl, rfl, h1, h2⟩
  · rfl
  · simp only [Option.map_some, Option.getD_some]
    rw [decide_eq_true h2, decide_eq_true h1]
    rfl

/-- The hypotheses of `C85_add_extract` and `C85_extract_meta` are met: in the example session "dtb" is still there after five more commands. -/
example : ∃ t1 t2 f, Session exHash exScheme (t1 ++ (.addPart (ascii "dtb") true none (some [4]) (.error .failed) [], .ok) :: t2) (some f) ∧ t2.length = 5 ∧
    (∀ c, (c, Err.ok) ∈ t2 → c.drops (bpakId (ascii "dtb")) = false) ∧ (ascii "dtb").take 2 ≠ ascii "0x" := by
  obtain ⟨t, f, h, hc, he, -⟩ := exSession
  have hz : ∀ l : List (Cmd Unit × Err), l = (l.map (fun x => x.1)).zip (l.map (fun x => x.2)) := by
    intro l
    induction l with
    | nil => rfl
    | cons x l ih => rw [List.map_cons, List.map_cons, List.zip_cons_cons, ← ih]
  rw [hz t, hc, he] at h
  refine ⟨(exCmds.take 4).zip [.notFound, .ok, .ok, .exists_], (exCmds.drop 5).zip [.ok, .ok, .ok, .ok, .notFound], f, h, rfl, ?_, by decide⟩
  intro c hc
  have hm := (List.of_mem_zip hc).1
  simp only [exCmds, List.drop_succ_cons, List.drop_zero, List.mem_cons, List.not_mem_nil, or_false] at hm
  rcases hm with rfl | rfl | rfl | rfl | rfl <;> decide +kernel

end Bpak
