import Verif.Spec.MetaHistory
import Verif.Props.CliChanges
/-! The metadata after each command of a session. -/
namespace Bpak

/-- The metadata of the package in a file. -/
def MetaIs (H : HashFn) (f : Bytes) (s : List Entry) : Prop := ∃ h, Opens H f h ∧ (entries h).map shown = s

theorem saved_hdr {p q : Pkg} (i : Saved p) (j : Saved q) (h : p.file = q.file) : p.hdr = q.hdr := by
  rw [← i.2, ← j.2, h]

theorem opens_unique {H : HashFn} {f : Bytes} {h h' : Header} (a : Opens H f h) (b : Opens H f h') : h = h' := by
  unfold Opens at a b
  rw [a] at b
  have := (Prod.mk.inj b).2
  injection this

theorem MetaIs.of {H : HashFn} {p : Pkg} {l : List (U32 × Bytes)} (i : PkgInv H p l) {f : Bytes} (hf : p.file = f) {s : List Entry} (hs : (entries p.hdr).map shown = s) : MetaIs H f s := by
  subst hf
  exact ⟨p.hdr, i.open true, hs⟩

theorem shown_id (e : Entry) : (shown e).id = e.id := by unfold shown; split <;> rfl
theorem shown_ref (e : Entry) : (shown e).ref = e.ref := by unfold shown; split <;> rfl
theorem shown_len (e : Entry) : (shown e).data.length = e.data.length := by
  unfold shown
  split
  · simp only [List.length_append, List.length_take, List.length_replicate]; omega
  · rfl
theorem shown_other {e : Entry} (h : e.id ≠ idBpakTransport) : shown e = e := if_neg h

/-- One entry of the expected list. -/
theorem shown_split {s : List Entry} {pre post : List Entry} {e : Entry} (h : s.map shown = pre ++ e :: post) (ht : e.id ≠ idBpakTransport) :
    ∃ pre' post', s = pre' ++ e :: post' ∧ pre'.map shown = pre ∧ post'.map shown = post := by
  obtain ⟨a, b, rfl, h1, h2⟩ := List.map_eq_append_iff.1 h
  obtain ⟨x, post', rfl, h3, h4⟩ := List.map_eq_cons_iff.1 h2
  have : x.id ≠ idBpakTransport := by rw [← shown_id x, h3]; exact ht
  rw [shown_other this] at h3
  subst h3
  exact ⟨a, post', rfl, h1, h4⟩

theorem shown_filter (s : List Entry) (p : U32 → Bool) : (s.filter (fun e => p e.ref)).map shown = (s.map shown).filter (fun e => p e.ref) := by
  induction s with
  | nil => rfl
  | cons e s ih =>
    rw [List.map_cons]
    by_cases h : p e.ref = true
    · rw [List.filter_cons_of_pos (p := fun (e : Entry) => p e.ref) h, List.filter_cons_of_pos (p := fun (e : Entry) => p e.ref) (by rw [shown_ref]; exact h), List.map_cons, ih]
    · rw [List.filter_cons_of_neg (p := fun (e : Entry) => p e.ref) h, List.filter_cons_of_neg (p := fun (e : Entry) => p e.ref) (by rw [shown_ref]; exact h), ih]

/-- A header that header operations make. -/
theorem MetaIs.headers {H : HashFn} {p : Pkg} {l : List (U32 × Bytes)} (i : PkgInv H p l) (os : List Op) (hk : ∀ o ∈ os, o.keepsParts = true) (h' : Header) (hr : run p.hdr os = some h')
    (s : List Entry) (he : (entries h').map shown = s) : MetaIs H (fileWrite p.file 0 h'.image) s := by
  obtain ⟨p', a, b, c⟩ := i.headers os hk h' hr
  exact MetaIs.of c b (by rw [a]; exact he)

theorem addMeta_meta {H : HashFn} {p : Pkg} {l : List (U32 × Bytes)} (i : PkgInv H p l) (o : AddOpts) (d : Bytes) (he : Encodes o.source o.encoder d) (hid : bpakId o.name ≠ 0) (g : Bytes)
    (hok : addMetaCmd H p.file o = .ret (.ok, g)) : MetaIs H g ((entries p.hdr).map shown ++ [shown ⟨bpakId o.name, match o.ref with | none => 0 | some r => bpakId r, d⟩]) := by
  obtain ⟨us, k, im⟩ := i.hdr.metas
  obtain ⟨input, e1, e2, e3⟩ := encodes_input he
  generalize href : (match o.ref with | none => 0 | some r => bpakId r) = ref
  have href' : (o.ref.map bpakId).getD 0 = ref := by rw [← href]; cases o.ref <;> rfl
  have hcmd := addMetaCmd_open i o
  rw [e1] at hcmd
  simp only at hcmd
  rw [e2, href'] at hcmd
  simp only at hcmd
  have hsz : (BitVec.ofNat 16 d.length).toNat = d.length := by simp; omega
  have hlen := im.len
  have hcases := addMeta_cases im (bpakId o.name) ref (BitVec.ofNat 16 d.length)
  rw [hsz] at hcases
  have bad : ∀ e, (addMeta p.hdr (bpakId o.name) ref (BitVec.ofNat 16 d.length)).1 = e → e ≠ .ok → False := by
    intro e h1 h2
    rw [h1, if_pos h2, hok] at hcmd
    injection hcmd with hcmd
    exact h2 (Prod.mk.inj hcmd).1.symm
  obtain ⟨hx', h32, hroom⟩ : (¬ ∃ m ∈ us, m.id = bpakId o.name ∧ m.partRef = ref) ∧ us.length < 32 ∧ endOff 0 us + d.length ≤ 1920 := by
    rcases hcases with ⟨-, hc, -⟩ | ⟨-, -, hc, -⟩ | ⟨-, -, -, hc⟩ | ⟨h0, h1, h2, -⟩
    · exact (bad _ hc (by decide)).elim
    · exact (bad _ hc (by decide)).elim
    · exact (bad _ hc (by decide)).elim
    · exact ⟨h0, by omega, by omega⟩
  obtain ⟨m, a1, a2, a3, a4, a5, a6, im2⟩ := addMeta_ok_inv im (id := bpakId o.name) (ref := ref) (size := BitVec.ofNat 16 d.length) hid hx' (by omega)
    (by rw [hsz]; omega)
  have hms : d.length = m.size.toNat := by rw [a3, hsz]
  obtain ⟨md, w1, w2, w3⟩ := write_entries im2 d hms
  obtain ⟨g3, g4⟩ := getMeta_used im2 us [] m rfl
  rw [a6] at hcmd
  simp only [ne_eq, not_true_eq_false, if_false] at hcmd
  rw [g4] at hcmd
  simp only at hcmd
  simp only at w1
  rw [w1] at hcmd
  simp only at hcmd
  have hrun : run p.hdr [.addMeta (bpakId o.name) ref (BitVec.ofNat 16 d.length), .writeMeta m.id m.partRef d] =
      some { p.hdr with metas := us ++ m :: List.replicate (k-1) MetaHdr.zero, metadata := md } := by
    simp only [run, step]
    rw [if_neg hid, a6]
    simp only [true_or, if_true]
    rw [if_neg (by rw [a1]; exact hid), g3]
    simp only
    rw [g4]
    simp only
    rw [if_pos hms, w1]
  rw [hok] at hcmd
  injection hcmd with hcmd
  injection hcmd with _ hcmd
  rw [hcmd]
  refine MetaIs.headers i _ (by simp [Op.keepsParts]) _ hrun _ ?_
  have hsame : ∀ x, entOf { p.hdr with metas := us ++ m :: List.replicate (k-1) MetaHdr.zero } x = entOf p.hdr x := fun x => rfl
  rw [show entries { p.hdr with metas := us ++ m :: List.replicate (k-1) MetaHdr.zero, metadata := md } = _ from w3, List.map_congr_left (fun x _ => hsame x),
    ← entries_inv im, a1, a2, List.map_append]
  rfl

/-- `set --meta NAME` with a value or a text. -/
theorem set_text_meta {H : HashFn} {p : Pkg} {l : List (U32 × Bytes)} (i : PkgInv H p l) (o : SetOpts) (name text : Bytes) (pre post : List Entry) (e : Entry)
    (hs : entries p.hdr = pre ++ e :: post) (h1 : o.name = some name) (h2 : o.text = some text) (h3 : o.encoder = none) (h4 : e.id = bpakId name) (h5 : e.ref = 0) (g : Bytes)
    (hok : setCmd p.file o = .ret (.ok, g)) :
    (text.length + 1 ≤ e.data.length → MetaIs H g ((pre ++ { e with data := text ++ 0 :: List.replicate (e.data.length - text.length - 1) 0 } :: post).map shown)) ∧
    (e.data.length < text.length + 1 → (∀ x ∈ post, x.data.length ≤ roundUp8 e.data.length) → MetaIs H g ((pre ++ post ++ [{ e with data := text ++ [0] }]).map shown)) := by
  obtain ⟨us, k, im⟩ := i.hdr.metas
  obtain ⟨pre', m, post', rfl, rfl, rfl, rfl⟩ := entry_slot im hs
  have hl : (entOf p.hdr m).data.length = m.size.toNat := content_len im (by simp)
  rw [setCmd_open i o name text h1 h2, h3, setMeta_text im name text ⟨h4, h5⟩] at hok
  constructor
  · intro hfit
    rw [hl] at hfit ⊢
    obtain ⟨h', e1, e2, e3, e4⟩ := setText_fits im text hfit
    rw [e1] at hok
    simp only [decide_true, if_true] at hok
    injection hok with hok
    injection hok with _ hok
    rw [← hok]
    exact MetaIs.headers i _ (by simp [Op.keepsParts]) h' e2 _ (by rw [e4]; rfl)
  · intro hfit hpost
    rw [hl] at hfit hpost
    cases k with
    | zero =>
      exfalso
      have hub : setText p.hdr m text = .ub := by
        obtain ⟨g1, g2⟩ := getMeta_used im pre' post' m rfl
        unfold setText
        rw [if_pos (by omega), g1]
        simp only
        rw [delMeta_full p.hdr pre'.length (by
          have := im.slots
          rw [List.replicate_zero, List.append_nil] at this
          rw [this]; exact im.packed.ids)]
      rw [hub] at hok
      cases hok
    | succ k =>
      obtain ⟨a, b, c⟩ := setText_grows im text hfit
      by_cases c1 : ((pre' ++ post').map (fun x => roundUp8 x.size.toNat)).sum + (text.length + 1) % 65536 ≤ 1920
      · by_cases c2 : text.length + 1 < 65536
        · rw [Nat.mod_eq_of_lt c2] at c1
          obtain ⟨h', e1, e2, e3, e4⟩ := a c2 (by omega)
          rw [e1] at hok
          simp only [decide_true, if_true] at hok
          injection hok with hok
          injection hok with _ hok
          rw [← hok]
          refine MetaIs.headers i _ (by simp [Op.keepsParts]) h' e2 _ ?_
          have hp : post'.map (fun x => truncateTo (roundUp8 m.size.toNat) (entOf p.hdr x)) = post'.map (entOf p.hdr) := by
            apply List.map_congr_left
            intro x hx
            have := hpost (entOf p.hdr x) (List.mem_map.2 ⟨x, hx, rfl⟩)
            unfold truncateTo
            rw [List.take_of_length_le this, Nat.sub_eq_zero_of_le this]
            simp
          rw [e4, hp]
          rfl
        · rw [c (by omega) c1] at hok; cases hok
      · rw [b (by omega)] at hok
        cases hok

/-- `set --meta NAME` with an encoder. -/
theorem set_value_meta {H : HashFn} {p : Pkg} {l : List (U32 × Bytes)} (i : PkgInv H p l) (o : SetOpts) (name text : Bytes) (pre post : List Entry) (e : Entry)
    (hs : entries p.hdr = pre ++ e :: post) (h1 : o.name = some name) (h2 : o.text = some text) (h4 : e.id = bpakId name) (h5 : e.ref = 0) (g : Bytes)
    (hok : setCmd p.file o = .ret (.ok, g)) :
    (o.encoder = some (ascii "integer") → e.data.length = 8 → ∀ v, Spec.Integer text v → MetaIs H g ((pre ++ { e with data := Spec.leBytes 8 (v % 2^64).toNat } :: post).map shown)) ∧
    (o.encoder = some (ascii "id") → e.data.length = 4 → MetaIs H g ((pre ++ { e with data := Spec.leBytes 4 (bpakId text).toNat } :: post).map shown)) := by
  obtain ⟨us, k, im⟩ := i.hdr.metas
  obtain ⟨pre', m, post', rfl, rfl, rfl, rfl⟩ := entry_slot im hs
  have hl : (entOf p.hdr m).data.length = m.size.toNat := content_len im (by simp)
  rw [setCmd_open i o name text h1 h2] at hok
  constructor
  · intro h3 h8 v hv
    rw [hl] at h8
    rw [h3, (setMeta_enc im name text ⟨h4, h5⟩).1, if_neg (show ¬ m.size.toNat ≠ 8 by omega), strtolChecked_integer hv] at hok
    by_cases hc : -2^63 ≤ v ∧ v < 2^63
    · rw [if_pos hc] at hok
      simp only at hok
      obtain ⟨h', e1, e2, e3, e4⟩ := setMeta_value im (le64 (BitVec.ofInt 64 v)) (by rw [h8]; rfl)
      rw [e1] at hok
      simp only [decide_true, if_true] at hok
      injection hok with hok
      injection hok with _ hok
      rw [← hok]
      exact MetaIs.headers i _ (by simp [Op.keepsParts]) h' e2 _ (by rw [e4, le64_spec, BitVec.toNat_ofInt]; rfl)
    · rw [if_neg hc] at hok
      cases hok
  · intro h3 h8
    rw [hl] at h8
    rw [h3, (setMeta_enc im name text ⟨h4, h5⟩).2, if_neg (show ¬ m.size.toNat ≠ 4 by omega)] at hok
    obtain ⟨h', e1, e2, e3, e4⟩ := setMeta_value im (le32 (bpakId text)) (by rw [h8]; rfl)
    rw [e1] at hok
    simp only [decide_true, if_true] at hok
    injection hok with hok
    injection hok with _ hok
    rw [← hok]
    exact MetaIs.headers i _ (by simp [Op.keepsParts]) h' e2 _ (by rw [e4, le32_spec]; rfl)

theorem fits_sizes {h : Header} {us : List MetaHdr} {k : Nat} (im : MetaInv h us k) (sel : U32 → Bool) (hf : FitsBehind (fun e => sel e.ref) ((entries h).map shown)) : MetaSizesOk h sel := by
  unfold FitsBehind at hf
  rw [entries_inv im, List.pairwise_map, List.pairwise_map] at hf
  unfold MetaSizesOk
  rw [im.used]
  refine hf.imp_of_mem ?_
  intro a b ha hb hab hsel
  have := hab (by simp only [shown_ref]; exact hsel)
  rw [shown_len, shown_len] at this
  have ea : (entOf h a).data.length = a.size.toNat := content_len im ha
  have eb : (entOf h b).data.length = b.size.toNat := content_len im hb
  rw [ea, eb] at this
  unfold roundUp8 at this
  omega

/-- `delete`, when it succeeds. -/
theorem delete_meta {H : HashFn} (hH : HashLen H)
    {p p' : Pkg} {l l' : List (U32 × Bytes)} (i : PkgInv H p l) (i' : PkgInv H p' l') (part : Option Bytes) (all keep : Bool)
    (hok : deleteCmd H p.file part all keep = some (.ret (.ok, p'.file))) :
    (keep = true → entries p'.hdr = entries p.hdr) ∧
    (keep = false → all = true → MetaSizesOk p.hdr (fun r => r != 0) → entries p'.hdr = (entries p.hdr).filter (fun e => e.ref = 0)) ∧
    (keep = false → all = false → ∀ name, part = some name → MetaSizesOk p.hdr (fun r => r == idForNameOrRef name) → entries p'.hdr = (entries p.hdr).filter (fun e => e.ref ≠ idForNameOrRef name)) := by
  have i0 := i.logged []
  have same : ∀ q : Pkg, q.hdr.metas = p.hdr.metas → q.hdr.metadata = p.hdr.metadata → entries q.hdr = entries p.hdr := by
    intro q a b
    unfold entries usedMetas
    rw [a]
    unfold metaContent
    rw [b]
  unfold deleteCmd at hok
  simp only at hok
  by_cases c1 : (part.map idForNameOrRef).getD 0 = 0 ∧ all = false
  · rw [if_pos c1] at hok
    cases hok
  rw [if_neg c1, i.open] at hok
  simp only [ne_eq, not_true_eq_false, if_false] at hok
  cases all with
  | true =>
    simp only [if_true] at hok
    cases hq : deleteAllParts H 65 ⟨p.hdr, p.file, []⟩ (!keep) with
    | none => rw [hq] at hok; cases hok
    | some r =>
      cases r with
      | ub => rw [hq] at hok; cases hok
      | ret r =>
        obtain ⟨e1, q⟩ := r
        rw [hq] at hok
        simp only [Option.some.injEq] at hok
        obtain ⟨rfl, hqf⟩ := Prod.mk.inj (Out.ret.inj hok)
        by_cases hr : (!keep) = true → MetaRoom p.hdr (fun r => r != 0)
        · obtain ⟨p1, a1, a2, a3, a4, a5, a6, a7, a8, a9, a10⟩ := C47_delete_all H hH ⟨p.hdr, p.file, []⟩ i.good.wf i.good.kind i.small i.saved.1 (!keep) (fun h => ⟨i.metas, hr h⟩) 65 (by omega)
          rw [a1] at hq
          obtain rfl := (Prod.mk.inj (Out.ret.inj (Option.some.inj hq))).2
          have hh := saved_hdr a3 i'.saved hqf
          rw [← hh]
          refine ⟨fun h => ?_, fun h _ hm => ?_, fun _ h => by cases h⟩
          · obtain ⟨b1, b2⟩ := a9 (by rw [h]; rfl)
            exact same _ b1 b2
          · exact (a10 (by rw [h]; rfl)).2.2 hm
        · have hr : (!keep) = true ∧ ¬ MetaRoom p.hdr (fun r => r != 0) := by
            by_cases h : (!keep) = true
            · exact ⟨h, fun h2 => hr (fun _ => h2)⟩
            · exact absurd (fun h2 => absurd h2 h) hr
          obtain ⟨f1, m, f2, f3⟩ := no_room i.metas i.good.wf hr.2
          rw [hr.1, C47_full_table_is_false H ⟨p.hdr, p.file, []⟩ i.good.wf f1 ⟨m, f2, by simpa using f3⟩ 65 (by omega)] at hq
          cases hq
  | false =>
    cases part with
    | none => exact absurd ⟨rfl, rfl⟩ c1
    | some name =>
      have hid : idForNameOrRef name ≠ 0 := fun h => c1 ⟨h, rfl⟩
      simp only [Bool.false_eq_true, if_false, Option.map_some, Option.getD_some] at hok
      cases hq : deletePart H (p.file.length + 65) ⟨p.hdr, p.file, []⟩ (idForNameOrRef name) (!keep) with
      | none => rw [hq] at hok; cases hok
      | some r =>
        cases r with
        | ub => rw [hq] at hok; cases hok
        | ret r =>
          obtain ⟨e1, q⟩ := r
          rw [hq] at hok
          simp only [Option.some.injEq] at hok
          obtain ⟨rfl, hqf⟩ := Prod.mk.inj (Out.ret.inj hok)
          by_cases hx : ∃ x ∈ usedParts p.hdr, x.id = idForNameOrRef name
          · obtain ⟨x, x1, x2⟩ := hx
            by_cases hr : (!keep) = true → MetaRoom p.hdr (fun r => r == x.id)
            · obtain ⟨p1, a1, a2, a3, a4, a5, a6, a7, a8, a9, a10, -⟩ := C36_delete_part H hH ⟨p.hdr, p.file, []⟩ i0.good i.small x x1 (!keep) (fun h => ⟨i.metas, hr h⟩) (p.file.length + 65) (by simp only; omega)
              rw [x2, hq] at a1
              obtain rfl := (Prod.mk.inj (Out.ret.inj (Option.some.inj a1))).2
              have hh := saved_hdr a3 i'.saved hqf
              rw [← hh]
              refine ⟨fun h => ?_, (fun _ h => by cases h), fun h _ n hn hm => ?_⟩
              · obtain ⟨b1, b2⟩ := a9 (by rw [h]; rfl)
                exact same _ b1 b2
              · cases hn
                rw [x2] at a10
                exact (a10 (by rw [h]; rfl)).2.2 hm
            · have hr : (!keep) = true ∧ ¬ MetaRoom p.hdr (fun r => r == x.id) := by
                by_cases h : (!keep) = true
                · exact ⟨h, fun h2 => hr (fun _ => h2)⟩
                · exact absurd (fun h2 => absurd h2 h) hr
              obtain ⟨f1, m, f2, f3⟩ := no_room i.metas i.good.wf hr.2
              rw [hr.1, ← x2, C36_full_table_is_false H ⟨p.hdr, p.file, []⟩ i0.good i.small x x1 f1 ⟨m, f2, by simpa using f3⟩ (p.file.length + 65) (by omega)] at hq
              cases hq
          · rw [C36_not_found H ⟨p.hdr, p.file, []⟩ (idForNameOrRef name) (fun y hy h => hx ⟨y, by
              have hsl := (i.good.parts.inv i.good.wf).slots
              simp only at hy
              rw [hsl] at hy
              rcases List.mem_append.1 hy with hy | hy
              · exact hy
              · rw [List.eq_of_mem_replicate hy] at h
                exact absurd h.symm hid, h⟩)] at hq
            exact absurd (Prod.mk.inj (Out.ret.inj (Option.some.inj hq))).1 (by decide)

theorem written_hdr {H : HashFn} {p' : Pkg} {l' : List (U32 × Bytes)} (i' : PkgInv H p' l') (q : Pkg) (w : q.hdr.WF) (hf : (writeHeader q).file = p'.file) : p'.hdr = q.hdr := by
  rw [writeHeader_eq q w] at hf
  simp only at hf
  rw [← i'.saved.2, ← hf, List.take_left' (image_length w), parse_image w]

/-- A command that leaves the metadata alone. -/
theorem keeps_meta {SK PK : Type} {H : HashFn} (hH : HashLen H) (S : SigScheme SK PK) (hS : ∀ sk rnd k d, S.sign sk rnd k d ≠ .error .ok)
    {p p' : Pkg} {l l' : List (U32 × Bytes)} (i : PkgInv H p l) (i' : PkgInv H p' l') (c : Cmd SK) (hc : c.keepsMeta) (ha : Allowed H (some p.file) c)
    (hok : cmdStep H S (some p.file) c = some (.ok, some p'.file)) : entries p'.hdr = entries p.hdr := by
  have i0 := i.logged []
  have fin : ∀ {r : Out (Err × Bytes)}, (match r with | .ub => none | .ret (e, f') => some (e, some f')) = some (Err.ok, some p'.file) → r = .ret (.ok, p'.file) := by
    intro r h
    cases r with
    | ub => cases h
    | ret r =>
      obtain ⟨h1, h2⟩ := Prod.mk.inj (Option.some.inj h)
      rw [← h1, ← Option.some.inj h2]
  have file : ∀ (name d : Bytes) (b : Bool) (q : Pkg), bpakId name ≠ 0 → p.file.length + d.length + 512 < 2^63 →
      addFile H (d.length + 2) ⟨p.hdr, p.file, []⟩ (bpakId name) (if b then (1 : U8) else 0) d.length d = some (.ok, q) → q.file = p'.file → entries p'.hdr = entries p.hdr := by
    intro name d b q hid hsz hq hqf
    have hfl : (if b then (1 : U8) else 0) &&& 2 = 0 := by cases b <;> decide
    have hl := (i.good.parts.inv i.good.wf).len
    by_cases h1 : ∃ q ∈ usedParts p.hdr, q.id = bpakId name
    · rw [(C35_add_refused H ⟨p.hdr, p.file, []⟩ i0.good (bpakId name) _ _ d _).1 h1] at hq
      exact absurd (Prod.mk.inj (Option.some.inj hq)).1 (by decide)
    · have h1' : ∀ q ∈ usedParts p.hdr, q.id ≠ bpakId name := fun q hq e => h1 ⟨q, hq, e⟩
      by_cases h2 : (usedParts p.hdr).length = 32
      · rw [(C35_add_refused H ⟨p.hdr, p.file, []⟩ i0.good (bpakId name) _ _ d _).2 h1' h2] at hq
        exact absurd (Prod.mk.inj (Option.some.inj hq)).1 (by decide)
      · obtain ⟨p1, e1, -, e3, -, -, -, e7, -⟩ := C35_add_file H hH ⟨p.hdr, p.file, []⟩ i0.good (bpakId name) hid h1' (by show (usedParts p.hdr).length < 32; omega) _ hfl d hsz (d.length + 2) (by omega)
        rw [e1] at hq
        obtain rfl := (Prod.mk.inj (Option.some.inj hq)).2
        rw [← saved_hdr e3 i'.saved hqf, e7]
        rfl
  cases c with
  | create => cases hc
  | addMeta => cases hc
  | transportAdd => cases hc
  | delete part all keep =>
    simp only [cmdStep] at hok
    cases hd : deleteCmd H p.file part all keep with
    | none => rw [hd] at hok; cases hok
    | some r =>
      rw [hd] at hok
      have := fin (r := r) hok
      subst this
      exact (delete_meta hH i i' part all keep hd).1 hc
  | set o =>
    have hs := fin (r := setCmd p.file o) hok
    have hn : o.name = none := hc
    unfold setCmd at hs
    by_cases c1 : o.name = none ∧ o.keyId = none ∧ o.keystoreId = none
    · rw [if_pos c1] at hs
      have := (Prod.mk.inj (Out.ret.inj hs)).2
      rw [saved_hdr i'.saved i.saved this.symm]
    rw [if_neg c1, if_neg (fun h => h.2 hn), if_neg (by have := i.saved.1; omega)] at hs
    simp only [i.saved.2, i.valid, ne_eq, not_true_eq_false, if_false, hn] at hs
    obtain ⟨p1, q1, q2, q3⟩ := i.headers [.setKeyId ((o.keyId.map idForNameOrRef).getD p.hdr.keyId), .setKeystoreId ((o.keystoreId.map idForNameOrRef).getD p.hdr.keystoreId)]
      (by simp [Op.keepsParts]) _ rfl
    have hf : p1.file = p'.file := by
      rw [q2, ← (Prod.mk.inj (Out.ret.inj hs)).2]
      cases o.keyId <;> cases o.keystoreId <;> rfl
    rw [← saved_hdr q3.saved i'.saved hf, q1]
    rfl
  | signRaw sig =>
    have hg := fin (r := signRawCmd H p.file sig) hok
    unfold signRawCmd at hg
    rw [i.open] at hg
    simp only [ne_eq, not_true_eq_false, if_false, writeRawSignature] at hg
    split at hg
    · cases hg
    · rename_i q hq
      split at hq
      · cases hq
      · rename_i hl
        obtain ⟨-, rfl⟩ := Prod.mk.inj (Out.ret.inj hq)
        have hg := (Prod.mk.inj (Out.ret.inj hg)).2
        rw [written_hdr i' _ (withSig_wf i.good.wf _ (by omega) _) hg]
        rfl
  | sign key rnd =>
    have hs2 := Prod.mk.inj (Option.some.inj hok)
    have hcmd : signCmd H S p.file rnd key = ((pkgSign H S rnd key ⟨p.hdr, p.file, []⟩).1, (pkgSign H S rnd key ⟨p.hdr, p.file, []⟩).2.file) := by
      unfold signCmd
      rw [i.open]
      rfl
    rw [hcmd, pkgSign_eq H hH S rnd _ _ i0.good i.small] at hs2
    obtain ⟨n, hk⟩ := i.good.kind
    cases key with
    | error e2 => exact absurd (congrArg Except.error hs2.1) ha
    | ok sk =>
      simp only at hs2
      split at hs2
      · rename_i e hx
        exact absurd (by rw [← hs2.1]; exact hx) (hS _ _ _ _)
      · split at hs2
        · exact absurd (show Err.signFail = Err.ok from hs2.1) (by decide)
        · have wf := withPayloadHash_wf H hH _ i.good.wf p.file n hk
          rw [written_hdr i' _ (withSig_wf wf _ (by omega) _) (Option.some.inj hs2.2)]
          rfl
  | addPart name dontHash enc src key salt =>
    obtain ⟨hid, hroom⟩ := ha
    simp only [cmdStep] at hok
    cases hd : addPartCmd H p.file name dontHash enc src key salt with
    | none => rw [hd] at hok; cases hok
    | some r =>
      rw [hd] at hok
      have := fin (r := r) hok
      subst this
      unfold addPartCmd at hd
      rw [i.open] at hd
      simp only [ne_eq, not_true_eq_false, if_false] at hd
      cases src with
      | none => cases hd
      | some d =>
        obtain ⟨hsz, hkey, htree⟩ := hroom p.file d rfl rfl
        simp only at hd
        cases enc with
        | none =>
          simp only at hd
          split at hd
          · cases hd
          · rename_i e1 q hq
            obtain ⟨rfl, hqf⟩ := Prod.mk.inj (Out.ret.inj (Option.some.inj hd))
            exact file name d dontHash q hid hsz hq hqf
        | some enc =>
          have hk : enc = ascii "key" := hc
          simp only at hd
          rw [if_pos hk] at hd
          subst hk
          obtain ⟨k1, k2⟩ := hkey rfl
          cases key with
          | error e0 =>
            have hc := Prod.mk.inj (Out.ret.inj (Option.some.inj hd))
            exact absurd (congrArg Except.error hc.1) k1
          | ok k =>
            have hfl : (if dontHash then (1 : U8) else 0) &&& 2 = 0 := by cases dontHash <;> decide
            cases hq : addKey H ⟨p.hdr, p.file, []⟩ (bpakId name) (if dontHash then (1 : U8) else 0) (.ok k) with
            | ub => rw [hq] at hd; cases hd
            | ret r =>
              obtain ⟨e1, q⟩ := r
              rw [hq] at hd
              simp only [Option.some.injEq] at hd
              obtain ⟨rfl, hqf⟩ := Prod.mk.inj (Out.ret.inj hd)
              obtain ⟨q', w1, -, w2⟩ := key_step hH i0 (bpakId name) hid _ hfl k (k2 k rfl) .ok q hq
              exact file name k dontHash q' hid (k2 k rfl) w1 (by rw [← w2]; exact hqf)

end Bpak
