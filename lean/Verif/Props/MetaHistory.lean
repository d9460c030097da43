import Verif.Proof.MetaHistory
import Verif.Props.Names
import Verif.Props.LinesOut
/-! The metadata of a package is what the commands of the session put there (C115). -/
namespace Bpak

theorem session_snoc {SK PK : Type} {H : HashFn} {S : SigScheme SK PK} {t : List (Cmd SK × Err)} {c : Cmd SK} {e : Err} {f' : Option Bytes} (h : Session H S (t ++ [(c, e)]) f') :
    ∃ f, Session H S t f ∧ Allowed H f c ∧ cmdStep H S f c = some (e, f') ∧ (c.isTree = true → e = .ok) := by
  generalize hu : t ++ [(c, e)] = u at h
  cases h with
  | start => simp at hu
  | @run t' f _ c' e' a b d g =>
    obtain ⟨rfl, h2⟩ := List.append_inj' hu rfl
    obtain ⟨rfl, rfl⟩ := Prod.mk.inj (List.cons.inj h2).1
    exact ⟨f, a, b, d, g⟩

/-- What the induction shows: without a file no metadata is expected. -/
def MetaOf (H : HashFn) : Option Bytes → List Entry → Prop
  | none, s => s = []
  | some f, s => MetaIs H f s

/-- A command that succeeds, other than `create`: there was a package and there is one. -/
theorem live {SK PK : Type} {H : HashFn} (hH : HashLen H) (S : SigScheme SK PK) (hS : ∀ sk rnd k d, S.sign sk rnd k d ≠ .error .ok) {t : List (Cmd SK × Err)} {s : List Entry}
    (ih : ∀ f, Session H S t f → MetaOf H f s) {c : Cmd SK} (hc : ∀ a b d e, c ≠ .create a b d e) {f' : Option Bytes} (h : Session H S (t ++ [(c, .ok)]) f') :
    ∃ p l p' l', Session H S t (some p.file) ∧ PkgInv H p l ∧ (entries p.hdr).map shown = s ∧ PkgInv H p' l' ∧ f' = some p'.file ∧ Allowed H (some p.file) c ∧
      cmdStep H S (some p.file) c = some (.ok, some p'.file) := by
  obtain ⟨f, h1, h2, h3, h4⟩ := session_snoc h
  rcases session_inv hH S hS h1 with ⟨rfl, -⟩ | ⟨p, rfl, i⟩
  · rw [cmdStep_none H S c hc] at h3
    exact absurd (Prod.mk.inj (Option.some.inj h3)).1 (by decide)
  · obtain ⟨p', rfl, i', -⟩ := cmd_step hH S hS i c h2 .ok f' h3 h4
    obtain ⟨hd, o, e⟩ := ih _ h1
    have := opens_unique o (i.open true)
    subst this
    exact ⟨p, _, p', _, h1, i, e, i', rfl, h2, h3⟩

theorem shown_data {e : Entry} {d : Bytes} (h : e.id ≠ idBpakTransport) : shown { e with data := d } = { e with data := d } := if_neg h

theorem out_ok {r : Out (Err × Bytes)} {g : Bytes} (h : (match r with | .ub => none | .ret (e, f') => some (e, some f')) = some (Err.ok, some g)) : r = .ret (.ok, g) := by
  cases r with
  | ub => cases h
  | ret r =>
    obtain ⟨h1, h2⟩ := Prod.mk.inj (Option.some.inj h)
    rw [← h1, ← Option.some.inj h2]

theorem bind_ok {r : Option (Out (Err × Bytes))} {g : Bytes} (h : r.bind (fun r => match r with | .ub => none | .ret (e, f') => some (e, some f')) = some (Err.ok, some g)) : r = some (.ret (.ok, g)) := by
  cases r with
  | none => cases h
  | some r => rw [out_ok h]

theorem meta_session {SK PK : Type} {H : HashFn} (hH : HashLen H) (S : SigScheme SK PK) (hS : ∀ sk rnd k d, S.sign sk rnd k d ≠ .error .ok)
    {t : List (Cmd SK × Err)} {s : List Entry} (hm : MetaHistory H t s) : ∀ f, Session H S t f → MetaOf H f s := by
  induction hm with
  | start =>
    intro f h
    rcases session_inv hH S hS h with ⟨rfl, -⟩ | ⟨p, rfl, i⟩
    · rfl
    · generalize hu : ([] : List (Cmd SK × Err)) = u at h
      generalize hv : some p.file = v at h
      cases h with
      | start => cases hv
      | run => simp at hu
  | @failed t s c e hm he ih =>
    intro f' h
    obtain ⟨f, h1, h2, h3, h4⟩ := session_snoc h
    have : f' = f := by
      refine C84_failed_command_changes_nothing H hH S hS t f f' h1 c h2 e h3 he ?_
      cases hc : c.isTree with
      | false => rfl
      | true => exact absurd (h4 hc) he
    rw [this]
    exact ih f h1
  | @created t s a b c d hm ih =>
    intro f' h
    obtain ⟨f, h1, h2, h3, h4⟩ := session_snoc h
    have h3 : createCmd H f a b c d = (.ok, f') := by
      cases f <;> exact Option.some.inj h3
    by_cases hk : (∃ k, Named hashNames 1 a k) ∧ (∃ k, Named signatureNames 2 b k) ∧ (f = none ∨ c = true ∨ d = 89)
    · obtain ⟨⟨hk, h5⟩, ⟨sk, h6⟩, h7⟩ := hk
      obtain ⟨p, a1, -, ⟨l, a3⟩, -, -, a6, -⟩ := C79_create H hH S f a b c d hk sk h5 h6 h7
      rw [a1] at h3
      obtain rfl := (Prod.mk.inj h3).2
      rcases session_inv hH S hS h with ⟨hn, -⟩ | ⟨p', hf, i'⟩
      · cases hn
      · have hf := Option.some.inj hf
        have ho := i'.open true
        rw [← hf, a3] at ho
        have hh : p.hdr = p'.hdr := by
          have := (Prod.mk.inj ho).2
          injection this
        refine MetaIs.of i' hf.symm ?_
        unfold entries
        rw [← hh, a6]
        rfl
    · obtain ⟨e', g1, g2⟩ := C79_create_refused H f a b c d (by
        by_cases k1 : ∃ k, Named hashNames 1 a k
        · by_cases k2 : ∃ k, Named signatureNames 2 b k
          · refine Or.inr (Or.inr ⟨fun h => hk ⟨k1, k2, Or.inl h⟩, ?_, fun h => hk ⟨k1, k2, Or.inr (Or.inr h)⟩⟩)
            cases hc : c with
            | false => rfl
            | true => exact absurd ⟨k1, k2, Or.inr (Or.inl hc)⟩ hk
          · exact Or.inr (Or.inl (fun k h => k2 ⟨k, h⟩))
        · exact Or.inl (fun k h => k1 ⟨k, h⟩))
      rw [g2] at h3
      exact absurd (Prod.mk.inj h3).1 g1
  | @kept t s c hm hc ih =>
    intro f' h
    obtain ⟨p, l, p', l', -, i, es, i', rfl, ha, hs⟩ := live hH S hS ih (by rintro a b d e rfl; exact hc) h
    exact MetaIs.of i' rfl (by rw [keeps_meta hH S hS i i' c hc ha hs, es])
  | @added t s o d hm he ih =>
    intro f' h
    obtain ⟨p, l, p', l', -, i, es, i', rfl, ha, hs⟩ := live hH S hS ih (by intro a b d e h; cases h) h
    have := addMeta_meta i o d he ha p'.file (out_ok hs)
    rw [es] at this
    exact this
  | @tree t s name dontHash d key salt hm ih =>
    intro f' h
    obtain ⟨p, l, p', l', h1, i, es, i', rfl, ha, hs⟩ := live hH S hS ih (by intro a b d e h; cases h) h
    obtain ⟨h0, h', o1, o2, -, e2, -⟩ := C86_add_part_with_tree H hH S hS t p.file p'.file h1 name d salt dontHash key ha (bind_ok hs)
    refine ⟨h', o2, ?_⟩
    rw [e2, opens_unique o1 (i.open true), List.map_append, es]
    rfl
  | @transport t s part enc dec hm ih =>
    intro f' h
    obtain ⟨p, l, p', l', h1, i, es, i', rfl, ha, hs⟩ := live hH S hS ih (by intro a b d e h; cases h) h
    have hs := out_ok (r := transportAddCmd H p.file part enc dec) hs
    generalize href : (match part with | none => 0 | some n => idForNameOrRef n) = ref
    obtain ⟨h0, o1, hc⟩ := C88_transport_add H hH S hS t p.file h1 part enc dec ref href.symm
    split at hc
    · rw [hs] at hc; exact absurd (Prod.mk.inj (Out.ret.inj hc)).1 (by decide)
    split at hc
    · rw [hs] at hc; exact absurd (Prod.mk.inj (Out.ret.inj hc)).1 (by decide)
    obtain ⟨f1, h', d, r1, r2, r3, r4, -⟩ := hc
    rw [hs] at r1
    obtain rfl := (Prod.mk.inj (Out.ret.inj r1)).2
    refine ⟨h', r2, ?_⟩
    rw [r4, opens_unique o1 (i.open true), List.map_append, es]
    congr 1
    have e8 : (le32 (bpakId enc) ++ le32 (bpakId dec)).length = 8 := rfl
    simp only [List.map_cons, List.map_nil, shown, if_true]
    rw [List.take_left' e8, List.length_append, e8, r3, ← href]
    rfl
  | @text t pre e post o name text hm h1 h2 h3 h4 h5 h6 h7 ih =>
    intro f' h
    obtain ⟨p, l, p', l', -, i, es, i', rfl, ha, hs⟩ := live hH S hS ih (by intro a b d e h; cases h) h
    obtain ⟨pre', post', e1, rfl, rfl⟩ := shown_split es h6
    have := (set_text_meta i o name text pre' post' e e1 h1 h2 h3 h4 h5 p'.file (out_ok hs)).1 h7
    rw [List.map_append, List.map_cons, shown_data h6] at this
    exact this
  | @grown t pre e post o name text hm h1 h2 h3 h4 h5 h6 h7 h8 ih =>
    intro f' h
    obtain ⟨p, l, p', l', -, i, es, i', rfl, ha, hs⟩ := live hH S hS ih (by intro a b d e h; cases h) h
    obtain ⟨pre', post', e1, rfl, rfl⟩ := shown_split es h6
    have := (set_text_meta i o name text pre' post' e e1 h1 h2 h3 h4 h5 p'.file (out_ok hs)).2 h7 (by
      intro x hx
      have := h8 (shown x) (List.mem_map_of_mem hx)
      rwa [shown_len] at this)
    rw [List.map_append, List.map_append, List.map_cons, List.map_nil, shown_data h6] at this
    exact this
  | @integer t pre e post o name text v hm h1 h2 h3 h4 h5 h6 h7 h8 ih =>
    intro f' h
    obtain ⟨p, l, p', l', -, i, es, i', rfl, ha, hs⟩ := live hH S hS ih (by intro a b d e h; cases h) h
    obtain ⟨pre', post', e1, rfl, rfl⟩ := shown_split es h6
    have := (set_value_meta i o name text pre' post' e e1 h1 h2 h4 h5 p'.file (out_ok hs)).1 h3 h7 v h8
    rw [List.map_append, List.map_cons, shown_data h6] at this
    exact this
  | @id t pre e post o name text hm h1 h2 h3 h4 h5 h6 h7 ih =>
    intro f' h
    obtain ⟨p, l, p', l', -, i, es, i', rfl, ha, hs⟩ := live hH S hS ih (by intro a b d e h; cases h) h
    obtain ⟨pre', post', e1, rfl, rfl⟩ := shown_split es h6
    have := (set_value_meta i o name text pre' post' e e1 h1 h2 h4 h5 p'.file (out_ok hs)).2 h3 h7
    rw [List.map_append, List.map_cons, shown_data h6] at this
    exact this
  | @deleted t s name hm hf ih =>
    intro f' h
    obtain ⟨p, l, p', l', -, i, es, i', rfl, ha, hs⟩ := live hH S hS ih (by intro a b d e h; cases h) h
    obtain ⟨us, k, im⟩ := i.hdr.metas
    subst es
    have := (delete_meta hH i i' (some name) false false (bind_ok hs)).2.2 rfl rfl name rfl (fits_sizes im (fun r => r == idForNameOrRef name) hf)
    exact MetaIs.of i' rfl (by rw [this]; exact shown_filter _ (fun r => decide (r ≠ idForNameOrRef name)))
  | @deletedAll t s part hm hf ih =>
    intro f' h
    obtain ⟨p, l, p', l', -, i, es, i', rfl, ha, hs⟩ := live hH S hS ih (by intro a b d e h; cases h) h
    obtain ⟨us, k, im⟩ := i.hdr.metas
    subst es
    have hsz : MetaSizesOk p.hdr (fun r => r != 0) := fits_sizes im (fun r => r != 0) (by
      unfold FitsBehind at hf ⊢
      refine hf.imp ?_
      intro a b hab h
      exact hab (by simpa using h))
    have := (delete_meta hH i i' part true false (bind_ok hs)).2.1 rfl rfl hsz
    exact MetaIs.of i' rfl (by rw [this]; exact shown_filter _ (fun r => decide (r = 0)))

/-- C115: after a session of any length, with any number of failing commands, the package has exactly the metadata entries that its
commands put there, in their order: the entries added, those of the parts with a hash tree and of transport, with the values set since, and
without those of the deleted parts. -/
theorem C115_metadata {SK PK : Type} (H : HashFn) (hH : HashLen H) (S : SigScheme SK PK) (hS : ∀ sk rnd k d, S.sign sk rnd k d ≠ .error .ok)
    (t : List (Cmd SK × Err)) (f : Bytes) (hse : Session H S t (some f)) (s : List Entry) (hm : MetaHistory H t s) :
    ∃ h, pkgOpen H true f = (.ok, ⟨h, f, []⟩) ∧ (entries h).map shown = s := meta_session hH S hS hm _ hse

/-- C115: and `bpak extract --meta NAME [--part-ref REF]` delivers the data the user expects, or reports that there is no such entry. -/
theorem C115_extract {SK PK : Type} (H : HashFn) (hH : HashLen H) (S : SigScheme SK PK) (hS : ∀ sk rnd k d, S.sign sk rnd k d ≠ .error .ok)
    (t : List (Cmd SK × Err)) (f : Bytes) (hse : Session H S t (some f)) (s : List Entry) (hm : MetaHistory H t s)
    (name : Bytes) (ref : Option Bytes) (rid : U32) (hn : idForNameOrRef name ≠ 0) (hr : rid = match ref with | none => 0 | some r => idForNameOrRef r) :
    (∀ e ∈ s, e.id = idForNameOrRef name → e.ref = rid → ∃ d, extractCmd H f none (some name) ref = .ret (.ok, some d) ∧ d.length = e.data.length ∧
      (e.id ≠ idBpakTransport → d = e.data) ∧ d.take 8 = e.data.take 8) ∧
    ((∀ e ∈ s, ¬ (e.id = idForNameOrRef name ∧ e.ref = rid)) → extractCmd H f none (some name) ref = .ret (.notFound, none)) := by
  obtain ⟨h, o, es⟩ := C115_metadata H hH S hS t f hse s hm
  obtain ⟨h', o', hx⟩ := C85_extract_meta H hH S hS t f hse
  have hh := opens_unique o o'
  subst hh
  obtain ⟨x1, x2⟩ := hx name ref rid hn hr
  subst es
  constructor
  · intro e he h1 h2
    obtain ⟨a, ha, rfl⟩ := List.mem_map.1 he
    rw [shown_id] at h1
    rw [shown_ref] at h2
    refine ⟨a.data, x1 a ha h1 h2, (shown_len a).symm, ?_, ?_⟩
    · intro ht
      rw [shown_id] at ht
      rw [shown_other ht]
    · unfold shown
      split
      · by_cases hl : 8 ≤ a.data.length
        · simp only
          rw [List.take_append_of_le_length (by rw [List.length_take]; omega), List.take_take, Nat.min_self]
        · simp only
          rw [Nat.sub_eq_zero_of_le (by omega), List.replicate_zero, List.append_nil, List.take_take, Nat.min_self]
      · rfl
  · intro hno
    refine x2 ?_
    intro a ha hc
    exact hno (shown a) (List.mem_map_of_mem ha) (by rw [shown_id, shown_ref]; exact hc)

/-! ### Command lines -/

theorem MetaHistory.failing {SK : Type} {H : HashFn} {t : List (Cmd SK × Err)} {s : List Entry} (h : MetaHistory H t s) : ∀ v : List (Cmd SK × Err), (∀ x ∈ v, x.2 ≠ .ok) → MetaHistory H (t ++ v) s := by
  intro v
  induction v generalizing t with
  | nil => intro _; rw [List.append_nil]; exact h
  | cons x v ih =>
    intro hv
    have := ih (.failed x.1 x.2 h (hv x (by simp))) (fun y hy => hv y (by simp [hy]))
    simpa using this

/-- Only the successful commands count. -/
theorem MetaHistory.successes {SK : Type} {H : HashFn} {t : List (Cmd SK × Err)} {s : List Entry} (h : MetaHistory H t s) :
    ∀ t', t'.filter (fun x => decide (x.2 = .ok)) = t.filter (fun x => decide (x.2 = .ok)) → MetaHistory H t' s := by
  have step : ∀ {t : List (Cmd SK × Err)} {c : Cmd SK} {s' : List Entry}, (∀ u, u.filter (fun x => decide (x.2 = .ok)) = t.filter (fun x => decide (x.2 = .ok)) → MetaHistory H (u ++ [(c, .ok)]) s') →
      ∀ t', t'.filter (fun x => decide (x.2 = .ok)) = (t ++ [(c, Err.ok)]).filter (fun x => decide (x.2 = Err.ok)) → MetaHistory H t' s' := by
    intro t c s' hu t' ht
    rw [List.filter_append] at ht
    obtain ⟨u, v, rfl, h1, h2⟩ := List.filter_eq_append_iff.1 ht
    rw [List.filter_cons_of_pos (by simp), List.filter_nil] at h2
    obtain ⟨l1, l2, rfl, h3, h4, h5⟩ := List.filter_eq_cons_iff.1 h2
    have := (hu (u ++ l1) (by rw [List.filter_append, h1, List.filter_eq_nil_iff.2 (show ∀ x ∈ l1, _ from fun x hx => by simpa using h3 x hx), List.append_nil])).failing l2 (fun x hx => by
      have := List.filter_eq_nil_iff.1 h5 x hx
      simpa using this)
    simpa using this
  induction h with
  | start =>
    intro t' ht
    have := (MetaHistory.start (SK := SK) (H := H)).failing t' (fun x hx => by
      have := List.filter_eq_nil_iff.1 ht x hx
      simpa using this)
    simpa using this
  | failed c e _ he ih =>
    intro t' ht
    rw [List.filter_append, List.filter_cons_of_neg (by simpa using he), List.filter_nil, List.append_nil] at ht
    exact ih t' ht
  | created a b c d _ ih => exact step (fun u hu => .created a b c d (ih u hu))
  | kept c _ hc ih => exact step (fun u hu => .kept c (ih u hu) hc)
  | added o d _ he ih => exact step (fun u hu => .added o d (ih u hu) he)
  | tree name dontHash d key salt _ ih => exact step (fun u hu => .tree name dontHash d key salt (ih u hu))
  | transport part enc dec _ ih => exact step (fun u hu => .transport part enc dec (ih u hu))
  | text o name text _ h1 h2 h3 h4 h5 h6 h7 ih => exact step (fun u hu => .text o name text (ih u hu) h1 h2 h3 h4 h5 h6 h7)
  | grown o name text _ h1 h2 h3 h4 h5 h6 h7 h8 ih => exact step (fun u hu => .grown o name text (ih u hu) h1 h2 h3 h4 h5 h6 h7 h8)
  | integer o name text v _ h1 h2 h3 h4 h5 h6 h7 h8 ih => exact step (fun u hu => .integer o name text v (ih u hu) h1 h2 h3 h4 h5 h6 h7 h8)
  | id o name text _ h1 h2 h3 h4 h5 h6 h7 ih => exact step (fun u hu => .id o name text (ih u hu) h1 h2 h3 h4 h5 h6 h7)
  | deleted name _ hf ih => exact step (fun u hu => .deleted name (ih u hu) hf)
  | deletedAll part _ hf ih => exact step (fun u hu => .deletedAll part (ih u hu) hf)

/-- C115 for the program itself: after any sequence of command lines on a package, `bpak extract -m NAME [-r REF]` prints the data the user
expects under that name (or puts it in the file of `-o`) and exits with 0; if no entry is expected it exits with the status of "not found". -/
theorem C115_extract_line [LzmaLib] (H : HashFn) (hH : HashLen H) (M : Mbed) (path f : Bytes) (t : List (Cmd Key × Err)) (w : World) (h : Lines H M path t w) (hf : w path = some f)
    (s : List Entry) (hm : MetaHistory H t s) (env : Env) (he : env.H = H) (args : List Bytes) (hc : Clean "extract" args) (hp : (getopt extractTable args).2.head? = some path)
    (ho : lastArg 'o' (getopt extractTable args).1 ≠ some path) (name : Bytes) (hn : lastArg 'm' (getopt extractTable args).1 = some name) (hn0 : idForNameOrRef name ≠ 0)
    (hpt : lastArg 'p' (getopt extractTable args).1 = none) (rid : U32)
    (hr : rid = match lastArg 'r' (getopt extractTable args).1 with | none => 0 | some r => idForNameOrRef r) :
    (∀ e ∈ s, e.id = idForNameOrRef name → e.ref = rid → e.id ≠ idBpakTransport → bpakMain env w (ascii "extract" :: args) = match lastArg 'o' (getopt extractTable args).1 with
        | none => .exit .ok (.bytes e.data) w
        | some out => .exit .ok .nothing (w.put out (some e.data))) ∧
    ((∀ e ∈ s, ¬ (e.id = idForNameOrRef name ∧ e.ref = rid)) → bpakMain env w (ascii "extract" :: args) = .exit .notFound .nothing w) := by
  subst he
  obtain ⟨t', hs, ht, -⟩ := C111_lines_are_a_session env.H hH M path t w h
  rw [hf] at hs
  obtain ⟨hdr, hl, -⟩ := C111_contents env.H hH M path f t w h hf
  obtain ⟨x1, x2⟩ := C115_extract env.H hH (mbedScheme M) (mbed_sign_err M) t' f hs s (hm.successes t' ht) name (lastArg 'r' (getopt extractTable args).1) rid hn0 hr
  have hx := C113_extract_line env w path f args hc hp hf hl ho
  simp only [hn, hpt] at hx
  rw [hx]
  constructor
  · intro e he h1 h2 h3
    obtain ⟨d, e1, -, e3, -⟩ := x1 e he h1 h2
    rw [e1, ← e3 h3]
    simp only
    cases lastArg 'o' (getopt extractTable args).1 <;> rfl
  · intro hno
    rw [x2 hno]

end Bpak
