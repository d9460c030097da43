import Verif.Spec.Resource

/-!
# Reasoning about traces

A triple `Runs over l L m Q`: from any state whose trace is clean and has exactly the resources `L` open, `m` ends in such a
state too, with resources for which `Q` holds.
-/

namespace Bpak.Res

open Bpak.Spec

/-- The trace so far is clean, and `L` are the resources that are held. -/
structure Inv (over : Bool) (s : St) (L : List (Nat × Kind)) : Prop where
  clean : Clean over s.log
  held : ∀ n k, (n, k) ∈ L ↔ Left s.log n k
  fresh : ∀ n k, .got n k ∈ s.log → n < s.next
  nodup : (L.map Prod.fst).Nodup
  back : ∀ n k, .gave n k ∈ s.log → n < s.next

theorem clean_snoc {over : Bool} {t : List Ev} {e : Ev} (h : Clean over t) (he : InOrder over t e) :
    Clean over (t ++ [e]) := by
  intro i hi
  by_cases hlt : i < t.length
  · rw [List.take_append_of_le_length (by omega), List.getElem_append_left hlt]
    exact h i hlt
  · have hi' : i = t.length := by simp only [List.length_append, List.length_cons, List.length_nil] at hi; omega
    subst hi'
    simpa using he

/-- The triple. -/
def Runs {α : Type} (over : Bool) (l : Luck) (L : List (Nat × Kind)) (m : M α) (Q : α → List (Nat × Kind) → Prop) : Prop :=
  ∀ s, Inv over s L → ∃ L', Inv over (m l s).2 L' ∧ Q (m l s).1 L'

section rules
variable {α β : Type} {over : Bool} {l : Luck} {L : List (Nat × Kind)} {Q : β → List (Nat × Kind) → Prop}

theorem Runs.mono {m : M β} {R : β → List (Nat × Kind) → Prop} (h : Runs over l L m R) (hR : ∀ b L', R b L' → Q b L') :
    Runs over l L m Q := by
  intro s hs
  obtain ⟨L', h1, h2⟩ := h s hs
  exact ⟨L', h1, hR _ _ h2⟩

theorem Runs.pure {b : β} (h : Q b L) : Runs over l L (pure b) Q := fun s hs => ⟨L, hs, h⟩

theorem Runs.bind {m : M α} {f : α → M β} {R : α → List (Nat × Kind) → Prop} (hm : Runs over l L m R)
    (hf : ∀ a L', R a L' → Runs over l L' (f a) Q) : Runs over l L (m >>= f) Q := by
  intro s hs
  obtain ⟨L', h1, h2⟩ := hm s hs
  exact hf _ _ h2 _ h1

theorem Runs.assoc {γ : Type} {m : M α} {f : α → M γ} {g : γ → M β}
    (h : Runs over l L (m >>= fun a => f a >>= g) Q) : Runs over l L ((m >>= f) >>= g) Q := h

theorem Runs.pure_bind {a : α} {f : α → M β} (h : Runs over l L (f a) Q) :
    Runs over l L ((Pure.pure a : M α) >>= f) Q := h

theorem Inv.calls {s : St} (h : Inv over s L) (c : Nat) : Inv over { s with calls := c } L :=
  ⟨h.clean, h.held, h.fresh, h.nodup, h.back⟩

theorem Runs.ask {f : Bool → M β} (h : ∀ b, Runs over l L (f b) Q) : Runs over l L (Res.ask >>= f) Q :=
  fun s hs => h (l.io s.calls) _ (hs.calls _)

theorem Runs.ask_tail {Q : Bool → List (Nat × Kind) → Prop} (h : ∀ b, Q b L) : Runs over l L Res.ask Q :=
  fun s hs => ⟨L, hs.calls _, h _⟩

theorem Inv.got {s : St} (h : Inv over s L) (k : Kind) :
    (∀ x ∈ L, x.1 ≠ s.next) ∧
      Inv over { s with next := s.next + 1, log := s.log ++ [.got s.next k] } ((s.next, k) :: L) := by
  have hne : ∀ x ∈ L, x.1 ≠ s.next := by
    intro x hx
    have := h.fresh x.1 x.2 ((h.held x.1 x.2).1 hx).1
    omega
  refine ⟨hne, ?_, ?_, ?_, ?_, ?_⟩
  · refine clean_snoc h.clean fun k' hk => ?_
    have := h.fresh _ _ hk
    omega
  · intro n k'
    constructor
    · intro hm
      rcases List.mem_cons.1 hm with he | hm
      · obtain ⟨rfl, rfl⟩ := Prod.mk.inj he
        refine ⟨by simp, fun k'' hk => ?_⟩
        have hk : Ev.gave s.next k'' ∈ s.log := by simpa using hk
        have := h.back _ _ hk
        omega
      · obtain ⟨h1, h2⟩ := (h.held _ _).1 hm
        exact ⟨by simp [h1], fun k'' hk => h2 k'' (by simpa using hk)⟩
    · intro ⟨h1, h2⟩
      have h1 : Ev.got n k' ∈ s.log ∨ n = s.next ∧ k' = k := by simpa using h1
      rcases h1 with h1 | ⟨rfl, rfl⟩
      · exact List.mem_cons_of_mem _ ((h.held _ _).2 ⟨h1, fun k'' hk => h2 k'' (by simp [hk])⟩)
      · exact List.mem_cons_self
  · intro n k' hm
    have hm : Ev.got n k' ∈ s.log ∨ n = s.next ∧ k' = k := by simpa using hm
    rcases hm with hm | ⟨rfl, _⟩
    · have := h.fresh _ _ hm
      show n < s.next + 1
      omega
    · show s.next < s.next + 1
      omega
  · simp only [List.map_cons, List.nodup_cons]
    refine ⟨fun hm => ?_, h.nodup⟩
    obtain ⟨x, hx, he⟩ := List.mem_map.1 hm
    exact hne x hx he
  · intro n k' hm
    have hm : Ev.gave n k' ∈ s.log := by simpa using hm
    have := h.back _ _ hm
    show n < s.next + 1
    omega

theorem Runs.start {k : Kind} {f : Ptr → M β}
    (h : ∀ n, (∀ x ∈ L, x.1 ≠ n) → Runs over l ((n, k) :: L) (f (.to n)) Q) :
    Runs over l L (Res.start k >>= f) Q := by
  intro s hs
  obtain ⟨h1, h2⟩ := hs.got k
  exact h s.next h1 _ h2

theorem Runs.take {k : Kind} {f : Ptr → M β} (h0 : Runs over l L (f .null) Q)
    (h : ∀ n, (∀ x ∈ L, x.1 ≠ n) → Runs over l ((n, k) :: L) (f (.to n)) Q) :
    Runs over l L (Res.take k >>= f) Q := by
  refine Runs.assoc (Runs.ask fun b => ?_)
  cases b with
  | false => exact Runs.pure_bind h0
  | true => exact Runs.start h

theorem Runs.alloc {k : Kind} {f : Ptr → M β} (h0 : (∀ i, l.mem i = true) ∨ Runs over l L (f .null) Q)
    (h : ∀ n, (∀ x ∈ L, x.1 ≠ n) → Runs over l ((n, k) :: L) (f (.to n)) Q) :
    Runs over l L (Res.alloc k >>= f) Q := by
  intro s hs
  have hs' := hs.calls (s.calls + 1)
  show ∃ L', Inv over ((((match l.mem s.calls with | true => Res.start k | false => Pure.pure .null : M Ptr) >>= f) l
    { s with calls := s.calls + 1 }).2) L' ∧ Q ((((match l.mem s.calls with | true => Res.start k | false => Pure.pure .null : M Ptr)
      >>= f) l { s with calls := s.calls + 1 }).1) L'
  cases hb : l.mem s.calls with
  | true => exact Runs.start h _ hs'
  | false =>
    rcases h0 with h0 | h0
    · rw [h0] at hb; cases hb
    · exact h0 _ hs'

theorem Runs.use {n : Nat} {k : Kind} {f : Unit → M β} (hm : (n, k) ∈ L) (h : Runs over l L (f ()) Q) :
    Runs over l L (Res.use (.to n) >>= f) Q := by
  intro s hs
  have hl := (hs.held n k).1 hm
  have hi : Inv over { s with log := s.log ++ [.used n] } L := ?_
  · exact h _ hi
  refine ⟨clean_snoc hs.clean ⟨⟨k, hl.1⟩, hl.2⟩, ?_, ?_, hs.nodup, ?_⟩
  · intro n' k'
    rw [hs.held]
    simp [Left]
  · intro n' k' h; exact hs.fresh n' k' (by simpa using h)
  · intro n' k' h; exact hs.back n' k' (by simpa using h)

theorem Inv.gave {s : St} {n : Nat} {was how : Kind} (hs : Inv over s L) (hm : (n, was) ∈ L) (hf : Fits over was how) :
    Inv over { s with log := s.log ++ [.gave n how] } (L.filter fun x => x.1 ≠ n) := by
  have hl := (hs.held n was).1 hm
  refine ⟨clean_snoc hs.clean ⟨⟨was, hl.1, hf⟩, hl.2⟩, ?_, ?_, ?_, ?_⟩
  · intro n' k'
    simp only [List.mem_filter, decide_eq_true_eq]
    constructor
    · intro ⟨h1, h2⟩
      obtain ⟨h3, h4⟩ := (hs.held _ _).1 h1
      refine ⟨by simp [h3], fun k'' hk => ?_⟩
      have hk : Ev.gave n' k'' ∈ s.log ∨ n' = n ∧ k'' = how := by simpa using hk
      rcases hk with hk | ⟨hk, _⟩
      · exact h4 _ hk
      · exact h2 hk
    · intro ⟨h1, h2⟩
      refine ⟨(hs.held _ _).2 ⟨by simpa using h1, fun k'' hk => h2 k'' (by simp [hk])⟩, ?_⟩
      intro he
      have he : n' = n := he
      subst he
      exact h2 how (by simp)
  · intro n' k' h; exact hs.fresh n' k' (by simpa using h)
  · exact List.Sublist.nodup (List.Sublist.map _ List.filter_sublist) hs.nodup
  · intro n' k' h
    have h : Ev.gave n' k' ∈ s.log ∨ n' = n ∧ k' = how := by simpa using h
    rcases h with h | ⟨rfl, _⟩
    · exact hs.back _ _ h
    · exact hs.fresh _ _ hl.1

theorem filter_head {n : Nat} {k : Kind} (h : (((n, k) :: L).map Prod.fst).Nodup) :
    ((n, k) :: L).filter (fun x => x.1 ≠ n) = L := by
  rw [List.filter_cons]
  simp only [ne_eq, not_true_eq_false, decide_false, Bool.false_eq_true, if_false]
  refine List.filter_eq_self.2 fun x hx => ?_
  simp only [List.map_cons, List.nodup_cons] at h
  exact decide_eq_true fun he => h.1 (he ▸ List.mem_map.2 ⟨x, hx, rfl⟩)

theorem filter_second {a : Nat × Kind} {n : Nat} {k : Kind} (h : ((a :: (n, k) :: L).map Prod.fst).Nodup) :
    (a :: (n, k) :: L).filter (fun x => x.1 ≠ n) = a :: L := by
  have h1 := h
  simp only [List.map_cons, List.nodup_cons] at h1
  rw [List.filter_cons_of_pos (p := fun (x : Nat × Kind) => decide (x.1 ≠ n)), filter_head]
  · simpa using h1.2
  · refine decide_eq_true fun he => h1.1 ?_
    rw [he]
    exact List.mem_cons_self

theorem Runs.give {n : Nat} {was how : Kind} {f : Unit → M β} (hf : Fits over was how) (h : Runs over l L (f ()) Q) :
    Runs over l ((n, was) :: L) (Res.give how (.to n) >>= f) Q := by
  intro s hs
  have := hs.gave List.mem_cons_self hf
  rw [filter_head hs.nodup] at this
  exact h _ this

theorem Runs.giveMem {n : Nat} {was how : Kind} {f : Unit → M β} (hf : Fits over was how) (h : Runs over l L (f ()) Q) :
    Runs over l ((n, was) :: L) (Res.giveMem how (.to n) >>= f) Q := Runs.give (f := f) hf h

theorem Runs.give_second {a : Nat × Kind} {n : Nat} {was how : Kind} {f : Unit → M β} (hf : Fits over was how)
    (h : Runs over l (a :: L) (f ()) Q) : Runs over l (a :: (n, was) :: L) (Res.give how (.to n) >>= f) Q := by
  intro s hs
  have := hs.gave (List.mem_cons_of_mem _ List.mem_cons_self) hf
  rw [filter_second hs.nodup] at this
  exact h _ this

theorem Runs.giveMem_second {a : Nat × Kind} {n : Nat} {was how : Kind} {f : Unit → M β} (hf : Fits over was how)
    (h : Runs over l (a :: L) (f ()) Q) : Runs over l (a :: (n, was) :: L) (Res.giveMem how (.to n) >>= f) Q :=
  Runs.give_second (f := f) hf h

end rules

theorem runs_bind_pure {α : Type} (m : M α) : (m >>= pure) = m := rfl

/-- A piece of code that leaves what is held as it is. -/
def Keeps (over : Bool) (l : Luck) (L : List (Nat × Kind)) {α : Type} (m : M α) : Prop :=
  Runs over l L m fun _ L' => L' = L

section keeps
variable {over : Bool} {l : Luck} {L : List (Nat × Kind)}

theorem Keeps.ask : Keeps over l L Res.ask := Runs.ask_tail fun _ => rfl

theorem Keeps.io {n : Nat} {k : Kind} (h : (n, k) ∈ L) : Keeps over l L (Res.io (.to n)) :=
  Runs.use h Keeps.ask

theorem Keeps.useThen {α : Type} {n : Nat} {k : Kind} {m : M α} (h : (n, k) ∈ L) (hm : Keeps over l L m) :
    Keeps over l L (do use (.to n); m) := Runs.use h hm

theorem Keeps.pure {α : Type} {a : α} : Keeps over l L (Pure.pure a : M α) := Runs.pure rfl

theorem Keeps.steps {ms : List (M Bool)} (h : ∀ m ∈ ms, Keeps over l L m) : Keeps over l L (Res.steps ms) := by
  induction ms with
  | nil => exact Keeps.pure
  | cons m ms ih =>
    refine Runs.bind (h m List.mem_cons_self) fun b L' hL => ?_
    subst hL
    cases b with
    | false => exact Keeps.pure
    | true => exact ih fun x hx => h x (List.mem_cons_of_mem _ hx)

theorem Keeps.rounds {m : M Bool} (h : Keeps over l L m) (n : Nat) : Keeps over l L (Res.rounds n m) := by
  induction n with
  | zero => exact Keeps.pure
  | succ n ih =>
    refine Runs.bind h fun b L' hL => ?_
    subst hL
    cases b with
    | false => exact Keeps.pure
    | true => exact ih

/-- Running something that keeps what is held, and going on. -/
theorem Keeps.then {α β : Type} {m : M α} {f : α → M β} {Q : β → List (Nat × Kind) → Prop} (h : Keeps over l L m)
    (hf : ∀ a, Runs over l L (f a) Q) : Runs over l L (m >>= f) Q :=
  Runs.bind h fun a _ hL => by subst hL; exact hf a

end keeps

/-- Membership in a list of resources that is written out. -/
macro "mem" : tactic => `(tactic| first
  | assumption
  | exact List.mem_cons_self
  | exact List.mem_cons_of_mem _ (by assumption)
  | exact List.mem_cons_of_mem _ List.mem_cons_self
  | exact List.mem_cons_of_mem _ (List.mem_cons_of_mem _ (by assumption))
  | exact List.mem_cons_of_mem _ (List.mem_cons_of_mem _ List.mem_cons_self)
  | exact List.mem_cons_of_mem _ (List.mem_cons_of_mem _ (List.mem_cons_of_mem _ (by assumption)))
  | exact List.mem_cons_of_mem _ (List.mem_cons_of_mem _ (List.mem_cons_of_mem _ List.mem_cons_self))
  | exact List.mem_cons_of_mem _ (List.mem_cons_of_mem _ (List.mem_cons_of_mem _ (List.mem_cons_of_mem _ (by assumption)))))

theorem Keeps.steps_nil {over : Bool} {l : Luck} {L : List (Nat × Kind)} : Keeps over l L (Res.steps []) := Keeps.pure

theorem Keeps.steps_cons {over : Bool} {l : Luck} {L : List (Nat × Kind)} {m : M Bool} {ms : List (M Bool)}
    (h : Keeps over l L m) (hs : Keeps over l L (Res.steps ms)) : Keeps over l L (Res.steps (m :: ms)) :=
  Keeps.then h fun b => by
    cases b with
    | false => exact Keeps.pure
    | true => exact hs

end Bpak.Res
