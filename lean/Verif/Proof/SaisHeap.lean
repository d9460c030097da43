import Verif.Proof.SaisReduce
/-! Allocation and release (lib/sais.c:44-45) and what a call may change. -/
namespace Bpak.Sais

/-- What has happened since `h0`: outside the `E` cells of the array, the memory that existed then is as it was; of the memory allocated since then exactly the cells
in `O` are still allocated; `j` allocations were asked for. -/
structure St (E : Int) (h0 : Heap) (O : Int → Prop) (h : Heap) (j : Nat) : Prop where
  base : E ≤ h0.next
  next : h0.next ≤ h.next
  low : ∀ a : Int, a < h0.next → ¬ (0 ≤ a ∧ a < E) → h.mem a = h0.mem a
  own : ∀ a : Int, h0.next ≤ a → ¬ O a → h.mem a = none
  top : ∀ a : Int, O a → h0.next ≤ a ∧ a < h.next
  cells : ∀ a : Int, ((0 ≤ a ∧ a < E) ∨ O a) → ∃ v, h.mem a = some v
  fails : h.fails = fun i => h0.fails (i + j)

theorem St.start {E : Int} {h : Heap} (h1 : E ≤ h.next) (h2 : ∀ a : Int, h.next ≤ a → h.mem a = none) (h3 : ∀ a : Int, 0 ≤ a → a < E → ∃ v, h.mem a = some v) :
    St E h (fun _ => False) h 0 :=
  ⟨h1, Int.le_refl _, fun _ _ _ => rfl, fun a ha _ => h2 a ha, fun _ ho => ho.elim, fun a h => h.elim (fun h => h3 a h.1 h.2) (fun h => h.elim), rfl⟩

theorem St.congr {E : Int} {h0 : Heap} {O O' : Int → Prop} {h : Heap} {j : Nat} (s : St E h0 O h j) (e : ∀ a, O a ↔ O' a) : St E h0 O' h j :=
  ⟨s.base, s.next, s.low, fun a h1 h2 => s.own a h1 (fun h => h2 ((e a).1 h)), fun a h1 => s.top a ((e a).2 h1),
    fun a h1 => s.cells a (h1.imp id (e a).2), s.fails⟩

/-- Writing to the array and to allocated cells. -/
theorem St.mem {E : Int} {h0 : Heap} {O : Int → Prop} {h : Heap} {j : Nat} (s : St E h0 O h j) {m : Mem}
    (hout : ∀ a : Int, ¬ (0 ≤ a ∧ a < E) → ¬ O a → m a = h.mem a) (hcell : ∀ a : Int, ((0 ≤ a ∧ a < E) ∨ O a) → ∃ v, m a = some v) :
    St E h0 O { h with mem := m } j := by
  refine ⟨s.base, s.next, fun a h1 h2 => ?_, fun a h1 h2 => ?_, s.top, hcell, s.fails⟩
  · show m a = _
    rw [hout a h2 (fun ho => by have := s.top a ho; omega)]; exact s.low a h1 h2
  · show m a = _
    rw [hout a (fun h3 => by have := s.base; omega) h2]; exact s.own a h1 h2

def inB (p : Int) (len : Nat) (a : Int) : Prop := p ≤ a ∧ a < p + len

/-- An allocation. -/
theorem malloc_cases {E : Int} {h0 : Heap} {O : Int → Prop} {h : Heap} {j : Nat} (s : St E h0 O h j) (len : Nat) :
    (∃ h', malloc h len = (none, h') ∧ h'.mem = h.mem ∧ St E h0 O h' (j + 1) ∧ h0.fails j = true) ∨
    (∃ p h', malloc h len = (some p, h') ∧ h0.next ≤ p ∧ h.next ≤ p ∧ St E h0 (fun a => O a ∨ inB p len a) h' (j + 1) ∧ ∀ a : Int, a < h.next → h'.mem a = h.mem a) := by
  have hf : h.fails 0 = h0.fails j := by rw [s.fails]; show h0.fails (0 + j) = _; rw [Nat.zero_add]
  have hf2 : (fun i => h.fails (i + 1)) = fun i => h0.fails (i + (j + 1)) := by
    rw [s.fails]; funext i; show h0.fails (i + 1 + j) = _; rw [show i + 1 + j = i + (j + 1) by omega]
  unfold malloc
  by_cases hfail : h.fails 0 = true
  · left
    rw [if_pos hfail]
    exact ⟨_, rfl, rfl, ⟨s.base, s.next, s.low, s.own, s.top, s.cells, hf2⟩, by rw [← hf]; exact hfail⟩
  · right
    rw [if_neg hfail]
    have hnx := s.next
    have hb := s.base
    have hm : ∀ a : Int, ¬ inB h.next len a → (if h.next ≤ a ∧ a < h.next + len then some (h.junk a) else h.mem a) = h.mem a := fun a ha => if_neg ha
    refine ⟨h.next, _, rfl, hnx, Int.le_refl _, ⟨s.base, ?_, fun a h1 h2 => ?_, fun a h1 h2 => ?_, fun a h1 => ?_, fun a h1 => ?_, hf2⟩, fun a ha => ?_⟩
    · show h0.next ≤ h.next + len + 1; omega
    · show (if _ then _ else _) = _
      rw [hm a (fun hc => by unfold inB at hc; omega)]; exact s.low a h1 h2
    · show (if _ then _ else _) = _
      rw [hm a (fun hc => h2 (Or.inr hc))]; exact s.own a h1 (fun hc => h2 (Or.inl hc))
    · show _ ∧ a < h.next + len + 1
      rcases h1 with h1 | h1
      · have := s.top a h1; exact ⟨this.1, by omega⟩
      · unfold inB at h1; exact ⟨by omega, by omega⟩
    · show ∃ v, (if h.next ≤ a ∧ a < h.next + len then some (h.junk a) else h.mem a) = some v
      by_cases hc : inB h.next len a
      · exact ⟨_, if_pos hc⟩
      · rw [hm a hc]
        refine s.cells a ?_
        rcases h1 with h1 | h1 | h1
        · exact Or.inl h1
        · exact Or.inr h1
        · exact absurd h1 hc
    · show (if _ then _ else _) = _
      exact hm a (fun hc => by unfold inB at hc; omega)

/-- Giving a block back. -/
theorem St.free {E : Int} {h0 : Heap} {O : Int → Prop} {h : Heap} {j : Nat} (s : St E h0 O h j) {p : Int} {len : Nat} (hp : h0.next ≤ p) :
    St E h0 (fun a => O a ∧ ¬ inB p len a) (free h p len) j ∧ ∀ a : Int, ¬ inB p len a → (free h p len).mem a = h.mem a := by
  have hm : ∀ a : Int, ¬ inB p len a → (if p ≤ a ∧ a < p + len then none else h.mem a) = h.mem a := fun a ha => if_neg ha
  refine ⟨⟨s.base, s.next, fun a h1 h2 => ?_, fun a h1 h2 => ?_, fun a h1 => s.top a h1.1, fun a h1 => ?_, s.fails⟩, hm⟩
  · show (if _ then _ else _) = _
    rw [hm a (fun hc => by unfold inB at hc; omega)]; exact s.low a h1 h2
  · show (if _ then _ else _) = _
    by_cases hc : inB p len a
    · exact if_pos hc
    · rw [hm a hc]; exact s.own a h1 (fun ho => h2 ⟨ho, hc⟩)
  · show ∃ v, (if p ≤ a ∧ a < p + len then none else h.mem a) = some v
    have hb := s.base
    rw [hm a (fun hc => by
      rcases h1 with h1 | h1
      · unfold inB at hc; omega
      · exact h1.2 hc)]
    exact s.cells a (h1.imp id And.left)

theorem St.freeIf {E : Int} {h0 : Heap} {O : Int → Prop} {h : Heap} {j : Nat} (s : St E h0 O h j) {x : Bool} {p : Int} {len : Nat} (hp : x = true → h0.next ≤ p) :
    St E h0 (fun a => O a ∧ ¬ (x = true ∧ inB p len a)) (freeIf x h p len) j ∧ ∀ a : Int, ¬ (x = true ∧ inB p len a) → (freeIf x h p len).mem a = h.mem a := by
  unfold Sais.freeIf
  cases x with
  | false => exact ⟨s.congr (fun a => by simp), fun a _ => rfl⟩
  | true =>
    rw [if_pos rfl]
    have h1 := s.free (len := len) (hp rfl)
    exact ⟨h1.1.congr (fun a => by simp), fun a ha => h1.2 a (fun h => ha ⟨rfl, h⟩)⟩

/-- A call that leaves nothing allocated. -/
theorem St.call {E E' : Int} {h0 : Heap} {O : Int → Prop} {h h' : Heap} {j j' : Nat} (s : St E h0 O h j) (hE : E' ≤ E) (r : St E' h (fun _ => False) h' j') :
    St E h0 O h' (j + j') ∧ ∀ a : Int, ¬ (0 ≤ a ∧ a < E') → h'.mem a = h.mem a := by
  have hb := s.base
  have hn := s.next
  have key : ∀ a : Int, ¬ (0 ≤ a ∧ a < E') → h'.mem a = h.mem a := by
    intro a ha
    by_cases hlt : a < h.next
    · exact r.low a hlt ha
    · rw [r.own a (by omega) (fun h => h)]
      exact (s.own a (by omega) (fun ho => by have := s.top a ho; omega)).symm
  refine ⟨⟨s.base, by have := r.next; omega, fun a h1 h2 => ?_, fun a h1 h2 => ?_, fun a h1 => ?_, fun a h1 => ?_, ?_⟩, key⟩
  · rw [key a (by omega)]; exact s.low a h1 h2
  · rw [key a (by omega)]; exact s.own a h1 h2
  · have := s.top a h1; have := r.next; exact ⟨by omega, by omega⟩
  · by_cases h2 : 0 ≤ a ∧ a < E'
    · exact r.cells a (Or.inl h2)
    · rw [key a h2]; exact s.cells a h1
  · rw [r.fails, s.fails]; funext i; show h0.fails (i + j' + j) = _; rw [show i + j' + j = i + (j + j') by omega]

/-- Allocated cells form an array. -/
theorem arr_of {m : Mem} {p : Int} {n : Nat} (h : ∀ a : Int, p ≤ a → a < p + n → ∃ v, m a = some v) : ∃ f, Arr m p n f := by
  refine ⟨fun i => (m (p + i)).getD 0, fun i hi => ?_⟩
  obtain ⟨v, hv⟩ := h (p + i) (by omega) (by omega)
  show m (p + i) = some ((m (p + i)).getD 0)
  rw [hv]; rfl

theorem Arr.some {m : Mem} {p : Int} {n : Nat} {f : Nat → Int} (h : Arr m p n f) {a : Int} (h1 : p ≤ a) (h2 : a < p + n) : ∃ v, m a = some v := by
  have := h (a - p).toNat (by omega)
  rw [show p + ((a - p).toNat : Nat) = a by omega] at this
  exact ⟨_, this⟩

end Bpak.Sais
