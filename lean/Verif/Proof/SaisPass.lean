import Verif.Model.Sais
/-! The two passes of induced sorting, without memory: an array of slots, a pointer into each bucket, and a scan of the array that puts the
predecessor of each entry at its bucket's pointer. -/
namespace Bpak.Sais

/-- How many numbers below `n` satisfy `P`. -/
def cnt (n : Nat) (P : Nat → Bool) : Nat := (List.range n).countP P

theorem cnt_succ (n : Nat) (P : Nat → Bool) : cnt (n + 1) P = cnt n P + if P n then 1 else 0 := by
  unfold cnt
  rw [List.range_succ, List.countP_append, List.countP_singleton]

theorem cnt_le (n : Nat) (P : Nat → Bool) : cnt n P ≤ n := by
  have := List.countP_le_length (p := P) (l := List.range n)
  rw [List.length_range] at this
  exact this

theorem cnt_congr {n : Nat} {P Q : Nat → Bool} (h : ∀ i < n, P i = Q i) : cnt n P = cnt n Q := by
  unfold cnt
  apply List.countP_congr
  intro i hi
  rw [h i (List.mem_range.1 hi)]

theorem cnt_mono {n : Nat} {P Q : Nat → Bool} (h : ∀ i < n, P i = true → Q i = true) : cnt n P ≤ cnt n Q := by
  unfold cnt
  apply List.countP_mono_left
  intro i hi
  exact h i (List.mem_range.1 hi)

theorem cnt_split (n : Nat) (P Q : Nat → Bool) : cnt n P = cnt n (fun i => P i && Q i) + cnt n (fun i => P i && !Q i) := by
  induction n with
  | zero => rfl
  | succ n ih =>
    rw [cnt_succ, cnt_succ, cnt_succ, ih]
    cases P n <;> cases Q n <;> simp <;> omega

theorem cnt_false (n : Nat) (P : Nat → Bool) (h : ∀ i < n, P i = false) : cnt n P = 0 := by
  rw [cnt_congr (Q := fun _ => false) h]
  unfold cnt
  simp

theorem cnt_true (n : Nat) (P : Nat → Bool) (h : ∀ i < n, P i = true) : cnt n P = n := by
  rw [cnt_congr (Q := fun _ => true) h]
  unfold cnt
  simp

theorem cnt_disjoint {n : Nat} {P Q R : Nat → Bool} (h : ∀ i < n, R i = (P i || Q i)) (hd : ∀ i < n, ¬ (P i = true ∧ Q i = true)) :
    cnt n R = cnt n P + cnt n Q := by
  induction n with
  | zero => rfl
  | succ n ih =>
    rw [cnt_succ, cnt_succ, cnt_succ, ih (fun i hi => h i (by omega)) (fun i hi => hd i (by omega)), h n (by omega)]
    have := hd n (by omega)
    cases hP : P n <;> cases hQ : Q n <;> simp [hP, hQ] at this ⊢ <;> omega

theorem length_le_of_nodup {E l : List Nat} (hn : E.Nodup) (hs : ∀ p ∈ E, p ∈ l) : E.length ≤ l.length := by
  induction E generalizing l with
  | nil => simp
  | cons a E ih =>
    rw [List.nodup_cons] at hn
    have h1 := ih (l := l.erase a) hn.2 (by
      intro p hp
      have : p ≠ a := by intro e; subst e; exact hn.1 hp
      exact (List.mem_erase_of_ne this).2 (hs p (by simp [hp])))
    have ha : a ∈ l := hs a (by simp)
    rw [List.length_erase_of_mem ha] at h1
    have : 0 < l.length := List.length_pos_of_mem ha
    simp only [List.length_cons]
    omega

theorem nodup_inj {l : List Nat} (h : l.Nodup) {i j : Nat} (hi : i < l.length) (hj : j < l.length) (e : l[i] = l[j]) : i = j := by
  have h' := List.pairwise_iff_getElem.1 h
  rcases Nat.lt_trichotomy i j with x | x | x
  · exact absurd e (h' i j hi hj x)
  · exact x
  · exact absurd e.symm (h' j i hj hi x)

theorem filterMap_same {f g : Nat → Option Nat} {l : List Nat} (h : ∀ a ∈ l, f a = g a) : l.filterMap f = l.filterMap g := by
  induction l with
  | nil => rfl
  | cons a l ih =>
    rw [List.filterMap_cons, List.filterMap_cons, h a (by simp), ih (fun b hb => h b (by simp [hb]))]

theorem nodup_le_cnt {n : Nat} {P : Nat → Bool} {E : List Nat} (hn : E.Nodup) (hs : ∀ p ∈ E, p < n ∧ P p = true) : E.length ≤ cnt n P := by
  unfold cnt
  rw [List.countP_eq_length_filter]
  exact length_le_of_nodup hn (fun p hp => List.mem_filter.2 ⟨List.mem_range.2 (hs p hp).1, (hs p hp).2⟩)

/-- A list without repetitions that has as many elements as there are candidates contains all of them. -/
theorem mem_of_nodup_full {n : Nat} {P : Nat → Bool} {E : List Nat} (hn : E.Nodup) (hs : ∀ p ∈ E, p < n ∧ P p = true) (hl : cnt n P ≤ E.length)
    (p : Nat) (hp : p < n) (hP : P p = true) : p ∈ E := by
  apply Decidable.byContradiction
  intro hc
  have := nodup_le_cnt (E := p :: E) (n := n) (P := P) (List.nodup_cons.2 ⟨hc, hn⟩) (by
    intro q hq
    rcases List.mem_cons.1 hq with rfl | hq
    · exact ⟨hp, hP⟩
    · exact hs q hq)
  simp at this
  omega

/-- What a pass works on: the number of positions and of characters, the character of each position, which positions it puts into the array, the
predecessor it puts there for an entry, the positions it puts there first, and the array at the beginning. -/
structure Pass where
  n : Nat
  k : Nat
  key : Nat → Nat
  Z : Nat → Bool
  pred : Nat → Option Nat
  init : List Nat
  F0 : Nat → Option Nat

namespace Pass

/-- Start of a bucket. -/
def start (P : Pass) (c : Nat) : Nat := cnt P.n (fun i => decide (P.key i < c))

/-- Number of positions with this character that the pass may put into the array. -/
def zone (P : Pass) (c : Nat) : Nat := cnt P.n (fun i => decide (P.key i = c) && P.Z i)

structure Ok (P : Pass) : Prop where
  key_lt : ∀ p < P.n, P.key p < P.k
  init_ok : ∀ p ∈ P.init, p < P.n ∧ P.Z p = true
  init_nodup : P.init.Nodup
  init_new : ∀ s p, P.pred s = some p → p ∉ P.init
  inj : ∀ s s' p, P.pred s = some p → P.pred s' = some p → s = s'
  step : ∀ s p, P.pred s = some p → (s < P.n ∧ P.Z s = true) ∨ (∃ a, P.F0 a = some s) →
    p < P.n ∧ P.Z p = true ∧ (P.key s < P.key p ∨ (P.key s = P.key p ∧ P.Z s = true))
  seed : ∀ a s, P.F0 a = some s → s < P.n ∧ P.Z s = false ∧ P.start (P.key s) + P.zone (P.key s) ≤ a ∧ a < P.start (P.key s + 1)
  seed_inj : ∀ a b s, P.F0 a = some s → P.F0 b = some s → a = b

structure St where
  F : Nat → Option Nat
  G : Nat → Nat
  E : List Nat

/-- Putting a position at its bucket's pointer. -/
def emit (P : Pass) (s : St) (p : Nat) : St :=
  ⟨fun a => if a = s.G (P.key p) then some p else s.F a, fun c => if c = P.key p then s.G c + 1 else s.G c, s.E ++ [p]⟩

/-- The entry at `i` is looked at. -/
def step (P : Pass) (i : Nat) (s : St) : St :=
  match (s.F i).bind P.pred with
  | none => s
  | some p => P.emit s p

def begin_ (P : Pass) : St := P.init.foldl P.emit ⟨P.F0, P.start, []⟩

def run (P : Pass) : Nat → St
  | 0 => P.begin_
  | i + 1 => P.step i (P.run i)

theorem start_succ (P : Pass) (c : Nat) : P.start (c + 1) = P.start c + cnt P.n (fun i => decide (P.key i = c)) := by
  unfold start
  apply cnt_disjoint
  · intro i _
    by_cases h1 : P.key i < c <;> by_cases h2 : P.key i = c <;> simp [h1, h2] <;> omega
  · intro i _
    simp only [decide_eq_true_eq]
    omega

theorem zone_le (P : Pass) (c : Nat) : P.start c + P.zone c ≤ P.start (c + 1) := by
  rw [start_succ]
  have : P.zone c ≤ cnt P.n (fun i => decide (P.key i = c)) := by
    apply cnt_mono
    intro i _ h
    simp only [Bool.and_eq_true] at h
    exact h.1
  omega

theorem start_mono (P : Pass) {a b : Nat} (h : a ≤ b) : P.start a ≤ P.start b := by
  unfold start
  apply cnt_mono
  intro i _ h'
  simp only [decide_eq_true_eq] at h' ⊢
  omega

theorem start_le (P : Pass) (c : Nat) : P.start c ≤ P.n := cnt_le _ _

/-- The emitted positions with a given character. -/
def out (P : Pass) (E : List Nat) (c : Nat) : List Nat := E.filter (fun p => decide (P.key p = c))

/-- What holds of the array after some positions have been put into it. -/
structure Shape (P : Pass) (s : St) : Prop where
  nodup : s.E.Nodup
  mem : ∀ p ∈ s.E, p < P.n ∧ P.Z p = true
  ptr : ∀ c, s.G c = P.start c + (P.out s.E c).length
  filled : ∀ c t, t < (P.out s.E c).length → s.F (P.start c + t) = (P.out s.E c)[t]?
  rest : ∀ a, (∀ c, ¬ (P.start c ≤ a ∧ a < P.start c + (P.out s.E c).length)) → s.F a = P.F0 a

theorem out_le (P : Pass) {E : List Nat} (hn : E.Nodup) (hm : ∀ p ∈ E, p < P.n ∧ P.Z p = true) (c : Nat) : (P.out E c).length ≤ P.zone c := by
  apply nodup_le_cnt
  · exact hn.sublist List.filter_sublist
  · intro p hp
    obtain ⟨h1, h2⟩ := List.mem_filter.1 hp
    refine ⟨(hm p h1).1, ?_⟩
    simp only [Bool.and_eq_true]
    exact ⟨h2, (hm p h1).2⟩

/-- Where an entry is. -/
theorem Shape.where_ {P : Pass} {s : St} (h : Shape P s) {a p : Nat} (e : s.F a = some p) :
    (p ∈ s.E ∧ ∃ t, a = P.start (P.key p) + t ∧ t < (P.out s.E (P.key p)).length ∧ (P.out s.E (P.key p))[t]? = some p) ∨
    (P.F0 a = some p ∧ ∀ c, ¬ (P.start c ≤ a ∧ a < P.start c + (P.out s.E c).length)) := by
  by_cases hc : ∃ c, P.start c ≤ a ∧ a < P.start c + (P.out s.E c).length
  · obtain ⟨c, h1, h2⟩ := hc
    left
    have := h.filled c (a - P.start c) (by omega)
    rw [show P.start c + (a - P.start c) = a by omega, e] at this
    have hm := List.mem_of_getElem? this.symm
    obtain ⟨h3, h4⟩ := List.mem_filter.1 hm
    simp only [decide_eq_true_eq] at h4
    subst h4
    exact ⟨h3, a - P.start (P.key p), by omega, by omega, this.symm⟩
  · right
    have hc' : ∀ c, ¬ (P.start c ≤ a ∧ a < P.start c + (P.out s.E c).length) := fun c hx => hc ⟨c, hx⟩
    exact ⟨by rw [← h.rest a hc']; exact e, hc'⟩

theorem Shape.zone1 {P : Pass} {s : St} (h : Shape P s) {a p : Nat} (e : s.F a = some p) (hz : P.Z p = true) (o : Ok P) :
    p ∈ s.E ∧ P.start (P.key p) ≤ a ∧ a < s.G (P.key p) ∧ a < P.start (P.key p) + P.zone (P.key p) := by
  rcases h.where_ e with ⟨h1, t, h2, h3, -⟩ | ⟨h1, -⟩
  · have := P.out_le h.nodup h.mem (P.key p)
    rw [h.ptr]
    exact ⟨h1, by omega, by omega, by omega⟩
  · rw [(o.seed _ _ h1).2.1] at hz
    cases hz

theorem Shape.inj {P : Pass} {s : St} (o : Ok P) (h : Shape P s) {a b p : Nat} (e1 : s.F a = some p) (e2 : s.F b = some p) : a = b := by
  cases hz : P.Z p with
  | true =>
    rcases h.where_ e1 with ⟨-, t1, a1, a2, a3⟩ | ⟨h1, -⟩
    · rcases h.where_ e2 with ⟨-, t2, b1, b2, b3⟩ | ⟨h2, -⟩
      · have hnd : (P.out s.E (P.key p)).Nodup := h.nodup.sublist List.filter_sublist
        have : t1 = t2 := by
          have x1 := List.getElem?_eq_some_iff.1 a3
          have x2 := List.getElem?_eq_some_iff.1 b3
          obtain ⟨y1, z1⟩ := x1
          obtain ⟨y2, z2⟩ := x2
          exact nodup_inj hnd y1 y2 (z1.trans z2.symm)
        omega
      · rw [(o.seed _ _ h2).2.1] at hz; cases hz
    · rw [(o.seed _ _ h1).2.1] at hz; cases hz
  | false =>
    rcases h.where_ e1 with ⟨hm, -⟩ | ⟨h1, -⟩
    · rw [(h.mem p hm).2] at hz; cases hz
    · rcases h.where_ e2 with ⟨hm, -⟩ | ⟨h2, -⟩
      · rw [(h.mem p hm).2] at hz; cases hz
      · exact o.seed_inj _ _ _ h1 h2

/-- Each entry is in its bucket. -/
theorem Shape.bucket {P : Pass} {s : St} (o : Ok P) (h : Shape P s) {a p : Nat} (e : s.F a = some p) :
    p < P.n ∧ P.start (P.key p) ≤ a ∧ a < P.start (P.key p + 1) := by
  rcases h.where_ e with ⟨hm, t, h1, h2, -⟩ | ⟨h1, -⟩
  · have := P.out_le h.nodup h.mem (P.key p)
    have := P.zone_le (P.key p)
    exact ⟨(h.mem p hm).1, by omega, by omega⟩
  · obtain ⟨x, -, y, z⟩ := o.seed _ _ h1
    exact ⟨x, by omega, z⟩

theorem bucket_unique (P : Pass) {a c c' : Nat} (h1 : P.start c ≤ a ∧ a < P.start (c + 1)) (h2 : P.start c' ≤ a ∧ a < P.start (c' + 1)) : c = c' := by
  rcases Nat.lt_trichotomy c c' with h | h | h
  · have := P.start_mono (a := c + 1) (b := c') h; omega
  · exact h
  · have := P.start_mono (a := c' + 1) (b := c) h; omega

theorem out_append (P : Pass) (E : List Nat) (p c : Nat) : P.out (E ++ [p]) c = if P.key p = c then P.out E c ++ [p] else P.out E c := by
  unfold out
  rw [List.filter_append, List.filter_cons]
  by_cases h : P.key p = c <;> simp [h]

/-- One more position; it comes where nothing was. -/
theorem Shape.emit {P : Pass} {s : St} (o : Ok P) (h : Shape P s) {p : Nat} (hp : p < P.n) (hz : P.Z p = true) (hnew : p ∉ s.E) :
    Shape P (P.emit s p) ∧ s.F (s.G (P.key p)) = none ∧ P.start (P.key p) ≤ s.G (P.key p) ∧ s.G (P.key p) < P.start (P.key p) + P.zone (P.key p) := by
  have hnd : (s.E ++ [p]).Nodup := by
    rw [List.nodup_append]
    refine ⟨h.nodup, by simp, ?_⟩
    intro a ha b hb e
    rw [List.mem_singleton] at hb
    subst hb; subst e
    exact hnew ha
  have hmem : ∀ q ∈ s.E ++ [p], q < P.n ∧ P.Z q = true := by
    intro q hq
    rcases List.mem_append.1 hq with hq | hq
    · exact h.mem q hq
    · rw [List.mem_singleton] at hq; subst hq; exact ⟨hp, hz⟩
  have hle := P.out_le hnd hmem (P.key p)
  rw [out_append, if_pos rfl, List.length_append, List.length_singleton] at hle
  have hptr := h.ptr (P.key p)
  have hlt : s.G (P.key p) < P.start (P.key p) + P.zone (P.key p) := by omega
  have hsep : ∀ c, c ≠ P.key p → ¬ (P.start c ≤ s.G (P.key p) ∧ s.G (P.key p) < P.start c + (P.out s.E c).length) := by
    intro c hc hx
    have h1 := P.out_le h.nodup h.mem c
    have h2 := P.zone_le c
    have h3 := P.zone_le (P.key p)
    exact hc (P.bucket_unique (a := s.G (P.key p)) ⟨hx.1, by omega⟩ ⟨by omega, by omega⟩)
  have hnone : s.F (s.G (P.key p)) = none := by
    rw [h.rest]
    · cases e : P.F0 (s.G (P.key p)) with
      | none => rfl
      | some q =>
        obtain ⟨x, y, z, w⟩ := o.seed _ _ e
        have := P.bucket_unique (a := s.G (P.key p)) (c := P.key q) (c' := P.key p) ⟨by omega, w⟩ ⟨by omega, by have := P.zone_le (P.key p); omega⟩
        rw [this] at z
        omega
    · intro c hx
      by_cases hc : c = P.key p
      · subst hc; omega
      · exact hsep c hc hx
  refine ⟨⟨hnd, hmem, ?_, ?_, ?_⟩, hnone, by omega, hlt⟩
  · intro c
    show (if c = P.key p then s.G c + 1 else s.G c) = _
    rw [show (P.emit s p).E = s.E ++ [p] from rfl, out_append]
    by_cases hc : c = P.key p
    · subst hc
      rw [if_pos rfl, if_pos rfl, h.ptr, List.length_append, List.length_singleton]
      omega
    · rw [if_neg hc, if_neg (fun e => hc e.symm), h.ptr]
  · intro c t ht
    show (if P.start c + t = s.G (P.key p) then some p else s.F (P.start c + t)) = _
    rw [show (P.emit s p).E = s.E ++ [p] from rfl, out_append] at ht ⊢
    by_cases hc : P.key p = c
    · subst hc
      rw [if_pos rfl] at ht ⊢
      rw [List.length_append, List.length_singleton] at ht
      by_cases ht' : t = (P.out s.E (P.key p)).length
      · rw [if_pos (by omega), ht', List.getElem?_append_right (by omega)]
        simp
      · rw [if_neg (by omega), h.filled _ t (by omega), List.getElem?_append_left (by omega)]
    · rw [if_neg hc] at ht ⊢
      rw [if_neg, h.filled c t ht]
      intro e
      exact hsep c (fun e => hc e.symm) ⟨by omega, by omega⟩
  · intro a ha
    show (if a = s.G (P.key p) then some p else s.F a) = _
    have h1 := ha (P.key p)
    rw [show (P.emit s p).E = s.E ++ [p] from rfl, out_append, if_pos rfl, List.length_append, List.length_singleton] at h1
    rw [if_neg (by omega)]
    apply h.rest
    intro c hx
    apply ha c
    rw [show (P.emit s p).E = s.E ++ [p] from rfl, out_append]
    split
    · rw [List.length_append]; omega
    · exact hx

theorem shape_empty (P : Pass) : Shape P ⟨P.F0, P.start, []⟩ :=
  ⟨List.nodup_nil, (fun _ h => by cases h), fun _ => rfl, (fun _ _ h => by simp [out] at h), fun _ _ => rfl⟩

theorem emit_E (P : Pass) (s : St) (p : Nat) : (P.emit s p).E = s.E ++ [p] := rfl

theorem begin_shape {P : Pass} (o : Ok P) : Shape P P.begin_ ∧ P.begin_.E = P.init := by
  have : ∀ (l : List Nat) (s : St), Shape P s → s.E ++ l = P.init → Shape P (l.foldl P.emit s) ∧ (l.foldl P.emit s).E = P.init := by
    intro l
    induction l with
    | nil => intro s h e; exact ⟨h, by simpa using e⟩
    | cons p l ih =>
      intro s h e
      rw [List.foldl_cons]
      have hp := o.init_ok p (by rw [← e]; simp)
      have hnd := o.init_nodup
      rw [← e, List.nodup_append] at hnd
      have hnew : p ∉ s.E := fun hc => hnd.2.2 p hc p (by simp) rfl
      exact ih _ (h.emit o hp.1 hp.2 hnew).1 (by rw [emit_E, List.append_assoc]; exact e)
  exact this P.init _ P.shape_empty (by simp)

/-- What is known after `i` steps. -/
structure Inv (P : Pass) (i : Nat) (s : St) : Prop where
  shape : Shape P s
  /-- the emitted positions are the first ones and the predecessors of the entries looked at, in order -/
  ran : s.E = P.init ++ ((List.range i).filterMap s.F).filterMap P.pred

/-- The step at `i`: what it emits comes behind `i`, where nothing was. -/
theorem step_inv {P : Pass} (o : Ok P) {i : Nat} {s : St} (h : Inv P i s) :
    Inv P (i + 1) (P.step i s) ∧ (∀ a ≤ i, (P.step i s).F a = s.F a) ∧
    ∀ q p, s.F i = some q → P.pred q = some p →
      p < P.n ∧ P.Z p = true ∧ s.F (s.G (P.key p)) = none ∧ i < s.G (P.key p) ∧ P.start (P.key p) ≤ s.G (P.key p) ∧ s.G (P.key p) < P.start (P.key p) + P.zone (P.key p) ∧
      (P.key q < P.key p ∨ (P.key q = P.key p ∧ P.Z q = true)) := by
  unfold step
  cases e : (s.F i).bind P.pred with
  | none =>
    refine ⟨⟨h.shape, ?_⟩, fun _ _ => rfl, ?_⟩
    · rw [List.range_succ, List.filterMap_append, List.filterMap_append, ← List.append_assoc, ← h.ran]
      cases hf : s.F i with
      | none => simp [hf]
      | some q => rw [hf] at e; simp only [Option.bind_some] at e; simp [hf, e]
    · intro q p hq hp
      rw [hq] at e
      simp only [Option.bind_some] at e
      rw [e] at hp
      cases hp
  | some p =>
    obtain ⟨q, hq, hp⟩ := Option.bind_eq_some_iff.1 e
    have hq' : (q < P.n ∧ P.Z q = true) ∨ ∃ a, P.F0 a = some q := by
      rcases h.shape.where_ hq with ⟨hm, -⟩ | ⟨h1, -⟩
      · exact Or.inl (h.shape.mem q hm)
      · exact Or.inr ⟨i, h1⟩
    obtain ⟨p1, p2, p3⟩ := o.step q p hp hq'
    have hnew : p ∉ s.E := by
      intro hc
      rw [h.ran] at hc
      rcases List.mem_append.1 hc with hc | hc
      · exact o.init_new q p hp hc
      · obtain ⟨q', hq', hp'⟩ := List.mem_filterMap.1 hc
        obtain ⟨a, ha, hfa⟩ := List.mem_filterMap.1 hq'
        have := o.inj q q' p hp hp'
        subst this
        have := h.shape.inj o hq hfa
        have := List.mem_range.1 ha
        omega
    obtain ⟨sh, hnone, hge, hlt⟩ := h.shape.emit o p1 p2 hnew
    have hbeh : i < s.G (P.key p) := by
      obtain ⟨b1, b2, b3⟩ := h.shape.bucket o hq
      rcases p3 with p3 | ⟨p3, p4⟩
      · have := P.start_mono (a := P.key q + 1) (b := P.key p) p3
        omega
      · rw [← p3]
        exact (h.shape.zone1 hq p4 o).2.2.1
    have hsame : ∀ a ≤ i, (P.emit s p).F a = s.F a := by
      intro a ha
      show (if a = s.G (P.key p) then some p else s.F a) = _
      rw [if_neg (by omega)]
    refine ⟨⟨sh, ?_⟩, hsame, ?_⟩
    · rw [emit_E]
      have : (List.range (i + 1)).filterMap (P.emit s p).F = (List.range (i + 1)).filterMap s.F := by
        apply filterMap_same
        intro a ha
        exact hsame a (by have := List.mem_range.1 ha; omega)
      rw [this, List.range_succ, List.filterMap_append, List.filterMap_append, ← List.append_assoc, ← h.ran]
      simp [hq, hp]
    · intro q' p' hq2 hp2
      rw [hq] at hq2
      cases hq2
      rw [hp] at hp2
      cases hp2
      exact ⟨p1, p2, hnone, hbeh, hge, hlt, p3⟩

theorem run_inv {P : Pass} (o : Ok P) (i : Nat) : Inv P i (P.run i) := by
  induction i with
  | zero =>
    obtain ⟨h1, h2⟩ := begin_shape o
    exact ⟨h1, by rw [show P.run 0 = P.begin_ from rfl, h2]; simp⟩
  | succ i ih => exact (step_inv o ih).1

/-- What is looked at stays. -/
theorem run_stable {P : Pass} (o : Ok P) {i j : Nat} (h : i ≤ j) (a : Nat) (ha : a < i) : (P.run j).F a = (P.run i).F a := by
  obtain ⟨d, rfl⟩ := Nat.exists_eq_add_of_le h
  clear h
  induction d with
  | zero => rfl
  | succ d ih =>
    rw [← ih]
    exact (step_inv o (run_inv o (i + d))).2.1 a (by omega)

/-- Entries, once put, stay. -/
theorem run_mono {P : Pass} (o : Ok P) {i j : Nat} (h : i ≤ j) {a q : Nat} (e : (P.run i).F a = some q) : (P.run j).F a = some q := by
  induction h with
  | refl => exact e
  | step hle ih =>
    rename_i j
    have iv := run_inv o j
    show (P.step j (P.run j)).F a = _
    unfold step
    cases e' : ((P.run j).F j).bind P.pred with
    | none => exact ih
    | some p =>
      obtain ⟨q', hq, hp⟩ := Option.bind_eq_some_iff.1 e'
      have := (step_inv o iv).2.2 q' p hq hp
      show (if a = (P.run j).G (P.key p) then some p else (P.run j).F a) = _
      rw [if_neg, ih]
      intro ea
      rw [ea, this.2.2.1] at ih
      cases ih

/-- The positions in the array at the end: the first ones, the seeds, and the predecessors of those in it. -/
theorem final_closed {P : Pass} (o : Ok P) {a q p : Nat} (ha : a < P.n) (e : (P.run P.n).F a = some q) (hp : P.pred q = some p) : p ∈ (P.run P.n).E := by
  rw [(run_inv o P.n).ran]
  refine List.mem_append_right _ (List.mem_filterMap.2 ⟨q, List.mem_filterMap.2 ⟨a, List.mem_range.2 ha, e⟩, hp⟩)

theorem final_init {P : Pass} (o : Ok P) {p : Nat} (h : p ∈ P.init) : p ∈ (P.run P.n).E := by
  rw [(run_inv o P.n).ran]
  exact List.mem_append_left _ h

/-- An emitted position has a slot. -/
theorem Shape.slot {P : Pass} {s : St} (h : Shape P s) {p : Nat} (hp : p ∈ s.E) : ∃ a, a < P.n ∧ s.F a = some p := by
  have hm : p ∈ P.out s.E (P.key p) := List.mem_filter.2 ⟨hp, by simp⟩
  obtain ⟨t, ht, e⟩ := List.mem_iff_getElem.1 hm
  refine ⟨P.start (P.key p) + t, ?_, ?_⟩
  · have := P.out_le h.nodup h.mem (P.key p)
    have := P.zone_le (P.key p)
    have := P.start_le (P.key p + 1)
    omega
  · rw [h.filled _ t ht, List.getElem?_eq_getElem ht, e]

/-- A seed keeps its slot. -/
theorem Shape.seed {P : Pass} {s : St} (o : Ok P) (h : Shape P s) {a p : Nat} (e : P.F0 a = some p) : s.F a = some p := by
  rw [h.rest, e]
  intro c hx
  obtain ⟨x, y, z, w⟩ := o.seed _ _ e
  have h1 := P.out_le h.nodup h.mem c
  have h2 := P.zone_le c
  have := P.bucket_unique (a := a) (c := P.key p) (c' := c) ⟨by omega, w⟩ ⟨by omega, by omega⟩
  subst this
  omega

end Pass
end Bpak.Sais
