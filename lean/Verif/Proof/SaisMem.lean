import Verif.Proof.SaisText
/-! The arrays of the suffix sorter in memory. -/
namespace Bpak.Sais

/-- An array with one element replaced. -/
def upd (f : Nat → Int) (i : Nat) (v : Int) : Nat → Int := fun x => if x = i then v else f x

theorem upd_eq (f : Nat → Int) (i : Nat) (v : Int) : upd f i v i = v := if_pos rfl
theorem upd_ne (f : Nat → Int) {i j : Nat} (v : Int) (h : j ≠ i) : upd f i v j = f j := if_neg h

/-- The memory after a write. -/
def setM (m : Mem) (a v : Int) : Mem := fun x => if x = a then some v else m x

theorem setM_eq (m : Mem) (a v : Int) : setM m a v a = some v := if_pos rfl
theorem setM_ne (m : Mem) {a x : Int} (v : Int) (h : x ≠ a) : setM m a v x = m x := if_neg h

theorem wr_eq {m : Mem} {a w : Int} (v : Int) (h : m a = some w) : wr m a v = some (setM m a v) := by
  unfold wr setM
  rw [h]
  rfl

theorem setM_same {m : Mem} {a w : Int} (h : m a = some w) : setM m a w = m := by
  funext x
  unfold setM
  split
  · rename_i e; rw [e, h]
  · rfl

/-- `m` holds the array `f` of length `n` at `p`. -/
def Arr (m : Mem) (p : Int) (n : Nat) (f : Nat → Int) : Prop := ∀ i < n, m (p + i) = some (f i)

theorem Arr.set {m : Mem} {p : Int} {n : Nat} {f : Nat → Int} (h : Arr m p n f) (i : Nat) (v : Int) : Arr (setM m (p + i) v) p n (upd f i v) := by
  intro j hj
  by_cases e : j = i
  · subst e; rw [setM_eq, upd_eq]
  · rw [setM_ne _ _ (by omega), upd_ne _ _ e, h j hj]

theorem Arr.other {m : Mem} {p a : Int} {n : Nat} {f : Nat → Int} (h : Arr m p n f) (v : Int) (ha : a < p ∨ p + n ≤ a) : Arr (setM m a v) p n f := by
  intro j hj
  rw [setM_ne _ _ (by omega), h j hj]

theorem Arr.wr {m : Mem} {p : Int} {n : Nat} {f : Nat → Int} (h : Arr m p n f) {i : Nat} (hi : i < n) (v : Int) :
    wr m (p + i) v = some (setM m (p + i) v) := wr_eq v (h i hi)

theorem Arr.congr {m m' : Mem} {p : Int} {n : Nat} {f : Nat → Int} (h : Arr m p n f) (e : ∀ a, p ≤ a → a < p + n → m' a = m a) : Arr m' p n f := by
  intro i hi
  rw [e _ (by omega) (by omega), h i hi]

theorem Arr.ext {m : Mem} {p : Int} {n : Nat} {f g : Nat → Int} (h : Arr m p n f) (e : ∀ i < n, f i = g i) : Arr m p n g := by
  intro i hi
  rw [h i hi, e i hi]

/-- The memory holds the text. -/
def HasTxt (t : Txt) (m : Mem) (n : Nat) (T : Nat → Nat) : Prop := ∀ i < n, chr t m (i : Int) = some (T i : Int)

/-- The cells of the text. -/
def inTxt (t : Txt) (n : Nat) (a : Int) : Prop :=
  match t with
  | .bytes _ => False
  | .words p => p ≤ a ∧ a < p + n

theorem HasTxt.congr {t : Txt} {m m' : Mem} {n : Nat} {T : Nat → Nat} (h : HasTxt t m n T) (e : ∀ a, inTxt t n a → m' a = m a) : HasTxt t m' n T := by
  intro i hi
  rw [← h i hi]
  unfold chr
  cases t with
  | bytes b => rfl
  | words p => exact e _ ⟨by omega, by omega⟩

theorem HasTxt.set {t : Txt} {m : Mem} {n : Nat} {T : Nat → Nat} (h : HasTxt t m n T) {a : Int} (v : Int) (ha : ¬ inTxt t n a) : HasTxt t (setM m a v) n T :=
  h.congr (fun _ hx => setM_ne _ _ (fun e => ha (e ▸ hx)))

/-- Where everything is. -/
structure Lay where
  n : Nat
  k : Nat
  c : Int
  b : Int
  t : Txt
  T : Nat → Nat

structure Lay.Ok (L : Lay) : Prop where
  npos : 0 < L.n
  key : ∀ i < L.n, L.T i < L.k
  hc : (L.n : Int) ≤ L.c
  hb : (L.n : Int) ≤ L.b
  hcb : L.c = L.b ∨ L.c + L.k ≤ L.b ∨ L.b + L.k ≤ L.c
  txt : ∀ a, inTxt L.t L.n a → (L.n : Int) ≤ a ∧ (a < L.c ∨ L.c + L.k ≤ a) ∧ (a < L.b ∨ L.b + L.k ≤ a)

/-- The number of positions with a smaller character. -/
def Lay.start (L : Lay) (c : Nat) : Nat := cnt L.n (fun i => decide (L.T i < c))

/-- The number of positions with this character. -/
def Lay.num (L : Lay) (c : Nat) : Nat := cnt L.n (fun i => decide (L.T i = c))

theorem Lay.start_succ (L : Lay) (c : Nat) : L.start (c + 1) = L.start c + L.num c := by
  unfold start num
  apply cnt_disjoint
  · intro i _
    by_cases h1 : L.T i < c <;> by_cases h2 : L.T i = c <;> simp [h1, h2] <;> omega
  · intro i _
    simp only [decide_eq_true_eq]
    omega

theorem Lay.start_zero (L : Lay) : L.start 0 = 0 := cnt_false _ _ (by simp)

theorem Lay.start_le (L : Lay) (c : Nat) : L.start c ≤ L.n := cnt_le _ _

theorem Lay.start_end {L : Lay} (o : L.Ok) {c : Nat} (h : L.k ≤ c) : L.start c = L.n := by
  apply cnt_true
  intro i hi
  have := o.key i hi
  simp
  omega

theorem Lay.start_mono (L : Lay) {a b : Nat} (h : a ≤ b) : L.start a ≤ L.start b := by
  unfold start
  apply cnt_mono
  intro i _ h'
  simp only [decide_eq_true_eq] at h' ⊢
  omega

/-- The suffix array, the buckets and the text are in memory; nothing else differs from `m0`. -/
structure Holds (L : Lay) (m0 m : Mem) (A B : Nat → Int) : Prop where
  sa : Arr m 0 L.n A
  bk : Arr m L.b L.k B
  txt : HasTxt L.t m L.n L.T
  frame : ∀ a : Int, ¬ (0 ≤ a ∧ a < L.n) → ¬ (L.b ≤ a ∧ a < L.b + L.k) → m a = m0 a

theorem Holds.rd {L : Lay} {m0 m : Mem} {A B : Nat → Int} (h : Holds L m0 m A B) {i : Nat} (hi : i < L.n) : Sais.rd m (i : Int) = some (A i) := by
  have := h.sa i hi
  rw [Int.zero_add] at this
  exact this

theorem Holds.rdB {L : Lay} {m0 m : Mem} {A B : Nat → Int} (h : Holds L m0 m A B) {i : Nat} (hi : i < L.k) : Sais.rd m (L.b + i) = some (B i) := h.bk i hi

theorem Holds.chr {L : Lay} {m0 m : Mem} {A B : Nat → Int} (h : Holds L m0 m A B) {i : Nat} (hi : i < L.n) : Sais.chr L.t m (i : Int) = some (L.T i : Int) := h.txt i hi

theorem Holds.wr {L : Lay} (o : L.Ok) {m0 m : Mem} {A B : Nat → Int} (h : Holds L m0 m A B) {i : Nat} (hi : i < L.n) (v : Int) :
    Sais.wr m (i : Int) v = some (setM m i v) ∧ Holds L m0 (setM m i v) (upd A i v) B := by
  have h1 := h.sa i hi
  rw [Int.zero_add] at h1
  have hs := h.sa.set i v
  rw [Int.zero_add] at hs
  have hb := o.hb
  refine ⟨wr_eq v h1, hs, h.bk.other v (by omega), h.txt.set v (fun hx => by have := o.txt _ hx; omega), ?_⟩
  intro a h1 h2
  rw [setM_ne _ _ (by omega), h.frame a h1 h2]

theorem Holds.wrB {L : Lay} (o : L.Ok) {m0 m : Mem} {A B : Nat → Int} (h : Holds L m0 m A B) {i : Nat} (hi : i < L.k) (v : Int) :
    Sais.wr m (L.b + i) v = some (setM m (L.b + i) v) ∧ Holds L m0 (setM m (L.b + i) v) A (upd B i v) := by
  have hb := o.hb
  refine ⟨wr_eq v (h.bk i hi), h.sa.other v (by omega), h.bk.set i v, h.txt.set v (fun hx => by have := o.txt _ hx; omega), ?_⟩
  intro a h1 h2
  rw [setM_ne _ _ (by omega), h.frame a h1 h2]

/-! ### Counts and buckets -/

/-- Only the cells of one array may have changed. -/
def SameOut (p : Int) (k : Nat) (m0 m : Mem) : Prop := ∀ a, ¬ (p ≤ a ∧ a < p + k) → m a = m0 a

theorem getCounts_ok {t : Txt} {n k : Nat} {T : Nat → Nat} {c : Int} {m : Mem} {f : Nat → Int} (hc : Arr m c k f) (ht : HasTxt t m n T)
    (hk : ∀ i < n, T i < k) (hdis : ∀ a, inTxt t n a → ¬ (c ≤ a ∧ a < c + k)) :
    ∃ m', getCounts t c n k m = some m' ∧ Arr m' c k (fun x => (cnt n (fun i => decide (T i = x)) : Nat)) ∧ SameOut c k m m' := by
  unfold getCounts
  obtain ⟨m1, e1, h1⟩ := upto_rule (n := k) (body := fun i m => wr m (c + i) 0) (s := m)
    (fun i m' => Arr m' c k (fun x => if x < i then 0 else f x) ∧ SameOut c k m m')
    ⟨hc.ext (by simp), fun _ _ => rfl⟩ (by
      intro i s hi ⟨ha, hs⟩
      refine ⟨_, ha.wr hi 0, (ha.set i 0).ext ?_, ?_⟩
      · intro j _
        unfold upd
        split
        · rename_i e; subst e; simp
        · show (if j < i then 0 else f j) = _
          by_cases hj : j < i
          · rw [if_pos hj, if_pos (by omega)]
          · rw [if_neg hj, if_neg (by omega)]
      · intro a ha'
        rw [setM_ne _ _ (by omega), hs a ha'])
  obtain ⟨ha1, hs1⟩ := h1
  obtain ⟨m2, e2, h2⟩ := upto_rule (n := n) (body := fun i m => do
      let x ← chr t m i
      let v ← rd m (c + x)
      wr m (c + x) (v + 1)) (s := m1)
    (fun i m' => Arr m' c k (fun x => (cnt i (fun i => decide (T i = x)) : Nat)) ∧ SameOut c k m m')
    ⟨ha1.ext (fun i hi => by simp [hi, cnt]), hs1⟩ (by
      intro i s hi ⟨ha, hs⟩
      have ht' : HasTxt t s n T := ht.congr (fun a hx => hs a (hdis a hx))
      have hx : chr t s i = some (T i : Int) := ht' i hi
      have hr : rd s (c + T i) = _ := ha (T i) (hk i hi)
      refine ⟨setM s (c + T i) ((cnt i (fun j => decide (T j = T i)) : Nat) + 1), ?_, (ha.set (T i) _).ext ?_, ?_⟩
      · simp only [hx, hr, Option.bind_eq_bind, Option.bind_some]
        exact ha.wr (hk i hi) _
      · intro x _
        unfold upd
        rw [cnt_succ]
        by_cases e : x = T i
        · rw [if_pos e, e]; simp
        · rw [if_neg e]
          have : ¬ T i = x := fun h => e h.symm
          simp [this]
      · intro a ha'
        have := hk i hi
        rw [setM_ne _ _ (by omega), hs a ha'])
  refine ⟨m2, ?_, h2⟩
  rw [e1]
  exact e2

theorem getBuckets_ok {k : Nat} {c b : Int} {m : Mem} {f g : Nat → Int} (atEnd : Bool) (hc : Arr m c k f) (hb : Arr m b k g)
    (hcb : c = b ∨ c + k ≤ b ∨ b + k ≤ c) (S : Nat → Int) (h0 : S 0 = 0) (hS : ∀ i < k, S (i + 1) = S i + f i) :
    ∃ m', getBuckets c b k atEnd m = some m' ∧ Arr m' b k (fun x => if atEnd then S (x + 1) else S x) ∧ SameOut b k m m' := by
  unfold getBuckets
  obtain ⟨r, e, h1, h2, h3, h4⟩ := upto_rule (n := k) (body := fun i (s : Int × Mem) => do
      let x ← rd s.2 (c + i)
      let sum := s.1 + x
      let m ← wr s.2 (b + i) (if atEnd then sum else sum - x)
      some (sum, m)) (s := (0, m))
    (fun i s => s.1 = S i ∧ (∀ j, i ≤ j → j < k → s.2 (c + j) = some (f j)) ∧
      Arr s.2 b k (fun x => if x < i then (if atEnd then S (x + 1) else S x) else g x) ∧ SameOut b k m s.2)
    ⟨h0.symm, fun j _ hj => hc j hj, hb.ext (by simp), fun _ _ => rfl⟩ (by
      intro i s hi ⟨a1, a2, a3, a4⟩
      have hr : rd s.2 (c + i) = _ := a2 i (Nat.le_refl _) hi
      refine ⟨(S (i + 1), setM s.2 (b + i) (if atEnd then S (i + 1) else S i)), ?_, rfl, ?_, (a3.set i _).ext ?_, ?_⟩
      · simp only [hr, Option.bind_eq_bind, Option.bind_some, a1]
        rw [show S i + f i = S (i + 1) from (hS i hi).symm, show S (i + 1) - f i = S i by rw [hS i hi]; omega, a3.wr hi]
        rfl
      · intro j hj hk
        show setM _ _ _ _ = _
        rw [setM_ne, a2 j (by omega) hk]
        omega
      · intro x _
        unfold upd
        by_cases e : x = i
        · subst e
          rw [if_pos rfl, if_pos (Nat.lt_succ_self _)]
        · rw [if_neg e]
          show (if x < i then _ else g x) = _
          by_cases hx : x < i
          · rw [if_pos hx, if_pos (show x < i + 1 by omega)]
          · rw [if_neg hx, if_neg (show ¬ x < i + 1 by omega)]
      · intro a ha
        show setM _ _ _ _ = _
        rw [setM_ne _ _ (by omega), a4 a ha])
  refine ⟨r.2, ?_, h3.ext ?_, h4⟩
  · rw [e]; rfl
  · intro i hi
    rw [if_pos hi]

/-- `buckets`: afterwards the second array holds the beginnings or ends of the buckets. -/
theorem buckets_ok {L : Lay} (o : L.Ok) {m : Mem} {A f g : Nat → Int} (atEnd : Bool) (ha : Arr m 0 L.n A) (hc : Arr m L.c L.k f) (hb : Arr m L.b L.k g)
    (ht : HasTxt L.t m L.n L.T) (hcnt : L.c ≠ L.b → ∀ x < L.k, f x = (L.num x : Nat)) :
    ∃ m', buckets L.t L.c L.b L.n L.k atEnd m = some m' ∧ Holds L m m' A (fun x => (L.start (if atEnd then x + 1 else x) : Nat)) := by
  have hbn := o.hb
  have hS : ∀ (x : Nat), ((L.start (x + 1) : Nat) : Int) = (L.start x : Nat) + ((L.num x : Nat) : Int) := by
    intro x
    rw [L.start_succ]
    push_cast
    rfl
  have fin : ∀ m2 m' : Mem, SameOut L.b L.k m m2 → SameOut L.b L.k m2 m' →
      Arr m' L.b L.k (fun x => if atEnd then ((L.start (x + 1) : Nat) : Int) else ((L.start x : Nat) : Int)) →
      Holds L m m' A (fun x => (L.start (if atEnd then x + 1 else x) : Nat)) := by
    intro m2 m' h1 h2 h3
    have h4 : SameOut L.b L.k m m' := fun a hx => by rw [h2 a hx, h1 a hx]
    refine ⟨ha.congr (fun a x y => h4 a (by omega)), h3.ext (fun i _ => by cases atEnd <;> rfl), ht.congr (fun a hx => h4 a (by have := o.txt a hx; omega)), ?_⟩
    intro a _ hx
    exact h4 a hx
  unfold buckets
  by_cases e : L.c = L.b
  · rw [if_pos e]
    obtain ⟨m1, e1, h1, s1⟩ := getCounts_ok hc ht o.key (fun a hx => by have := o.txt a hx; omega)
    rw [e] at h1 s1
    obtain ⟨m2, e2, h2, s2⟩ := getBuckets_ok atEnd h1 h1 (Or.inl rfl) (fun x => (L.start x : Nat)) (by simp [L.start_zero]) (fun i _ => hS i)
    exact ⟨m2, by rw [e1, e]; exact e2, fin m1 m2 s1 s2 h2⟩
  · rw [if_neg e]
    obtain ⟨m2, e2, h2, s2⟩ := getBuckets_ok atEnd hc hb o.hcb (fun x => (L.start x : Nat)) (by simp [L.start_zero]) (fun i hi => by rw [hcnt e i hi]; exact hS i)
    exact ⟨m2, e2, fin m m2 (fun _ _ => rfl) s2 h2⟩

/-! ### The pointers into the buckets -/

/-- The pointers: all in memory but that of `c1`, which is `b2`. -/
def Rep (L : Lay) (m0 m : Mem) (c1 b2 : Int) (A G : Nat → Int) : Prop :=
  ∃ (B : Nat → Int) (x : Nat), Holds L m0 m A B ∧ x < L.k ∧ c1 = (x : Int) ∧ b2 = G x ∧ ∀ c < L.k, c ≠ x → B c = G c

theorem Rep.start {L : Lay} {m0 m : Mem} {A B : Nat → Int} (h : Holds L m0 m A B) {x : Nat} (hx : x < L.k) : Rep L m0 m x (B x) A B :=
  ⟨B, x, h, hx, rfl, rfl, fun _ _ _ => rfl⟩

theorem Rep.rd {L : Lay} {m0 m : Mem} {c1 b2 : Int} {A G : Nat → Int} (h : Rep L m0 m c1 b2 A G) {i : Nat} (hi : i < L.n) : Sais.rd m (i : Int) = some (A i) := by
  obtain ⟨B, x, h, -⟩ := h
  exact h.rd hi

theorem Rep.chr {L : Lay} {m0 m : Mem} {c1 b2 : Int} {A G : Nat → Int} (h : Rep L m0 m c1 b2 A G) {i : Nat} (hi : i < L.n) :
    Sais.chr L.t m (i : Int) = some (L.T i : Int) := by
  obtain ⟨B, x, h, -⟩ := h
  exact h.chr hi

theorem Rep.chr' {L : Lay} {m0 m : Mem} {c1 b2 : Int} {A G : Nat → Int} (h : Rep L m0 m c1 b2 A G) {i : Nat} (hi : i < L.n) {z : Int} (e : z = i) :
    Sais.chr L.t m z = some (L.T i : Int) := by
  subst e
  exact h.chr hi

theorem Rep.wr {L : Lay} (o : L.Ok) {m0 m : Mem} {c1 b2 : Int} {A G : Nat → Int} (h : Rep L m0 m c1 b2 A G) {i : Nat} (hi : i < L.n) (v : Int) :
    ∃ m', Sais.wr m (i : Int) v = some m' ∧ Rep L m0 m' c1 b2 (upd A i v) G := by
  obtain ⟨B, x, h, h'⟩ := h
  exact ⟨_, (h.wr o hi v).1, B, x, (h.wr o hi v).2, h'⟩

theorem Rep.switch {L : Lay} (o : L.Ok) {m0 m : Mem} {c1 b2 : Int} {A G : Nat → Int} (h : Rep L m0 m c1 b2 A G) {y : Nat} (hy : y < L.k) :
    ∃ m', switchTo L.b (y : Int) c1 b2 m = some ((y : Int), G y, m') ∧ Rep L m0 m' y (G y) A G := by
  obtain ⟨B, x, h, hx, rfl, rfl, hB⟩ := h
  unfold switchTo
  by_cases e : y = x
  · subst e
    rw [if_neg (by simp)]
    exact ⟨m, rfl, B, y, h, hx, rfl, rfl, hB⟩
  · rw [if_pos (by simp; omega)]
    obtain ⟨e1, h1⟩ := h.wrB o hx (G x)
    have hr := h1.rdB hy
    rw [upd_ne _ _ e, hB y hy e] at hr
    refine ⟨setM m (L.b + x) (G x), ?_, upd B x (G x), y, h1, hy, rfl, rfl, ?_⟩
    · rw [e1]
      simp only [Option.bind_eq_bind, Option.bind_some, hr]
    · intro c hc hcy
      unfold upd
      split
      · rename_i e; rw [e]
      · rename_i e; exact hB c hc e

/-- Moving the current pointer. -/
theorem Rep.move {L : Lay} {m0 m : Mem} {c1 b2 : Int} {A G : Nat → Int} {y : Nat} (h : Rep L m0 m c1 b2 A G) (hy : c1 = y) (v : Int) :
    Rep L m0 m c1 v A (upd G y v) := by
  obtain ⟨B, x, h, hx, e, rfl, hB⟩ := h
  have : x = y := by omega
  subst this
  exact ⟨B, x, h, hx, e, (upd_eq _ _ _).symm, fun c hc hne => by rw [upd_ne _ _ hne]; exact hB c hc hne⟩

theorem Rep.ext {L : Lay} {m0 m : Mem} {c1 b2 : Int} {A G A' G' : Nat → Int} (h : Rep L m0 m c1 b2 A G) (hA : ∀ i < L.n, A i = A' i) (hG : ∀ c < L.k, G c = G' c) :
    Rep L m0 m c1 b2 A' G' := by
  obtain ⟨B, x, h, hx, e1, e2, hB⟩ := h
  exact ⟨B, x, ⟨h.sa.ext hA, h.bk, h.txt, h.frame⟩, hx, e1, by rw [e2, hG x hx], fun c hc hne => by rw [← hG c hc]; exact hB c hc hne⟩

/-- Both arrays remain allocated, and nothing else changes. -/
theorem Rep.done {L : Lay} {m0 m : Mem} {c1 b2 : Int} {A G : Nat → Int} (h : Rep L m0 m c1 b2 A G) : ∃ B, Holds L m0 m A B := by
  obtain ⟨B, x, h, -⟩ := h
  exact ⟨B, h⟩

end Bpak.Sais
