import Verif.Proof.SaisHeap
/-! Where counters and buckets are put (lib/sais.c:488-535). -/
namespace Bpak.Sais

theorem St.step {E : Int} {h0 : Heap} {O : Int → Prop} {h : Heap} {j : Nat} (s : St E h0 O h j) {m : Mem} {Q : Int → Prop}
    (hf : ∀ a : Int, ¬ Q a → m a = h.mem a) (hQ : ∀ a : Int, Q a → ((0 ≤ a ∧ a < E) ∨ O a) ∧ ∃ v, m a = some v) : St E h0 O { h with mem := m } j := by
  refine s.mem (fun a h1 h2 => hf a (fun hq => ?_)) (fun a h1 => ?_)
  · rcases (hQ a hq).1 with h | h
    · exact h1 h
    · exact h2 h
  · by_cases hq : Q a
    · exact (hQ a hq).2
    · rw [hf a hq]; exact s.cells a h1

theorem St.txt {E : Int} {h0 : Heap} {O : Int → Prop} {h : Heap} {j : Nat} (s : St E h0 O h j) {t : Txt} {n : Nat} {T : Nat → Nat}
    (ht : HasTxt t h0.mem n T) (hin : ∀ a, inTxt t n a → E ≤ a ∧ a < h0.next) : HasTxt t h.mem n T :=
  ht.congr (fun a ha => s.low a (hin a ha).2 (by have := hin a ha; omega))

/-- The blocks that must be given back. -/
def Own (f : Flags) (c b : Int) (k : Nat) (a : Int) : Prop := ((f.f1 = true ∨ f.f4 = true) ∧ inB c k a) ∨ (f.f2 = true ∧ inB b k a)

/-- The counters are at `c` and the buckets at `b`, in the free space of the array or in blocks allocated after `lo`. -/
structure Reg (E : Int) (n k : Nat) (lo c b : Int) (f : Flags) : Prop where
  c1 : f.f1 = true ∨ f.f4 = true → lo ≤ c
  c0 : ¬ (f.f1 = true ∨ f.f4 = true) → (n : Int) ≤ c ∧ c + k ≤ E
  b1 : f.f2 = true → lo ≤ b
  b0 : f.f2 ≠ true → b = c ∨ ((n : Int) ≤ b ∧ b + k ≤ E)
  cb : c = b ∨ c + k ≤ b ∨ b + k ≤ c

theorem Reg.lay {E : Int} {n k : Nat} {lo c b : Int} {f : Flags} (r : Reg E n k lo c b f) {t : Txt} {T : Nat → Nat} (hn : 0 < n) (hk : ∀ i < n, T i < k)
    (hnE : (n : Int) ≤ E) (hlo : E ≤ lo) (hin : ∀ a, inTxt t n a → E ≤ a ∧ a < lo) : (Lay.mk n k c b t T).Ok := by
  have hc : lo ≤ c ∨ ((n : Int) ≤ c ∧ c + k ≤ E) := by
    by_cases h : f.f1 = true ∨ f.f4 = true
    · exact Or.inl (r.c1 h)
    · exact Or.inr (r.c0 h)
  have hb : lo ≤ b ∨ ((n : Int) ≤ b ∧ b + k ≤ E) := by
    by_cases h : f.f2 = true
    · exact Or.inl (r.b1 h)
    · rcases r.b0 h with h | h
      · rw [h]; exact hc
      · exact Or.inr h
  refine ⟨hn, hk, ?_, ?_, r.cb, fun a ha => ?_⟩
  · show (n : Int) ≤ c; omega
  · show (n : Int) ≤ b; omega
  · have h1 : E ≤ a ∧ a < lo := hin a ha
    refine ⟨?_, ?_, ?_⟩
    · show (n : Int) ≤ a; omega
    · show a < c ∨ c + k ≤ a; omega
    · show a < b ∨ b + k ≤ a; omega

theorem Reg.inC {E : Int} {n k : Nat} {lo c b : Int} {f : Flags} (r : Reg E n k lo c b f) {a : Int} (h : inB c k a) : (0 ≤ a ∧ a < E) ∨ Own f c b k a := by
  by_cases hf : f.f1 = true ∨ f.f4 = true
  · exact Or.inr (Or.inl ⟨hf, h⟩)
  · have := r.c0 hf
    unfold inB at h
    left; omega

theorem Reg.inB {E : Int} {n k : Nat} {lo c b : Int} {f : Flags} (r : Reg E n k lo c b f) {a : Int} (h : inB b k a) : (0 ≤ a ∧ a < E) ∨ Own f c b k a := by
  by_cases hf : f.f2 = true
  · exact Or.inr (Or.inr ⟨hf, h⟩)
  · rcases r.b0 hf with e | this
    · rw [e] at h; exact r.inC h
    · unfold Sais.inB at h
      left; omega

/-- The arrays are there. -/
theorem St.arrs {E : Int} {n k : Nat} {c b : Int} {f : Flags} {h0 h : Heap} {j : Nat} (s : St E h0 (Own f c b k) h j) (r : Reg E n k h0.next c b f) (hnE : (n : Int) ≤ E) :
    (∃ A, Arr h.mem 0 n A) ∧ (∃ C, Arr h.mem c k C) ∧ (∃ B, Arr h.mem b k B) :=
  ⟨arr_of (fun a h1 h2 => s.cells a (Or.inl ⟨by omega, by omega⟩)), arr_of (fun a h1 h2 => s.cells a (r.inC ⟨h1, h2⟩)),
    arr_of (fun a h1 h2 => s.cells a (r.inB ⟨h1, h2⟩))⟩

/-- What changes only the array, the counters and the buckets. -/
theorem St.upd {E : Int} {n k : Nat} {c b : Int} {f : Flags} {h0 h : Heap} {j : Nat} (s : St E h0 (Own f c b k) h j) (r : Reg E n k h0.next c b f) (hnE : (n : Int) ≤ E)
    {m : Mem} (hf : ∀ a : Int, ¬ (0 ≤ a ∧ a < n) → ¬ (c ≤ a ∧ a < c + k) → ¬ (b ≤ a ∧ a < b + k) → m a = h.mem a) (h1 : ∃ A, Arr m 0 n A) (h2 : ∃ C, Arr m c k C)
    (h3 : ∃ B, Arr m b k B) : St E h0 (Own f c b k) { h with mem := m } j := by
  refine s.step (Q := fun a => (0 ≤ a ∧ a < n) ∨ inB c k a ∨ inB b k a) (fun a hq => ?_) (fun a hq => ?_)
  · exact hf a (fun h => hq (Or.inl h)) (fun h => hq (Or.inr (Or.inl h))) (fun h => hq (Or.inr (Or.inr h)))
  · obtain ⟨A, h1⟩ := h1
    obtain ⟨C, h2⟩ := h2
    obtain ⟨B, h3⟩ := h3
    rcases hq with hq | hq | hq
    · exact ⟨Or.inl ⟨by omega, by omega⟩, h1.some (by omega) (by omega)⟩
    · exact ⟨r.inC hq, h2.some hq.1 hq.2⟩
    · exact ⟨r.inB hq, h3.some hq.1 hq.2⟩

/-- What holds after lib/sais.c:488-535. -/
structure Pl (E : Int) (n k : Nat) (lo c b : Int) (f : Flags) : Prop extends Reg E n k lo c b f where
  p4 : f.f4 = true → f.f8 = true
  p8 : f.f8 = true ↔ c = b
  p8' : f.f8 = true → f.f1 = false ∧ f.f2 = false
  inE : ¬ (f.f1 = true ∨ f.f4 = true) → c = E - k
  bA : f.f1 = true → f.f2 = false → b = E - k
  bC : f.f1 = false → f.f2 = false → f.f8 = false → b = E - 2 * k
  s16 : f.f16 = true → f.f1 = true
  s32 : f.f32 = true → (n : Int) ≤ b - 2 * k ∧ b ≤ E ∧ b ≤ c ∧ c ≠ b

theorem place_ok {fs n k : Nat} (hk : 0 < k) {h : Heap} (h0 : St ((n + fs : Nat) : Int) h (fun _ => False) h 0) :
    ∃ r h', place fs n k h = (r, h') ∧
      ((r = none ∧ ∃ j, St ((n + fs : Nat) : Int) h (fun _ => False) h' j ∧ ∃ i, i < j ∧ h.fails i = true) ∨
       ∃ c b f j, r = some (c, b, f) ∧ St ((n + fs : Nat) : Int) h (Own f c b k) h' j ∧ Pl ((n + fs : Nat) : Int) n k h.next c b f ∧ f.f16 = false ∧ f.f32 = false ∧
         (f.f1 = true → f.f2 = true → fs < k)) := by
  have hb := h0.base
  unfold place
  by_cases h256 : k ≤ 256
  · rw [if_pos h256]
    rcases malloc_cases h0 k with ⟨h1, e1, e2, e3, e4⟩ | ⟨c, h1, e1, e2, e2', e3, e4⟩
    · simp only [e1]
      exact ⟨_, _, rfl, Or.inl ⟨rfl, 0 + 1, e3, 0, by omega, e4⟩⟩
    · simp only [e1]
      by_cases hfs : k ≤ fs
      · rw [if_pos hfs]
        refine ⟨_, _, rfl, Or.inr ⟨_, _, _, 0 + 1, rfl, e3.congr (fun a => ?_), ⟨⟨fun _ => e2, fun h => ?_, fun h => ?_, fun _ => Or.inr ?_, ?_⟩, ?_, ?_, ?_, ?_, ?_, ?_, ?_, ?_⟩, rfl, rfl, ?_⟩⟩
        · unfold Own; simp
        · exact absurd (Or.inl rfl) h
        · cases h
        · push_cast; omega
        · push_cast at hb ⊢; omega
        · intro h; cases h
        · constructor
          · intro h; cases h
          · intro h; push_cast at hb h; omega
        · intro h; cases h
        · intro h; exact absurd (Or.inl rfl) h
        · intro _ _; push_cast; omega
        · intro h; cases h
        · intro h; cases h
        · intro h; cases h
        · intro _ h; cases h
      · rw [if_neg hfs]
        have hc1 := e3.top (c + k - 1) (Or.inr ⟨by omega, by omega⟩)
        rcases malloc_cases e3 k with ⟨h2, g1, g2, g3, g4⟩ | ⟨b, h2, g1, g2, g2', g3, g4⟩
        · simp only [g1]
          have := g3.free (len := k) e2
          exact ⟨_, _, rfl, Or.inl ⟨rfl, _, this.1.congr (fun a => by simp), 0 + 1, by omega, g4⟩⟩
        · simp only [g1]
          refine ⟨_, _, rfl, Or.inr ⟨_, _, _, _, rfl, g3.congr (fun a => ?_), ⟨⟨fun _ => e2, fun h => ?_, fun h => ?_, fun h => ?_, ?_⟩, ?_, ?_, ?_, ?_, ?_, ?_, ?_, ?_⟩, rfl, rfl, ?_⟩⟩
          · unfold Own; simp
          · exact absurd (Or.inl rfl) h
          · exact g2
          · exact absurd rfl h
          · omega
          · intro h; cases h
          · constructor
            · intro h; cases h
            · intro h; omega
          · intro h; cases h
          · intro h; exact absurd (Or.inl rfl) h
          · intro _ h; cases h
          · intro h; cases h
          · intro h; cases h
          · intro h; cases h
          · intro _ _; omega
  · rw [if_neg h256]
    by_cases hfs : k ≤ fs
    · rw [if_pos hfs]
      have hno : ¬ ((false : Bool) = true ∨ (false : Bool) = true) := by simp
      by_cases hfs2 : 2 * k ≤ fs
      · simp only [if_pos hfs2]
        refine ⟨_, _, rfl, Or.inr ⟨_, _, _, 0, rfl, h0.congr (fun a => ?_), ⟨⟨fun h => ?_, fun h => ?_, fun h => ?_, fun h => Or.inr ?_, ?_⟩, ?_, ?_, ?_, ?_, ?_, ?_, ?_, ?_⟩, rfl, rfl, ?_⟩⟩
        · unfold Own; simp
        · exact absurd h hno
        · push_cast; omega
        · cases h
        · push_cast; omega
        · omega
        · intro h; cases h
        · constructor
          · intro h; cases h
          · intro h; omega
        · intro h; cases h
        · intro _; push_cast; omega
        · intro h; cases h
        · intro _ _ _; push_cast; omega
        · intro h; cases h
        · intro h; cases h
        · intro h; cases h
      · simp only [if_neg hfs2]
        by_cases h1024 : k ≤ 1024
        · rw [if_pos h1024]
          rcases malloc_cases h0 k with ⟨h1, e1, e2, e3, e4⟩ | ⟨b, h1, e1, e2, e2', e3, e4⟩
          · simp only [e1]
            exact ⟨_, _, rfl, Or.inl ⟨rfl, 0 + 1, e3, 0, by omega, e4⟩⟩
          · simp only [e1]
            refine ⟨_, _, rfl, Or.inr ⟨_, _, _, 0 + 1, rfl, e3.congr (fun a => ?_), ⟨⟨fun h => ?_, fun h => ?_, fun h => ?_, fun h => ?_, ?_⟩, ?_, ?_, ?_, ?_, ?_, ?_, ?_, ?_⟩, rfl, rfl, ?_⟩⟩
            · unfold Own; simp
            · exact absurd h hno
            · push_cast; omega
            · exact e2
            · exact absurd rfl h
            · push_cast at hb ⊢; omega
            · intro h; cases h
            · constructor
              · intro h; cases h
              · intro h; push_cast at hb h; omega
            · intro h; cases h
            · intro _; push_cast; omega
            · intro h; cases h
            · intro _ h; cases h
            · intro h; cases h
            · intro h; cases h
            · intro h; cases h
        · rw [if_neg h1024]
          refine ⟨_, _, rfl, Or.inr ⟨_, _, _, 0, rfl, h0.congr (fun a => ?_), ⟨⟨fun h => ?_, fun h => ?_, fun h => ?_, fun h => Or.inl rfl, Or.inl rfl⟩, ?_, ?_, ?_, ?_, ?_, ?_, ?_, ?_⟩, rfl, rfl, ?_⟩⟩
          · unfold Own; simp
          · exact absurd h hno
          · push_cast; omega
          · cases h
          · intro h; cases h
          · exact ⟨fun _ => rfl, fun _ => rfl⟩
          · intro h; exact ⟨rfl, rfl⟩
          · intro _; push_cast; omega
          · intro h; cases h
          · intro _ _ h; cases h
          · intro h; cases h
          · intro h; cases h
          · intro h; cases h
    · rw [if_neg hfs]
      rcases malloc_cases h0 k with ⟨h1, e1, e2, e3, e4⟩ | ⟨b, h1, e1, e2, e2', e3, e4⟩
      · simp only [e1]
        exact ⟨_, _, rfl, Or.inl ⟨rfl, 0 + 1, e3, 0, by omega, e4⟩⟩
      · simp only [e1]
        refine ⟨_, _, rfl, Or.inr ⟨_, _, _, 0 + 1, rfl, e3.congr (fun a => ?_), ⟨⟨fun h => ?_, fun h => ?_, fun h => ?_, fun h => Or.inl rfl, Or.inl rfl⟩, ?_, ?_, ?_, ?_, ?_, ?_, ?_, ?_⟩, rfl, rfl, ?_⟩⟩
        · unfold Own; simp
        · exact e2
        · exact absurd (Or.inr rfl) h
        · cases h
        · intro h; rfl
        · exact ⟨fun _ => rfl, fun _ => rfl⟩
        · intro h; exact ⟨rfl, rfl⟩
        · intro h; exact absurd (Or.inr rfl) h
        · intro h; cases h
        · intro _ _ h; cases h
        · intro h; cases h
        · intro h; cases h
        · intro h; cases h

theorem choose_ok {fs n k : Nat} (hk : 0 < k) {lo c b : Int} {f : Flags} (hlo : ((n + fs : Nat) : Int) ≤ lo) (p : Pl ((n + fs : Nat) : Int) n k lo c b f) (e16 : f.f16 = false) (e32 : f.f32 = false)
    (hB : f.f1 = true → f.f2 = true → fs < k) :
    Pl ((n + fs : Nat) : Int) n k lo c b (chooseSort fs n k f) ∧ (∀ a, Own (chooseSort fs n k f) c b k a ↔ Own f c b k a) := by
  have base : ∀ (g : Flags), g.f1 = f.f1 → g.f2 = f.f2 → g.f4 = f.f4 → g.f8 = f.f8 → (g.f16 = true → f.f1 = true) →
      (g.f32 = true → (n : Int) ≤ b - 2 * k ∧ b ≤ ((n + fs : Nat) : Int) ∧ b ≤ c ∧ c ≠ b) →
      Pl ((n + fs : Nat) : Int) n k lo c b g ∧ (∀ a, Own g c b k a ↔ Own f c b k a) := by
    intro g e1 e2 e4 e8 h16 h32
    refine ⟨⟨⟨?_, ?_, ?_, ?_, p.cb⟩, ?_, ?_, ?_, ?_, ?_, ?_, ?_, h32⟩, fun a => ?_⟩
    · rw [e1, e4]; exact p.c1
    · rw [e1, e4]; exact p.c0
    · rw [e2]; exact p.b1
    · rw [e2]; exact p.b0
    · rw [e4, e8]; exact p.p4
    · rw [e8]; exact p.p8
    · rw [e8, e1, e2]; exact p.p8'
    · rw [e1, e4]; exact p.inE
    · rw [e1, e2]; exact p.bA
    · rw [e1, e2, e8]; exact p.bC
    · rw [e1]; exact h16
    · unfold Own; rw [e1, e2, e4]
  unfold chooseSort
  by_cases h1 : n ≤ 0x3fffffff ∧ 2 ≤ n / k
  · rw [if_pos h1]
    by_cases h2 : f.f1 = true
    · rw [if_pos h2]
      have hcl := p.c1 (Or.inl h2)
      by_cases h3 : 3 * k ≤ fs
      · rw [if_pos h3]
        have hf2 : f.f2 = false := by
          cases e : f.f2 with
          | false => rfl
          | true => have := hB h2 e; omega
        have hbb := p.bA h2 hf2
        push_cast at hbb hlo
        refine base _ rfl rfl rfl rfl (fun h => h2) (fun _ => ?_)
        push_cast; omega
      · rw [if_neg h3]
        exact base _ rfl rfl rfl rfl (fun _ => h2) (fun h => by rw [show f.f32 = false from e32] at h; cases h)
    · rw [if_neg h2]
      by_cases h3 : ¬ f.f2 = true ∧ ¬ f.f4 = true ∧ ¬ f.f8 = true ∧ 4 * k ≤ fs
      · rw [if_pos h3]
        have hbb := p.bC (Bool.eq_false_iff.2 h2) (Bool.eq_false_iff.2 h3.1) (Bool.eq_false_iff.2 h3.2.2.1)
        have hcc := p.inE (fun h => h.elim h2 h3.2.1)
        have := h3.2.2.2
        push_cast at hbb hcc
        refine base _ rfl rfl rfl rfl (fun h => ?_) (fun _ => ?_)
        · rw [show f.f16 = false from e16] at h; cases h
        · push_cast; omega
      · rw [if_neg h3]
        exact base _ rfl rfl rfl rfl (fun h => by rw [e16] at h; cases h) (fun h => by rw [e32] at h; cases h)
  · rw [if_neg h1]
    exact base _ rfl rfl rfl rfl (fun h => by rw [e16] at h; cases h) (fun h => by rw [e32] at h; cases h)

end Bpak.Sais
