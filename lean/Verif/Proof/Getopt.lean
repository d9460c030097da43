import Verif.Spec.Getopt
import Verif.Proof.Main
/-!
`getopt_long` reads what is written.
-/
namespace Bpak

variable {t : OptTable}

theorem letter_iff (hp : t.Proper) {b : U8} {c : Char} {arg : Bool} : t.letter b = some (c, arg) ↔ t.Letter b c arg := by
  have hl := hp.letters
  unfold OptTable.letter OptTable.Letter
  generalize t.short = S at hl
  induction S with
  | nil => simp
  | cons o S ih =>
    rw [List.pairwise_cons] at hl
    rw [List.find?_cons]
    by_cases h : BitVec.ofNat 8 o.1.toNat = b
    · simp only [h, decide_true, Option.some.injEq, List.mem_cons]
      constructor
      · rintro rfl
        exact ⟨Or.inl rfl, h.symm⟩
      · rintro ⟨rfl | h1, h2⟩
        · rfl
        · exact absurd (h.trans h2) (hl.1 _ h1)
    · simp only [h, decide_false, List.mem_cons]
      refine (ih hl.2).trans ?_
      constructor
      · rintro ⟨h1, h2⟩
        exact ⟨Or.inr h1, h2⟩
      · rintro ⟨rfl | h1, h2⟩
        · exact absurd h2.symm h
        · exact ⟨h1, h2⟩

theorem find_name {S : List (String × Bool × Char)} (hl : S.Pairwise (fun a b => ascii a.1 ≠ ascii b.1)) {n : Bytes} {x : Bool × Char} :
    (∃ s, S.find? (fun o => decide (ascii o.1 = n)) = some (s, x)) ↔ ∃ s, (s, x) ∈ S ∧ ascii s = n := by
  induction S with
  | nil => simp
  | cons o S ih =>
    rw [List.pairwise_cons] at hl
    rw [List.find?_cons]
    by_cases h : ascii o.1 = n
    · simp only [h, decide_true, Option.some.injEq, List.mem_cons]
      constructor
      · rintro ⟨s, rfl⟩
        exact ⟨s, Or.inl rfl, h⟩
      · rintro ⟨s, rfl | h1, h2⟩
        · exact ⟨s, rfl⟩
        · exact absurd (h.trans h2.symm) (hl.1 _ h1)
    · simp only [h, decide_false, List.mem_cons]
      rw [ih hl.2]
      constructor
      · rintro ⟨s, h1, h2⟩
        exact ⟨s, Or.inr h1, h2⟩
      · rintro ⟨s, rfl | h1, h2⟩
        · exact absurd h2 h
        · exact ⟨s, h1, h2⟩

theorem name_iff (hp : t.Proper) {n : Bytes} {c : Char} {arg : Bool} : t.name n = some (arg, c) ↔ t.Means n c arg := by
  have hf := find_name hp.names (n := n) (x := (arg, c))
  have hm : ∀ o, o ∈ t.long.filter (fun o => n.isPrefixOf (ascii o.1)) ↔ o ∈ t.long ∧ n <+: ascii o.1 := fun o => by
    rw [List.mem_filter, List.isPrefixOf_iff_prefix]
  unfold OptTable.name OptTable.Means
  split
  · rename_i o h
    have ho := List.find?_some h
    have hmem := List.mem_of_find?_eq_some h
    have ho : ascii o.1 = n := of_decide_eq_true ho
    constructor
    · intro h1
      obtain ⟨s, x⟩ := o
      cases Option.some.inj h1
      exact Or.inl ⟨s, hmem, ho⟩
    · rintro (h1 | ⟨h1, -⟩)
      · obtain ⟨s, h2⟩ := hf.2 h1
        rw [Option.some.inj (h.symm.trans h2)]
      · exact absurd ho (h1 o hmem)
  · rename_i h
    have hn : ∀ o ∈ t.long, ascii o.1 ≠ n := fun o ho he => by
      have := List.find?_eq_none.1 h o ho
      simp [he] at this
    have hno : ¬ ∃ s, (s, arg, c) ∈ t.long ∧ ascii s = n := fun ⟨s, h1, h2⟩ => hn _ h1 h2
    split
    · rename_i hq
      rw [hq] at hm
      simp only [reduceCtorEq, false_iff]
      rintro (h1 | ⟨-, ⟨s, h1, h2⟩, -⟩)
      · exact hno h1
      · exact nomatch (hm _).2 ⟨h1, h2⟩
    · rename_i o os hq
      rw [hq] at hm
      constructor
      · intro h1
        split at h1
        · rename_i ha
          have ho : o.2 = (arg, c) := Option.some.inj h1
          refine Or.inr ⟨hn, ⟨o.1, ?_⟩, fun o' h2 h3 => ?_⟩
          · have := (hm o).1 List.mem_cons_self
            rw [← ho]
            exact this
          · rcases List.mem_cons.1 ((hm o').2 ⟨h2, h3⟩) with rfl | h4
            · exact ho
            · have := List.all_eq_true.1 ha o' h4
              rw [← ho]
              exact of_decide_eq_true this
        · cases h1
      · rintro (h1 | ⟨-, -, h2⟩)
        · exact absurd h1 hno
        · have ho := h2 o ((hm o).1 List.mem_cons_self).1 ((hm o).1 List.mem_cons_self).2
          rw [if_pos, ho]
          refine List.all_eq_true.2 fun o' ho' => decide_eq_true ?_
          rw [ho]
          have := (hm o').1 (List.mem_cons_of_mem _ ho')
          exact h2 o' this.1 this.2

theorem means_plain (hp : t.Proper) {n : Bytes} {c : Char} {arg : Bool} (h : t.Means n c arg) : ∀ b ∈ n, b ≠ 61 := by
  rintro b hb rfl
  rcases h with ⟨s, h1, rfl⟩ | ⟨-, ⟨s, h1, h2⟩, -⟩
  · exact hp.equals _ h1 hb
  · exact hp.equals _ h1 (h2.subset hb)

/-- A cluster of flags, and what follows them in the same argument. -/
theorem cluster_flags (hp : t.Proper) (next : Option Bytes) (tail : Bytes) : ∀ (fs : List (U8 × Char)), (∀ f ∈ fs, t.Letter f.1 f.2 false) →
    cluster t next (fs.map Prod.fst ++ tail) = (flagEvs fs ++ (cluster t next tail).1, (cluster t next tail).2) := by
  intro fs
  induction fs with
  | nil => exact fun _ => rfl
  | cons f fs ih =>
    intro h
    have h1 := (letter_iff hp).2 (h f List.mem_cons_self)
    have h2 := ih fun g hg => h g (List.mem_cons_of_mem _ hg)
    rw [List.map_cons, List.cons_append]
    rw [cluster, h1]
    dsimp only
    rw [h2]
    rfl

/-- What a cluster without errors can be. -/
theorem cluster_cases (hp : t.Proper) (next : Option Bytes) : ∀ bs : Bytes, OptEv.bad ∉ (cluster t next bs).1 →
    ∃ fs : List (U8 × Char), (∀ f ∈ fs, t.Letter f.1 f.2 false) ∧
      ((bs = fs.map Prod.fst ∧ cluster t next bs = (flagEvs fs, false)) ∨
       ∃ b c, t.Letter b c true ∧
        ((∃ a, a ≠ [] ∧ bs = fs.map Prod.fst ++ b :: a ∧ cluster t next bs = (flagEvs fs ++ [.opt c a], false)) ∨
         ∃ a, next = some a ∧ bs = fs.map Prod.fst ++ [b] ∧ cluster t next bs = (flagEvs fs ++ [.opt c a], true))) := by
  intro bs
  induction bs with
  | nil => exact fun _ => ⟨[], by simp, Or.inl ⟨rfl, rfl⟩⟩
  | cons b bs ih =>
    intro h
    rcases hl : t.letter b with _ | ⟨c, arg⟩
    · unfold cluster at h
      rw [hl] at h
      exact absurd List.mem_cons_self h
    · have hL := (letter_iff hp).1 hl
      cases arg with
      | false =>
        have e : cluster t next (b :: bs) = (.opt c [] :: (cluster t next bs).1, (cluster t next bs).2) := by
          rw [cluster, hl]
        rw [e] at h ⊢
        obtain ⟨fs, h1, h2⟩ := ih fun hb => h (List.mem_cons_of_mem _ hb)
        refine ⟨(b, c) :: fs, ?_, ?_⟩
        · intro f hf
          rcases List.mem_cons.1 hf with rfl | hf
          · exact hL
          · exact h1 f hf
        · rcases h2 with ⟨rfl, h3⟩ | ⟨b', c', hb', ⟨a, ha, rfl, h3⟩ | ⟨a, ha, rfl, h3⟩⟩
          · exact Or.inl ⟨rfl, by rw [h3]; rfl⟩
          · exact Or.inr ⟨b', c', hb', Or.inl ⟨a, ha, rfl, by rw [h3]; rfl⟩⟩
          · exact Or.inr ⟨b', c', hb', Or.inr ⟨a, ha, rfl, by rw [h3]; rfl⟩⟩
      | true =>
        refine ⟨[], by simp, Or.inr ⟨b, c, hL, ?_⟩⟩
        by_cases hbs : bs = []
        · subst hbs
          cases next with
          | none =>
            exfalso
            apply h
            rw [cluster, hl]
            simp
          | some a =>
            refine Or.inr ⟨a, rfl, rfl, ?_⟩
            rw [cluster, hl]
            rfl
        · refine Or.inl ⟨bs, hbs, rfl, ?_⟩
          rw [cluster, hl]
          simp only [ne_eq, hbs, not_false_eq_true, if_true]
          rfl

theorem go_cluster (a : Bytes) (rest : List Bytes) (b : U8) (bs : Bytes) (ha : a = 45 :: b :: bs) (hb : b ≠ 45) :
    getoptGo t false (a :: rest) = ((cluster t rest.head? (b :: bs)).1 ++ (getoptGo t (cluster t rest.head? (b :: bs)).2 rest).1,
      (getoptGo t (cluster t rest.head? (b :: bs)).2 rest).2) := by
  subst ha
  rw [getoptGo, if_neg, if_neg, if_pos]
  · rfl
  · exact ⟨rfl, by simp⟩
  · intro h; exact hb (List.cons.inj (List.cons.inj h).2).1
  · intro h; exact hb (List.cons.inj (List.cons.inj h).2).1

theorem go_long (n : Bytes) (rest : List Bytes) (hn : n ≠ []) :
    getoptGo t false ((45 :: 45 :: n) :: rest) = ((longOpt t rest.head? n).1 :: (getoptGo t (longOpt t rest.head? n).2 rest).1,
      (getoptGo t (longOpt t rest.head? n).2 rest).2) := by
  rw [getoptGo, if_neg, if_pos]
  · rfl
  · rfl
  · intro h; exact hn (List.cons.inj (List.cons.inj h).2).2

theorem go_skip (a : Bytes) (rest : List Bytes) : getoptGo t true (a :: rest) = getoptGo t false rest := by rw [getoptGo]

theorem flag_bad (fs : List (U8 × Char)) : OptEv.bad ∉ flagEvs fs := by
  unfold flagEvs
  simp

theorem letter_dash (hp : t.Proper) {b : U8} {c : Char} {arg : Bool} (h : t.Letter b c arg) : b ≠ 45 := h.2 ▸ hp.dash _ h.1

theorem reads_getopt (hp : t.Proper) {args : List Bytes} {evs : List OptEv} {ops : List Bytes} (h : Spells t args evs ops) :
    getoptGo t false args = (evs, ops) ∧ OptEv.bad ∉ evs := by
  have nb : ∀ {c : Char} {a : Bytes} {evs : List OptEv}, OptEv.bad ∉ evs → OptEv.bad ∉ OptEv.opt c a :: evs := fun h hb => by
    rcases List.mem_cons.1 hb with hb | hb
    · cases hb
    · exact h hb
  induction h with
  | nil => exact ⟨rfl, List.not_mem_nil⟩
  | dashes rest => exact ⟨by rw [getoptGo, if_pos rfl], List.not_mem_nil⟩
  | operand ha _ ih =>
    rcases ha with ha | rfl
    · exact ⟨by rw [getoptGo_operand _ _ _ ha, ih.1], ih.2⟩
    · refine ⟨?_, ih.2⟩
      rw [getoptGo, if_neg (by decide), if_neg (by decide), if_neg (by decide), ih.1]
  | @flags fs rest evs ops hne hf _ ih =>
    refine ⟨?_, fun hb => (List.mem_append.1 hb).elim (flag_bad fs) ih.2⟩
    rcases fs with _ | ⟨f, fs⟩
    · exact absurd rfl hne
    · have hc := cluster_flags hp rest.head? [] (f :: fs) hf
      rw [List.append_nil] at hc
      rw [List.map_cons, go_cluster _ _ f.1 (fs.map Prod.fst) rfl (letter_dash hp (hf f List.mem_cons_self))]
      rw [show f.1 :: fs.map Prod.fst = (f :: fs).map Prod.fst from rfl, hc]
      simp only [cluster, List.append_nil, ih.1]
  | @attached fs b c a rest evs ops hf hb ha _ ih =>
    refine ⟨?_, fun h => (List.mem_append.1 h).elim (flag_bad fs) (nb ih.2)⟩
    have hc := cluster_flags hp rest.head? (b :: a) fs hf
    have hl : cluster t rest.head? (b :: a) = ([.opt c a], false) := by
      rw [cluster, (letter_iff hp).2 hb]
      simp only [ne_eq, ha, not_false_eq_true, if_true]
    rw [hl] at hc
    have hx : ∃ b' bs', fs.map Prod.fst ++ b :: a = b' :: bs' ∧ b' ≠ 45 := by
      rcases fs with _ | ⟨f, fs⟩
      · exact ⟨b, a, rfl, letter_dash hp hb⟩
      · exact ⟨f.1, _, rfl, letter_dash hp (hf f List.mem_cons_self)⟩
    obtain ⟨b', bs', hx, hd⟩ := hx
    rw [go_cluster _ _ b' bs' (by rw [hx]) hd, ← hx, hc]
    simp only [ih.1, List.append_assoc, List.cons_append, List.nil_append]
  | @separate fs b c a rest evs ops hf hb _ ih =>
    refine ⟨?_, fun h => (List.mem_append.1 h).elim (flag_bad fs) (nb ih.2)⟩
    have hc := cluster_flags hp (a :: rest).head? [b] fs hf
    have hl : cluster t (a :: rest).head? [b] = ([.opt c a], true) := by
      rw [cluster, (letter_iff hp).2 hb]
      rfl
    rw [hl] at hc
    have hx : ∃ b' bs', fs.map Prod.fst ++ [b] = b' :: bs' ∧ b' ≠ 45 := by
      rcases fs with _ | ⟨f, fs⟩
      · exact ⟨b, [], rfl, letter_dash hp hb⟩
      · exact ⟨f.1, _, rfl, letter_dash hp (hf f List.mem_cons_self)⟩
    obtain ⟨b', bs', hx, hd⟩ := hx
    rw [go_cluster _ _ b' bs' (by rw [hx]) hd, ← hx, hc]
    simp only [go_skip, ih.1, List.append_assoc, List.cons_append, List.nil_append]
  | @longFlag n c rest evs ops hn hm _ ih =>
    refine ⟨?_, nb ih.2⟩
    rw [getoptGo_longFlag t rest hn (means_plain hp hm) ((name_iff hp).2 hm), ih.1]
  | @longEq n c a rest evs ops hm _ ih =>
    refine ⟨?_, nb ih.2⟩
    have := getoptGo_eq t a rest (means_plain hp hm) ((name_iff hp).2 hm)
    simp only [ih.1] at this
    exact this
  | @longNext n c a rest evs ops hn hm _ ih =>
    refine ⟨?_, nb ih.2⟩
    rw [getoptGo_long t a rest hn (means_plain hp hm) ((name_iff hp).2 hm), ih.1]

theorem split_equals (n : Bytes) (h : (n.takeWhile (fun b => decide (b ≠ 61))).length ≠ n.length) :
    n = n.takeWhile (fun b => decide (b ≠ 61)) ++ 61 :: n.drop ((n.takeWhile (fun b => decide (b ≠ 61))).length + 1) := by
  induction n with
  | nil => exact absurd rfl h
  | cons b n ih =>
    by_cases hb : b = 61
    · subst hb
      simp
    · have e : (b :: n).takeWhile (fun b => decide (b ≠ 61)) = b :: n.takeWhile (fun b => decide (b ≠ 61)) := by
        rw [List.takeWhile_cons, if_pos (decide_eq_true hb)]
      rw [e] at h ⊢
      simp only [List.length_cons, ne_eq, Nat.add_right_cancel_iff] at h
      rw [List.cons_append, List.length_cons, List.drop_succ_cons, ← ih h]

theorem takeWhile_all {p : U8 → Bool} : ∀ n : Bytes, (n.takeWhile p).length = n.length → n.takeWhile p = n := by
  intro n h
  exact (List.takeWhile_prefix p).eq_of_length h

theorem getopt_reads (hp : t.Proper) : ∀ (k : Nat) (args : List Bytes), args.length ≤ k → OptEv.bad ∉ (getoptGo t false args).1 →
    Spells t args (getoptGo t false args).1 (getoptGo t false args).2 := by
  intro k
  induction k with
  | zero =>
    intro args hk _
    rw [List.length_eq_zero_iff.1 (Nat.le_zero.1 hk)]
    exact .nil
  | succ k ih =>
    intro args hk hb
    rcases args with _ | ⟨a, rest⟩
    · exact .nil
    have hr : rest.length ≤ k := Nat.le_of_succ_le_succ hk
    by_cases h1 : a.take 1 = [45]
    · rcases a with _ | ⟨x, a⟩
      · cases h1
      obtain rfl : x = 45 := (List.cons.inj h1).1
      rcases a with _ | ⟨b, a⟩
      · have e : getoptGo t false ([45] :: rest) = ((getoptGo t false rest).1, [45] :: (getoptGo t false rest).2) := by
          rw [getoptGo, if_neg (by decide), if_neg (by decide), if_neg (by decide)]
        rw [e] at hb ⊢
        exact .operand (Or.inr rfl) (ih rest hr hb)
      by_cases h2 : b = 45
      · subst h2
        by_cases h3 : a = []
        · subst h3
          have e : getoptGo t false ([45, 45] :: rest) = ([], rest) := by rw [getoptGo, if_pos rfl]
          rw [e]
          exact .dashes rest
        · have e := go_long (t := t) a rest h3
          rw [e] at hb ⊢
          have hb1 : (longOpt t rest.head? a).1 ≠ .bad := fun h => hb (by rw [h]; exact List.mem_cons_self)
          have hb2 : OptEv.bad ∉ (getoptGo t (longOpt t rest.head? a).2 rest).1 := fun h => hb (List.mem_cons_of_mem _ h)
          clear e hb
          unfold longOpt at hb1 hb2 ⊢
          dsimp only at hb1 hb2 ⊢
          rcases hn : t.name (a.takeWhile (fun b => decide (b ≠ 61))) with _ | ⟨arg, c⟩
          · rw [hn] at hb1
            exact absurd rfl hb1
          · have hm := (name_iff hp).1 hn
            rw [hn] at hb1 hb2
            cases arg with
            | false =>
              dsimp only at hb1 hb2 ⊢
              by_cases hlen : (a.takeWhile (fun b => decide (b ≠ 61))).length = a.length
              · rw [if_pos hlen] at hb2 ⊢
                rw [takeWhile_all _ hlen] at hm
                exact .longFlag h3 hm (ih rest hr hb2)
              · rw [if_neg hlen] at hb1
                exact absurd rfl hb1
            | true =>
              dsimp only at hb1 hb2 ⊢
              by_cases hlen : (a.takeWhile (fun b => decide (b ≠ 61))).length = a.length
              · rw [if_neg (not_not_intro hlen)] at hb1 hb2 ⊢
                rw [takeWhile_all _ hlen] at hm
                rcases rest with _ | ⟨x, rest⟩
                · exact absurd rfl hb1
                · simp only [List.head?_cons, go_skip] at hb2 ⊢
                  exact .longNext h3 hm (ih rest (Nat.le_of_succ_le hr) hb2)
              · rw [if_pos hlen] at hb2 ⊢
                have hs := split_equals a hlen
                have := Spells.longEq (a := a.drop ((a.takeWhile (fun b => decide (b ≠ 61))).length + 1)) hm (ih rest hr hb2)
                rw [← hs] at this
                exact this
      · have e := go_cluster (t := t) (45 :: b :: a) rest b a rfl h2
        rw [e] at hb ⊢
        obtain ⟨fs, hf, hc⟩ := cluster_cases hp rest.head? (b :: a) fun h => hb (List.mem_append_left _ h)
        have hb2 : OptEv.bad ∉ (getoptGo t (cluster t rest.head? (b :: a)).2 rest).1 := fun h => hb (List.mem_append_right _ h)
        rcases hc with ⟨h3, h4⟩ | ⟨b', c, hL, ⟨x, hx, h3, h4⟩ | ⟨x, hx, h3, h4⟩⟩
        · rw [h4] at hb2 ⊢
          rw [h3]
          refine .flags ?_ hf (ih rest hr hb2)
          rintro rfl
          cases h3
        · rw [h4] at hb2 ⊢
          rw [h3, List.append_assoc]
          exact .attached hf hL hx (ih rest hr hb2)
        · rw [h4] at hb2 ⊢
          rcases rest with _ | ⟨y, rest⟩
          · cases hx
          · cases hx
            rw [h3, List.append_assoc]
            simp only [go_skip] at hb2 ⊢
            exact .separate hf hL (ih rest (Nat.le_of_succ_le hr) hb2)
    · have e := getoptGo_operand t a rest h1
      rw [e] at hb ⊢
      exact .operand (Or.inl h1) (ih rest hr hb)

end Bpak
