import Verif.Model.Set
import Verif.Spec.Set
namespace Bpak
open Spec

theorem digitOf_char {c : U8} {d : Nat} (hd : d < 16) (hc : c ∈ digitChars d) : digitOf c = some d := by
  have : ∀ x : Fin 16, ∀ c ∈ digitChars x.val, digitOf c = some x.val := by decide +kernel
  exact this ⟨d, hd⟩ c hc

theorem digitsGo_digits {base : Nat} (hb : base ≤ 16) {t : Bytes} {v : Nat} (h : Digits base t v) : ∀ (rest : Bytes) (acc : Nat) (any : Bool),
    digitsGo base (t ++ rest) acc any = digitsGo base rest (acc * base ^ t.length + v) true := by
  induction h with
  | one c d hd hc =>
    intro rest acc any
    rw [List.singleton_append, digitsGo, digitOf_char (by omega) hc]
    simp only
    rw [if_pos hd]
    simp
  | snoc t v c d _ hd hc ih =>
    intro rest acc any
    rw [List.append_assoc, ih, List.singleton_append, digitsGo, digitOf_char (by omega) hc]
    simp only
    rw [if_pos hd, List.length_append, List.length_singleton, Nat.pow_succ, Nat.add_mul, Nat.mul_assoc, Nat.add_assoc]

/-- A digit string starts with a character for a digit. -/
theorem Digits.first {base : Nat} {t : Bytes} {v : Nat} (h : Digits base t v) : ∃ d c r, d < base ∧ c ∈ digitChars d ∧ t = c :: r ∧
    ∀ x ∈ t, ∃ d, d < base ∧ x ∈ digitChars d := by
  induction h with
  | one c d hd hc => exact ⟨d, c, [], hd, hc, rfl, by intro x hx; simp at hx; subst hx; exact ⟨d, hd, hc⟩⟩
  | snoc t v c d _ hd hc ih =>
    obtain ⟨d1, c1, r, h1, h2, h3, h4⟩ := ih
    refine ⟨d1, c1, r ++ [c], h1, h2, by rw [h3]; rfl, ?_⟩
    intro x hx
    rw [List.mem_append] at hx
    rcases hx with hx | hx
    · exact h4 x hx
    · simp at hx; subst hx; exact ⟨d, hd, hc⟩

theorem digit_plain {d : Nat} {c : U8} (hd : d < 16) (hc : c ∈ digitChars d) : isSpaceC c = false ∧ c ≠ 45 ∧ c ≠ 43 ∧ c ≠ 120 ∧ c ≠ 88 := by
  have : ∀ x : Fin 16, ∀ c ∈ digitChars x.val, isSpaceC c = false ∧ c ≠ 45 ∧ c ≠ 43 ∧ c ≠ 120 ∧ c ≠ 88 := by decide +kernel
  exact this ⟨d, hd⟩ c hc

/-- What `strtol` does after the sign. -/
def strtoBody (base : Nat) (s2 : Bytes) : Option Nat :=
  if s2.head? = some 48 ∧ (s2[1]? = some 120 ∨ s2[1]? = some 88) then
    some (digitsGo 16 (s2.drop 2) 0 false).1
  else
    let r := digitsGo (if base = 0 then (if s2.head? = some 48 then 8 else 10) else base) s2 0 false
    if r.2 then some r.1 else none

theorem strtoAny_plain (base : Nat) (c : U8) (r : Bytes) (h1 : isSpaceC c = false) (h2 : c ≠ 45) (h3 : c ≠ 43) :
    strtoAny base (c :: r) = (strtoBody base (c :: r)).map (fun v => (false, v)) := by
  unfold strtoAny strtoBody
  have : (c :: r).dropWhile isSpaceC = c :: r := by rw [List.dropWhile_cons_of_neg (by rw [h1]; simp)]
  simp only [this, List.head?_cons, Option.some.injEq, h2, h3, or_self, if_false]
  have hb : (some c == some (45 : U8)) = false := by simp; exact h2
  rw [hb]
  split
  · rfl
  · generalize digitsGo _ _ 0 false = q
    obtain ⟨a, b⟩ := q
    cases b <;> rfl

theorem strtoAny_sign (base : Nat) (c : U8) (r : Bytes) (h : c = 45 ∨ c = 43) :
    strtoAny base (c :: r) = (strtoBody base r).map (fun v => (c == 45, v)) := by
  unfold strtoAny strtoBody
  have hs : isSpaceC c = false := by rcases h with rfl | rfl <;> decide
  have : (c :: r).dropWhile isSpaceC = c :: r := by rw [List.dropWhile_cons_of_neg (by rw [hs]; simp)]
  have hb : (some c == some (45 : U8)) = (c == 45) := by simp
  simp only [this, List.head?_cons, Option.some.injEq, h, if_true, List.drop_succ_cons, List.drop_zero, hb]
  split
  · rfl
  · generalize digitsGo _ _ 0 false = q
    obtain ⟨a, b⟩ := q
    cases b <;> rfl

theorem strtoBody_numeral {t : Bytes} {v : Nat} (h : Numeral t v) : strtoBody 0 t = some v := by
  unfold strtoBody
  cases h with
  | dec t v hd h0 =>
    rw [if_neg (by intro hc; exact h0 hc.1), if_pos rfl, if_neg h0]
    have := digitsGo_digits (by omega) hd [] 0 false
    rw [List.append_nil] at this
    simp only [this, digitsGo, Nat.zero_mul, Nat.zero_add, if_true]
  | oct t v hd h0 =>
    rw [if_neg, if_pos rfl, if_pos h0]
    · have := digitsGo_digits (by omega) hd [] 0 false
      rw [List.append_nil] at this
      simp only [this, digitsGo, Nat.zero_mul, Nat.zero_add, if_true]
    · rintro ⟨-, hc⟩
      obtain ⟨-, -, -, -, -, -, hall⟩ := Digits.first hd
      have : ∀ x : U8, t[1]? = some x → x ≠ 120 ∧ x ≠ 88 := by
        intro x hx
        obtain ⟨d, h1, h2⟩ := hall x (List.mem_of_getElem? hx)
        exact (digit_plain (by omega) h2).2.2.2
      rcases hc with hc | hc
      · exact (this _ hc).1 rfl
      · exact (this _ hc).2 rfl
  | hex t v x hd hx =>
    rw [if_pos ⟨rfl, by simpa using hx⟩]
    have := digitsGo_digits (by omega) hd [] 0 false
    rw [List.append_nil] at this
    simp only [List.drop_succ_cons, List.drop_zero, this, digitsGo, Nat.zero_mul, Nat.zero_add]

theorem Numeral.first {t : Bytes} {v : Nat} (h : Numeral t v) : ∃ d c r, d < 16 ∧ c ∈ digitChars d ∧ t = c :: r := by
  cases h with
  | dec t v hd _ => obtain ⟨d, c, r, h1, h2, h3, -⟩ := Digits.first hd; exact ⟨d, c, r, by omega, h2, h3⟩
  | oct t v hd _ => obtain ⟨d, c, r, h1, h2, h3, -⟩ := Digits.first hd; exact ⟨d, c, r, by omega, h2, h3⟩
  | hex t v x hd _ => exact ⟨0, 48, x :: t, by omega, by decide, rfl⟩

theorem strtolChecked_integer {t : Bytes} {v : Int} (h : Spec.Integer t v) :
    strtolChecked t = if -2^63 ≤ v ∧ v < 2^63 then some (BitVec.ofInt 64 v) else none := by
  unfold strtolChecked
  cases h with
  | plain t v hn =>
    obtain ⟨d, c, r, h1, h2, rfl⟩ := Numeral.first hn
    obtain ⟨p1, p2, p3, -, -⟩ := digit_plain h1 h2
    rw [strtoAny_plain 0 c r p1 p2 p3, strtoBody_numeral hn]
    simp only [Option.map_some, Bool.false_eq_true, if_false]
    by_cases hv : v < 2^63
    · rw [if_pos hv, if_pos (by omega), BitVec.ofInt_natCast]
    · rw [if_neg hv, if_neg (by omega)]
  | plus t v hn =>
    rw [strtoAny_sign 0 43 t (Or.inr rfl), strtoBody_numeral hn]
    simp only [Option.map_some]
    rw [if_neg (by decide)]
    by_cases hv : v < 2^63
    · rw [if_pos hv, if_pos (by omega), BitVec.ofInt_natCast]
    · rw [if_neg hv, if_neg (by omega)]
  | minus t v hn =>
    rw [strtoAny_sign 0 45 t (Or.inl rfl), strtoBody_numeral hn]
    simp only [Option.map_some]
    rw [if_pos (by decide)]
    by_cases hv : v ≤ 2^63
    · rw [if_pos hv, if_pos (by omega)]
    · rw [if_neg hv, if_neg (by omega)]

/-- Text that does not start (after white space and a sign) with a decimal digit is refused. -/
theorem strtolChecked_refused (sp sg t : Bytes) (hsp : ∀ c ∈ sp, isSpaceC c = true) (hsg : sg = [] ∨ sg = [43] ∨ sg = [45])
    (ht : ∀ c r, t = c :: r → isSpaceC c = false ∧ (sg = [] → c ≠ 43 ∧ c ≠ 45) ∧ (c.toNat < 48 ∨ 57 < c.toNat)) :
    strtolChecked (sp ++ (sg ++ t)) = none := by
  have hbody : strtoBody 0 t = none := by
    unfold strtoBody
    cases t with
    | nil => decide
    | cons c r =>
      obtain ⟨-, -, h1⟩ := ht c r rfl
      have h48 : c ≠ 48 := by rintro rfl; revert h1; decide
      have hh : (c :: r).head? ≠ some 48 := by simpa using h48
      rw [if_neg (by intro hc; exact hh hc.1), if_pos rfl, if_neg hh]
      have : digitsGo 10 (c :: r) 0 false = (0, false) := by
        rw [digitsGo]
        have hd : digitOf c = none ∨ ∃ d, digitOf c = some d ∧ ¬ d < 10 := by
          unfold digitOf
          rw [if_neg (by omega)]
          split
          · right; exact ⟨_, rfl, by omega⟩
          · split
            · right; exact ⟨_, rfl, by omega⟩
            · left; rfl
        rcases hd with hd | ⟨d, hd, hlt⟩
        · rw [hd]
        · rw [hd]; simp only; rw [if_neg hlt]
      simp only [this]
      rfl
  have hdrop : ∀ (sp x : Bytes), (∀ c ∈ sp, isSpaceC c = true) → (sp ++ x).dropWhile isSpaceC = x.dropWhile isSpaceC := by
    intro sp x h
    induction sp with
    | nil => rfl
    | cons a sp ih => rw [List.cons_append, List.dropWhile_cons_of_pos (h a (by simp)), ih (fun c hc => h c (by simp [hc]))]
  have hskip : strtoAny 0 (sp ++ (sg ++ t)) = strtoAny 0 (sg ++ t) := by
    unfold strtoAny
    rw [hdrop sp _ hsp]
  unfold strtolChecked
  rw [hskip]
  have : strtoAny 0 (sg ++ t) = none := by
    rcases hsg with rfl | rfl | rfl
    · cases t with
      | nil => decide
      | cons c r =>
        obtain ⟨h1, h2, -⟩ := ht c r rfl
        rw [List.nil_append, strtoAny_plain 0 c r h1 (h2 rfl).2 (h2 rfl).1, hbody]; rfl
    · rw [List.singleton_append, strtoAny_sign 0 43 t (Or.inr rfl), hbody]; rfl
    · rw [List.singleton_append, strtoAny_sign 0 45 t (Or.inl rfl), hbody]; rfl
  rw [this]

end Bpak
