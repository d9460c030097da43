import Verif.Props.Lzma
/-!
A coder that keeps the promises of Spec/Lzma.lean, so that they are not contradictory: it stores the data in blocks of eight bytes, each behind its
length; the last block has fewer than eight. Both directions take all input at once and give output when the stream is finished.
-/
namespace Bpak

/-- Blocks of eight bytes, each behind its length; the last one is shorter. -/
def storeFmt : Bytes → Bytes
  | a :: b :: c :: d :: e :: f :: g :: h :: t => 8 :: a :: b :: c :: d :: e :: f :: g :: h :: storeFmt t
  | x => BitVec.ofNat 8 x.length :: x

/-- And back. -/
def storeUnfmt : Bytes → Option Bytes
  | n :: a :: b :: c :: d :: e :: f :: g :: h :: t =>
    if n = 8 then (storeUnfmt t).map (fun x => a :: b :: c :: d :: e :: f :: g :: h :: x) else none
  | n :: x => if n.toNat = x.length ∧ x.length < 8 then some x else none
  | [] => none

/-- The part of `storeFmt` that is not a full block. -/
theorem storeFmt_short (x : Bytes) (h : x.length < 8) : storeFmt x = BitVec.ofNat 8 x.length :: x := by
  match x with
  | a :: b :: c :: d :: e :: f :: g :: h' :: t => simp at h; omega
  | [] => rfl
  | [_] => rfl
  | [_, _] => rfl
  | [_, _, _] => rfl
  | [_, _, _, _] => rfl
  | [_, _, _, _, _] => rfl
  | [_, _, _, _, _, _] => rfl
  | [_, _, _, _, _, _, _] => rfl

theorem long_shape (x : Bytes) (h : 8 ≤ x.length) : ∃ a b c d e f g i t, x = a :: b :: c :: d :: e :: f :: g :: i :: t := by
  match x with
  | a :: b :: c :: d :: e :: f :: g :: i :: t => exact ⟨a, b, c, d, e, f, g, i, t, rfl⟩
  | [] => simp at h
  | [_] => simp at h
  | [_, _] => simp at h
  | [_, _, _] => simp at h
  | [_, _, _, _] => simp at h
  | [_, _, _, _, _] => simp at h
  | [_, _, _, _, _, _] => simp at h
  | [_, _, _, _, _, _, _] => simp at h

theorem storeUnfmt_short (n : U8) (x : Bytes) (h : x.length < 8) : storeUnfmt (n :: x) = if n.toNat = x.length then some x else none := by
  match x with
  | a :: b :: c :: d :: e :: f :: g :: h' :: t => simp at h; omega
  | [] => simp [storeUnfmt]
  | [_] => simp [storeUnfmt]
  | [_, _] => simp [storeUnfmt]
  | [_, _, _] => simp [storeUnfmt]
  | [_, _, _, _] => simp [storeUnfmt]
  | [_, _, _, _, _] => simp [storeUnfmt]
  | [_, _, _, _, _, _] => simp [storeUnfmt]
  | [_, _, _, _, _, _, _] => simp [storeUnfmt]

theorem ofNat8 {n : Nat} (h : n < 8) : (BitVec.ofNat 8 n).toNat = n := by
  rw [BitVec.toNat_ofNat, Nat.mod_eq_of_lt (by omega)]

/-- Only the whole of a stored text can be read back. -/
theorem store_read (k : Nat) : ∀ x i : Bytes, x.length ≤ k → i <+: storeFmt x → (i = storeFmt x → storeUnfmt i = some x) ∧ (i ≠ storeFmt x → storeUnfmt i = none) := by
  induction k using Nat.strongRecOn with
  | ind k ih =>
    intro x i hk hp
    by_cases hx : x.length < 8
    · rw [storeFmt_short x hx] at hp ⊢
      refine ⟨?_, ?_⟩
      · intro e
        rw [e, storeUnfmt_short _ x hx, if_pos (ofNat8 hx)]
      · intro hne
        cases i with
        | nil => rfl
        | cons m i =>
          obtain ⟨rfl, hq⟩ := List.cons_prefix_cons.1 hp
          have hl := hq.length_le
          rw [storeUnfmt_short _ i (by omega), ofNat8 hx, if_neg]
          intro e
          exact hne (by rw [hq.eq_of_length e.symm])
    · obtain ⟨a, b, c, d, e, f, g, h, t, rfl⟩ := long_shape x (by omega)
      unfold storeFmt at hp ⊢
      have ht : t.length < k := by simp at hk; omega
      cases i with
      | nil => exact ⟨(fun e => by simp at e), fun _ => rfl⟩
      | cons m i =>
        obtain ⟨rfl, hq⟩ := List.cons_prefix_cons.1 hp
        by_cases hi : i.length < 8
        · refine ⟨fun e => ?_, fun _ => ?_⟩
          · injection e with _ e
            rw [e] at hi
            simp at hi
            omega
          · rw [storeUnfmt_short _ i hi, if_neg]
            simp only [BitVec.reduceToNat]
            omega
        · obtain ⟨a', b', c', d', e', f', g', h', t', rfl⟩ := long_shape i (by omega)
          obtain ⟨rfl, hp0⟩ := List.cons_prefix_cons.1 hq
          obtain ⟨rfl, hp1⟩ := List.cons_prefix_cons.1 hp0
          obtain ⟨rfl, hp2⟩ := List.cons_prefix_cons.1 hp1
          obtain ⟨rfl, hp3⟩ := List.cons_prefix_cons.1 hp2
          obtain ⟨rfl, hp4⟩ := List.cons_prefix_cons.1 hp3
          obtain ⟨rfl, hp5⟩ := List.cons_prefix_cons.1 hp4
          obtain ⟨rfl, hp6⟩ := List.cons_prefix_cons.1 hp5
          obtain ⟨rfl, hp7⟩ := List.cons_prefix_cons.1 hp6
          obtain ⟨i1, i2⟩ := ih t.length ht t t' (Nat.le_refl _) hp7
          refine ⟨fun e => ?_, fun hne => ?_⟩
          · unfold storeUnfmt
            rw [if_pos rfl, i1 (by simpa using e)]
            rfl
          · unfold storeUnfmt
            rw [if_pos rfl, i2 (by intro e; exact hne (by rw [e]))]
            rfl

theorem store_size (k : Nat) : ∀ x : Bytes, x.length ≤ k → 8 * (storeFmt x).length ≤ 9 * x.length + 8 := by
  induction k using Nat.strongRecOn with
  | ind k ih =>
    intro x hk
    by_cases hx : x.length < 8
    · rw [storeFmt_short x hx, List.length_cons]; omega
    · obtain ⟨a, b, c, d, e, f, g, h, t, rfl⟩ := long_shape x (by omega)
      have ht : t.length < k := by simp at hk; omega
      have := ih t.length ht t (Nat.le_refl _)
      unfold storeFmt
      simp only [List.length_cons] at this ⊢
      omega

/-- What was taken and how many bytes of the result were given, after a history of calls. -/
def storeStep (F : Bytes → Option Bytes) (s : Bytes × Nat) (c : LzCall) : Bytes × Nat :=
  if c.finish then (s.1, s.2 + (((F s.1).getD []).drop s.2 |>.take c.room).length) else (s.1 ++ c.input, s.2)

def storeState (F : Bytes → Option Bytes) (h : List LzCall) : Bytes × Nat := h.foldl (storeStep F) ([], 0)

/-- A coder that gives `F` of the input, or fails where that is not defined. -/
def storeCode (F : Bytes → Option Bytes) (h : List LzCall) (c : LzCall) : LzDone :=
  if c.finish then
    match F (storeState F h).1 with
    | none => ⟨.error, 0, []⟩
    | some x => ⟨if x.length ≤ (storeState F h).2 + c.room then .streamEnd else .ok, 0, (x.drop (storeState F h).2).take c.room⟩
  else ⟨.ok, c.input.length, []⟩

def storeRounds (F : Bytes → Option Bytes) (h : List LzCall) (rest : Bytes) : Nat :=
  rest.length + (((F ((storeState F h).1 ++ rest)).getD []).length - (storeState F h).2)

theorem pre_of {o x : Bytes} (h : o = x.take o.length) : ∃ y, x = o ++ y := by
  have := List.take_append_drop o.length x
  rw [← h] at this
  exact ⟨_, this.symm⟩

/-- The state after calls that went well. -/
theorem store_ran {F : Bytes → Option Bytes} {h : List LzCall} {fin : Bool} {i o : Bytes} (r : LzRan (storeCode F) h fin i o) :
    storeState F h = (i, o.length) ∧ o = ((F i).getD []).take o.length ∧ (fin = false → o = []) := by
  induction r with
  | start => exact ⟨rfl, by simp, fun _ => rfl⟩
  | @call h fin i o c before proper ok ih =>
    obtain ⟨h1, h2, h3⟩ := ih
    have hs : storeState F (h ++ [c]) = storeStep F (i, o.length) c := by
      unfold storeState at h1 ⊢
      rw [List.foldl_append, h1]
      rfl
    have hp := proper.2
    clear before proper
    rw [hs]
    unfold storeCode at ok ⊢
    unfold storeStep
    rw [h1] at ok ⊢
    cases hc : c.finish with
    | false =>
      rw [hc] at hp
      have h0 := h3 (by simpa using (by simpa using hp : fin = false ∧ c.input ≠ []).1)
      simp [h0]
    | true =>
      rw [hc] at hp
      have hi : c.input = [] := by simpa using hp
      rw [hc] at ok
      cases hF : F i with
      | none =>
        simp only [hF, if_true] at ok
        cases ok
      | some x =>
        rw [hF] at h2
        simp only [Option.getD_some] at h2
        obtain ⟨y, rfl⟩ := pre_of h2
        simp only [hF, hi, if_true, Option.getD_some, List.take_nil, List.append_nil, List.length_append, List.drop_left]
        refine ⟨trivial, ?_, fun e => by cases e⟩
        rw [List.take_length_add_append]
        congr 1
        rw [List.take_eq_take_iff, List.length_take, Nat.min_assoc, Nat.min_self]

/-- The calls bound by `storeRounds`. -/
theorem store_step {F : Bytes → Option Bytes} {h : List LzCall} {fin : Bool} {i o : Bytes} (r : LzRan (storeCode F) h fin i o) (c : LzCall) (hp : c.Proper fin) :
    (storeCode F h c).used ≤ c.input.length ∧ (storeCode F h c).out.length ≤ c.room ∧ ((storeCode F h c).ret = .streamEnd → c.finish = true) ∧
    ((storeCode F h c).ret = .ok → storeRounds F (h ++ [c]) (c.input.drop (storeCode F h c).used) < storeRounds F h c.input) := by
  obtain ⟨h1, h2, h3⟩ := store_ran r
  have hs : storeState F (h ++ [c]) = storeStep F (i, o.length) c := by
    unfold storeState at h1 ⊢
    rw [List.foldl_append, h1]
    rfl
  unfold storeRounds
  rw [hs, h1]
  have hroom := hp.1
  have hp := hp.2
  unfold storeCode storeStep
  rw [h1]
  cases hc : c.finish with
  | false =>
    rw [hc] at hp
    have hne : c.input ≠ [] := (by simpa using hp : fin = false ∧ c.input ≠ []).2
    have := List.length_pos_iff.2 hne
    simp
    omega
  | true =>
    rw [hc] at hp
    have hi : c.input = [] := by simpa using hp
    simp only [if_true]
    cases hF : F i with
    | none => simp
    | some x =>
      simp only [hi, List.length_nil, List.drop_nil, List.append_nil, hF, Option.getD_some, List.length_take, List.length_drop]
      refine ⟨Nat.le_refl _, Nat.min_le_left _ _, fun _ => trivial, ?_⟩
      intro hok
      split at hok
      · cases hok
      · rename_i hx
        have hm : min c.room (x.length - o.length) = c.room := Nat.min_eq_left (by omega)
        rw [hm]
        omega

/-- The coder: `storeFmt` and `storeUnfmt`. -/
@[instance_reducible] def storeLib : LzmaLib where
  enc := storeCode (fun x => some (storeFmt x))
  dec := storeCode storeUnfmt
  encRounds := storeRounds (fun x => some (storeFmt x))
  decRounds := storeRounds storeUnfmt

/-- All of the result, when the stream ends. -/
theorem store_end {F : Bytes → Option Bytes} {h : List LzCall} {fin : Bool} {i o : Bytes} (r : LzRan (storeCode F) h fin i o) (c : LzCall) (e : (storeCode F h c).ret = .streamEnd) :
    F i = some (o ++ (storeCode F h c).out) := by
  obtain ⟨h1, h2, h3⟩ := store_ran r
  unfold storeCode at e ⊢
  rw [h1] at e ⊢
  cases hc : c.finish with
  | false => simp [hc] at e
  | true =>
    simp only [hc, if_true] at e ⊢
    cases hF : F i with
    | none => rw [hF] at e; simp at e
    | some x =>
      rw [hF] at e h2
      simp only [Option.getD_some] at h2
      simp only at e ⊢
      split at e
      · rename_i hx
        rw [List.take_of_length_le (by rw [List.length_drop]; omega)]
        obtain ⟨y, rfl⟩ := pre_of h2
        rw [List.drop_left]
      · cases e

theorem store_stream {x z : Bytes} (h : @XzStream storeLib x z) : z = storeFmt x := by
  obtain ⟨h, fin, o, c, r, _, e, rfl⟩ := h
  have := store_end r c e
  injection this with this
  exact this.symm

/-- The promises are kept. -/
theorem store_laws : @LzmaLaws storeLib := by
  refine @LzmaLaws.mk storeLib ?_ ?_ ?_ ?_ ?_ ?_ ?_
  · intro h fin i o c r hp
    exact store_step r c hp
  · intro h fin i o c r hp
    show (storeCode _ h c).ret ≠ .error
    unfold storeCode
    split
    · simp only; split <;> simp
    · simp
  · intro h fin i o c r hp
    exact store_step r c hp
  · intro x z h fin i o c hz r hp hi
    have hz := store_stream hz
    subst hz
    obtain ⟨h1, h2, h3⟩ := store_ran r
    show o ++ (storeCode storeUnfmt h c).out <+: x ∧ (_ → (storeCode storeUnfmt h c).ret ≠ .error)
    have hp := hp.2
    unfold storeCode
    rw [h1]
    cases hc : c.finish with
    | false =>
      rw [hc] at hp
      have h0 := h3 (by simpa using (by simpa using hp : fin = false ∧ c.input ≠ []).1)
      simp [h0]
    | true =>
      simp only [if_true]
      have hi' : i <+: storeFmt x := (List.prefix_append _ _).trans hi
      obtain ⟨s1, s2⟩ := store_read x.length x i (Nat.le_refl _) hi'
      by_cases he : i = storeFmt x
      · rw [s1 he] at h2 ⊢
        simp only [Option.getD_some] at h2 ⊢
        refine ⟨?_, ?_⟩
        · obtain ⟨y, rfl⟩ := pre_of h2
          rw [List.drop_left]
          exact (List.prefix_append_right_inj _).2 (List.take_prefix _ _)
        · intro _; split <;> simp
      · rw [s2 he] at h2 ⊢
        simp only [Option.getD_none, List.take_nil] at h2
        subst h2
        simp [he]
  · intro x z h fin o c hz r hp e
    have hz := store_stream hz
    subst hz
    have := store_end r c e
    rw [(store_read x.length x _ (Nat.le_refl _) (List.prefix_refl _)).1 rfl] at this
    injection this with this
    exact this.symm
  · intro x z h fin i o c hz r hp hi hne e
    have hz := store_stream hz
    subst hz
    have := store_end r c e
    rw [(store_read x.length x _ (Nat.le_refl _) hi).2 hne] at this
    cases this
  · intro x z hz
    rw [store_stream hz]
    have := store_size x.length x (Nat.le_refl _)
    omega

/-- "banana" to "bandana" through both ends, the compressed delta fed byte by byte; and without its last byte. -/
example : (match @bsdiffLzma storeLib (searchCall [5, 3, 1, 0, 4, 2, 0] [98, 97, 110, 97, 110, 97] [98, 97, 110, 100, 97, 110, 97]) [98, 97, 110, 97, 110, 97] [98, 97, 110, 100, 97, 110, 97] 0 [] with
    | some (.ok s) =>
      match @lzPatchRun storeLib (patchCfg [98, 97, 110, 97, 110, 97] 0 0 3) (LzPatch.init []) (s.file.map ([·])) with
      | .ok t => match @lzPatchFinal storeLib (patchCfg [98, 97, 110, 97, 110, 97] 0 0 3) t with
        | .ok (t, n) => (t.p.out, n)
        | _ => ([], 0)
      | _ => ([], 0)
    | _ => ([], 0)) = ([98, 97, 110, 100, 97, 110, 97], 7) := by decide +kernel

end Bpak
