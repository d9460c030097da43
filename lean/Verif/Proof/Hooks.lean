import Verif.Spec.Hooks
import Verif.Proof.Pkg
import Verif.Props.Header
namespace Bpak.Hk

variable {o : Oracle} {hk : Hooks}

theorem bind_eq {α β : Type} (m : K α) (f : α → K β) (l : List Ev) : (m >>= f) o l = f (m o l).1 o (m o l).2 := rfl

theorem pure_eq {α : Type} (a : α) (l : List Ev) : (Pure.pure a : K α) o l = (a, l) := rfl

theorem if_pos' {α : Type} {c : Prop} [Decidable c] (h : c) (a b : K α) (l : List Ev) : (if c then a else b : K α) o l = a o l := by
  rw [if_pos h]

theorem if_neg' {α : Type} {c : Prop} [Decidable c] (h : ¬ c) (a b : K α) (l : List Ev) : (if c then a else b : K α) o l = b o l := by
  rw [if_neg h]

theorem hook_bind {α : Type} {slot : Option Nat} {f : Nat} (h : slot = some f) (c : HCall) (g : Ans → K α) (l : List Ev) :
    (callHook slot c >>= g) o l = g (o l f c) o (l ++ [⟨f, c, o l f c⟩]) := by
  subst h
  rfl

theorem hook_bind_none {α : Type} {slot : Option Nat} (h : slot = none) (c : HCall) (g : Ans → K α) (l : List Ev) :
    (callHook slot c >>= g) o l = g ⟨.notSupported, [], ⟨0, 0, []⟩, false⟩ o l := by
  subst h
  rfl

theorem fed_append (a b : List Ev) : fed (a ++ b) = fed a ++ fed b := by
  induction a with
  | nil => rfl
  | cons e a ih => rw [List.cons_append, fed, fed, ih, List.append_assoc]

/-- Successful updates. -/
def Ups (hk : Hooks) (ups : List Ev) : Prop :=
  ∀ e ∈ ups, hk.update = some e.fn ∧ (∃ d, e.call = .update d) ∧ e.ans.code = .ok

theorem Ups.append {a b : List Ev} (h1 : Ups hk a) (h2 : Ups hk b) : Ups hk (a ++ b) := fun e he =>
  (List.mem_append.1 he).elim (h1 e) (h2 e)

theorem hashUpdate_ok {d : Bytes} {l l' : List Ev} (h : hashUpdate hk d o l = (.ok, l')) :
    ∃ e, l' = l ++ [e] ∧ Ups hk [e] ∧ fed [e] = d := by
  unfold hashUpdate at h
  rw [bind_eq, pure_eq] at h
  unfold callHook at h
  cases hu : hk.update with
  | none => rw [hu] at h; exact nomatch (Prod.mk.inj h).1
  | some f =>
    rw [hu] at h
    obtain ⟨h1, h2⟩ := Prod.mk.inj h
    refine ⟨_, h2.symm, fun e he => ?_, ?_⟩
    · rw [List.mem_singleton] at he
      subst he
      exact ⟨hu, ⟨d, rfl⟩, h1⟩
    · simp [fed]

theorem payloadRead_ok (rd : Reader) (n : Nat) : ∀ (off off' : U64) (l l' : List Ev),
    payloadRead hk rd off n o l = (.ok off', l') →
      ∃ ups, l' = l ++ ups ∧ Ups hk ups ∧ ∀ c, payloadReadLoop rd off n c = .ok (off', Bpak.hashUpdate c (fed ups)) := by
  induction n using Nat.strongRecOn with
  | ind n ih =>
    intro off off' l l' h
    rw [payloadRead] at h
    split at h
    · exact nomatch (Prod.mk.inj h).1
    · rename_i x hx
      split at h
      · exact nomatch (Prod.mk.inj h).1
      · rename_i hlen
        dsimp only at h
        cases hu : hashUpdate hk x o l with
        | mk e1 l1 =>
          rw [hu] at h
          dsimp only at h
          by_cases he1 : e1 = .ok
          · subst he1
            obtain ⟨e, rfl, he, hfe⟩ := hashUpdate_ok hu
            rw [if_neg (by simp)] at h
            split at h
            · rename_i hz
              obtain ⟨h1, rfl⟩ := Prod.mk.inj h
              refine ⟨[e], rfl, he, fun c => ?_⟩
              rw [payloadReadLoop, hx]
              dsimp only
              rw [if_neg hlen, dif_pos hz, hfe, Except.ok.inj h1]
            · rename_i hz
              obtain ⟨ups, rfl, hups, hc⟩ := ih _ (by omega) _ _ _ _ h
              refine ⟨e :: ups, by rw [List.append_assoc]; rfl, Ups.append he hups, fun c => ?_⟩
              rw [payloadReadLoop, hx]
              dsimp only
              rw [if_neg hlen, dif_neg hz, hc]
              have hf := fed_append [e] ups
              rw [hfe] at hf
              rw [show e :: ups = [e] ++ ups from rfl, hf]
              simp only [Bpak.hashUpdate, List.append_assoc]
          · rw [if_pos he1] at h
            exact nomatch (Prod.mk.inj h).1

theorem payloadRead_error (rd : Reader) (n : Nat) : ∀ (off : U64) (l : List Ev),
    (payloadRead hk rd off n o l).1 ≠ .error .ok := by
  induction n using Nat.strongRecOn with
  | ind n ih =>
    intro off l h
    rw [payloadRead] at h
    split at h
    · exact nomatch h
    · split at h
      · exact nomatch h
      · dsimp only at h
        split at h
        · rename_i hne
          exact hne (Except.error.inj h)
        · split at h
          · exact nomatch h
          · exact ih _ (by omega) _ _ h

theorem payloadParts_ok (rd : Reader) (ps : List PartHdr) : ∀ (off : U64) (l l' : List Ev),
    payloadParts hk rd ps off o l = (.ok, l') →
      ∃ ups, l' = l ++ ups ∧ Ups hk ups ∧ ∀ c, payloadHashGo rd ps off c = .ok (Bpak.hashUpdate c (fed ups)) := by
  induction ps with
  | nil =>
    intro off l l' h
    obtain ⟨_, rfl⟩ := Prod.mk.inj h
    exact ⟨[], (List.append_nil _).symm, (fun e he => nomatch he), fun c => by simp [payloadHashGo, Bpak.hashUpdate, fed]⟩
  | cons p ps ih =>
    intro off l l' h
    unfold payloadParts at h
    unfold payloadHashGo
    by_cases h0 : p.id = 0
    · simp only [h0, if_true] at h ⊢
      exact ih _ _ _ h
    · simp only [h0, if_false] at h ⊢
      by_cases hx : p.isExcluded = true
      · simp only [hx, if_true] at h ⊢
        exact ih _ _ _ h
      · simp only [hx] at h ⊢
        rw [if_neg (by decide), bind_eq] at h
        cases hr : payloadRead hk rd off (partSize p).toNat o l with
        | mk r l1 =>
          rw [hr] at h
          dsimp only at h
          cases r with
          | error e =>
            obtain ⟨h1, _⟩ := Prod.mk.inj h
            subst h1
            exact absurd (by rw [hr]) (payloadRead_error (o := o) (hk := hk) rd (partSize p).toNat off l)
          | ok off1 =>
            obtain ⟨a, rfl, ha, hca⟩ := payloadRead_ok rd _ _ _ _ _ hr
            obtain ⟨b, rfl, hb, hcb⟩ := ih _ _ _ h
            refine ⟨a ++ b, List.append_assoc _ _ _, ha.append hb, fun c => ?_⟩
            rw [if_neg (by decide), hca]
            dsimp only
            rw [hcb, fed_append]
            simp only [Bpak.hashUpdate, List.append_assoc]
theorem updates_ok (ds : List Bytes) : ∀ (l l' : List Ev), updates hk ds o l = (.ok, l') →
    ∃ ups, l' = l ++ ups ∧ Ups hk ups ∧ fed ups = ds.flatten := by
  induction ds with
  | nil =>
    intro l l' h
    obtain ⟨_, rfl⟩ := Prod.mk.inj h
    exact ⟨[], (List.append_nil _).symm, (fun e he => nomatch he), rfl⟩
  | cons d ds ih =>
    intro l l' h
    unfold updates at h
    rw [bind_eq] at h
    cases hu : hashUpdate hk d o l with
    | mk e l1 =>
      rw [hu] at h
      dsimp only at h
      by_cases he : e = .ok
      · subst he
        rw [if_pos' rfl] at h
        obtain ⟨a, rfl, ha, hfa⟩ := hashUpdate_ok hu
        obtain ⟨b, rfl, hb, hfb⟩ := ih _ _ h
        refine ⟨a :: b, by rw [List.append_assoc]; rfl, Ups.append ha hb, ?_⟩
        rw [show a :: b = [a] ++ b from rfl, fed_append, hfa, hfb, List.flatten_cons]
      · rw [if_neg' he] at h
        exact absurd (Prod.mk.inj h).1 he

theorem updates_cons (d : Bytes) (ds : List Bytes) (l : List Ev) (f : Nat) (hu : hk.update = some f) :
    updates hk (d :: ds) o l =
      if (o l f (.update d)).code = .ok then updates hk ds o (l ++ [⟨f, .update d, o l f (.update d)⟩])
      else ((o l f (.update d)).code, l ++ [⟨f, .update d, o l f (.update d)⟩]) := by
  rw [updates]
  rw [bind_eq]
  unfold hashUpdate
  rw [bind_eq, pure_eq]
  unfold callHook
  rw [hu]
  dsimp only
  by_cases h : (o l f (.update d)).code = .ok
  · rw [if_pos h, if_pos h]
  · rw [if_neg h, if_neg h]
    rfl

/-- Whatever happens, updates only add to the log, and only calls of the installed update function. -/
theorem updates_log (ds : List Bytes) : ∀ (l : List Ev), ∃ ups, (updates hk ds o l).2 = l ++ ups ∧
    (∀ e ∈ ups, hk.update = some e.fn ∧ ∃ d, e.call = .update d) ∧
    ((updates hk ds o l).1 ≠ .ok → hk.update = none ∨ ∃ e ∈ ups, e.ans.code ≠ .ok) := by
  induction ds with
  | nil => exact fun l => ⟨[], (List.append_nil _).symm, (fun e he => nomatch he), fun h => absurd rfl h⟩
  | cons d ds ih =>
    intro l
    cases hu : hk.update with
    | none =>
      refine ⟨[], ?_, (fun e he => nomatch he), fun _ => Or.inl rfl⟩
      rw [updates, bind_eq]
      unfold hashUpdate
      rw [bind_eq, pure_eq]
      unfold callHook
      rw [hu]
      exact (List.append_nil _).symm
    | some f =>
      rw [updates_cons d ds l f hu]
      have hcall : ∀ e ∈ [(⟨f, .update d, o l f (.update d)⟩ : Ev)], some f = some e.fn ∧ ∃ d, e.call = .update d := by
        intro e he
        rw [List.mem_singleton] at he
        subst he
        exact ⟨rfl, d, rfl⟩
      by_cases hc : (o l f (.update d)).code = .ok
      · rw [if_pos hc]
        obtain ⟨ups, h1, h2, h3⟩ := ih (l ++ [⟨f, .update d, o l f (.update d)⟩])
        rw [hu] at h2 h3
        refine ⟨⟨f, .update d, o l f (.update d)⟩ :: ups, by rw [h1, List.append_assoc]; rfl, fun e he => ?_, fun h => ?_⟩
        · rcases List.mem_cons.1 he with rfl | he
          · exact hcall _ List.mem_cons_self
          · exact h2 e he
        · rcases h3 h with h | ⟨e, he, h⟩
          · exact Or.inl h
          · exact Or.inr ⟨e, List.mem_cons_of_mem _ he, h⟩
      · rw [if_neg hc]
        exact ⟨_, rfl, hcall, fun h => Or.inr ⟨_, List.mem_cons_self, h⟩⟩

theorem hashInit_ok {k : U8} {l l' : List Ev} (h : hashInit hk k o l = (.ok, l')) :
    ∃ i, l' = l ++ [i] ∧ hk.init = some i.fn ∧ i.call = .init k ∧ i.ans.code = .ok := by
  unfold hashInit at h
  rw [bind_eq, pure_eq] at h
  unfold callHook at h
  cases hu : hk.init with
  | none => rw [hu] at h; exact nomatch (Prod.mk.inj h).1
  | some f =>
    rw [hu] at h
    obtain ⟨h1, h2⟩ := Prod.mk.inj h
    exact ⟨_, h2.symm, rfl, rfl, h1⟩

theorem hashFree_log (l : List Ev) : ∃ fr, (hashFree hk o l).2 = l ++ fr ∧ (∀ e ∈ fr, hk.free = some e.fn ∧ e.call = .free) ∧
    fr.length = hk.free.toList.length := by
  unfold hashFree
  cases hf : hk.free with
  | none => exact ⟨[], (List.append_nil _).symm, (fun e he => nomatch he), rfl⟩
  | some f =>
    dsimp only
    rw [bind_eq, pure_eq]
    unfold callHook
    refine ⟨_, rfl, fun e he => ?_, rfl⟩
    rw [List.mem_singleton] at he
    subst he
    exact ⟨rfl, rfl⟩

theorem hashFinal_ok {buf : Bytes} {l l' : List Ev} {r : Bytes × Nat} (h : hashFinal hk buf o l = ((.ok, r), l')) :
    ∃ f, l' = l ++ [f] ∧ hk.final = some f.fn ∧ f.call = .final 64 ∧ f.ans.code = .ok ∧
      r = (f.ans.data.take 64 ++ buf.drop (f.ans.data.take 64).length, (f.ans.data.take 64).length) := by
  unfold hashFinal at h
  rw [bind_eq, pure_eq] at h
  unfold callHook at h
  cases hu : hk.final with
  | none => rw [hu] at h; exact nomatch (Prod.mk.inj (Prod.mk.inj h).1).1
  | some f =>
    rw [hu] at h
    obtain ⟨h1, h2⟩ := Prod.mk.inj h
    obtain ⟨hc, h3⟩ := Prod.mk.inj h1
    dsimp only at hc h3
    rw [if_pos hc] at h3
    exact ⟨_, h2.symm, rfl, rfl, hc, h3.symm⟩

/-- A failing `bpak_hash_final`. -/
theorem hashFinal_fail {buf : Bytes} {l : List Ev} (h : (hashFinal hk buf o l).1.1 ≠ .ok) :
    (hk.final = none ∧ (hashFinal hk buf o l).2 = l) ∨
      ∃ f, (hashFinal hk buf o l).2 = l ++ [f] ∧ hk.final = some f.fn ∧ f.call = .final 64 ∧ f.ans.code ≠ .ok := by
  unfold hashFinal at h ⊢
  rw [bind_eq, pure_eq] at h ⊢
  unfold callHook at h ⊢
  cases hu : hk.final with
  | none => exact Or.inl ⟨rfl, rfl⟩
  | some f =>
    rw [hu] at h
    exact Or.inr ⟨_, rfl, rfl, rfl, h⟩

theorem payloadHash_ok {h : Header} {rd : Reader} {off : U64} {buf d : Bytes} {n : Nat} {l l' : List Ev}
    (hr : payloadHash hk h rd off buf o l = ((.ok, d, n), l')) :
    ∃ evs dig, l' = l ++ evs ∧ d = dig ++ buf.drop dig.length ∧ n = dig.length ∧
      ∃ data, payloadHashGo rd h.parts off ⟨h.hashKind, []⟩ = .ok ⟨h.hashKind, data⟩ ∧ Hashed hk h.hashKind data dig evs := by
  unfold payloadHash at hr
  rw [bind_eq] at hr
  cases hi : hashInit hk h.hashKind o l with
  | mk e l1 =>
    rw [hi] at hr
    dsimp only at hr
    by_cases he : e = .ok
    · subst he
      rw [if_pos' rfl] at hr
      obtain ⟨i, rfl, hi1, hi2, hi3⟩ := hashInit_ok hi
      rw [bind_eq] at hr
      cases hp : payloadParts hk rd h.parts off o (l ++ [i]) with
      | mk e l2 =>
        rw [hp] at hr
        dsimp only at hr
        by_cases he : e = .ok
        · subst he
          rw [if_pos' rfl] at hr
          obtain ⟨ups, rfl, hu, hc⟩ := payloadParts_ok rd _ _ _ _ hp
          rw [bind_eq] at hr
          cases hfin : hashFinal hk buf o (l ++ [i] ++ ups) with
          | mk r l3 =>
            rw [hfin, bind_eq, pure_eq] at hr
            obtain ⟨h1, h2⟩ := Prod.mk.inj hr
            obtain ⟨fr, hf1, hf2, hf3⟩ := hashFree_log (o := o) (hk := hk) l3
            rw [hf1] at h2
            dsimp only at h1 h2
            subst h1
            obtain ⟨f, rfl, g1, g2, g3, g4⟩ := hashFinal_ok hfin
            obtain ⟨rfl, rfl⟩ := Prod.mk.inj g4
            refine ⟨i :: (ups ++ f :: fr), f.ans.data.take 64, ?_, rfl, rfl, fed ups, ?_, i, ups, f, fr, rfl, ⟨hi1, hi2, hi3⟩, hu, rfl,
              ⟨g1, g2, g3, rfl⟩, hf2, hf3⟩
            · rw [← h2]; simp
            · rw [hc]; simp [Bpak.hashUpdate]
        · rw [if_neg' he, bind_eq, pure_eq] at hr
          exact absurd (Prod.mk.inj (Prod.mk.inj hr).1).1 he
    · rw [if_neg' he] at hr
      exact absurd (Prod.mk.inj (Prod.mk.inj hr).1).1 he

theorem headerHash_cases (h : Header) (junk : Bytes) (l : List Ev) :
    ∃ evs, (headerHash hk h junk o l).2 = l ++ evs ∧
      ((∃ dig, (headerHash hk h junk o l).1 = (.ok, dig ++ junk.drop dig.length, dig.length) ∧
          Hashed hk h.hashKind (h.image.take 3582 ++ List.replicate 514 0) dig evs) ∨
        hk.init = none ∨ hk.update = none ∨ hk.final = none ∨ ∃ e ∈ evs, e.ans.code ≠ .ok ∧ e.call ≠ .free) := by
  unfold headerHash
  rw [bind_eq]
  cases hi : hashInit hk h.hashKind o l with
  | mk e l1 =>
    dsimp only
    by_cases he : e = .ok
    · subst he
      rw [if_pos' rfl]
      obtain ⟨i, rfl, hi1, hi2, hi3⟩ := hashInit_ok hi
      rw [bind_eq]
      generalize hds : (h.image.take (4096 - 512 - 2) :: List.replicate (512 + 2) [0] : List Bytes) = ds
      have hflat : ds.flatten = h.image.take 3582 ++ List.replicate 514 0 := by
        rw [← hds, List.flatten_cons]
        show _ ++ _ = _ ++ List.replicate (512 + 2) 0
        generalize 512 + 2 = m
        refine congrArg _ ?_
        induction m with
        | zero => rfl
        | succ m ih => rw [List.replicate_succ, List.flatten_cons, ih, List.replicate_succ]; rfl
      clear hds
      cases hp : updates hk ds o (l ++ [i]) with
      | mk e l2 =>
        dsimp only
        by_cases he : e = .ok
        · subst he
          rw [if_pos' rfl]
          obtain ⟨ups, rfl, hu, hc⟩ := updates_ok _ _ _ hp
          rw [bind_eq, bind_eq, pure_eq]
          obtain ⟨fr, hf1, hf2, hf3⟩ := hashFree_log (o := o) (hk := hk) (hashFinal hk junk o (l ++ [i] ++ ups)).2
          dsimp only
          rw [hf1]
          by_cases hcok : (hashFinal hk junk o (l ++ [i] ++ ups)).1.1 = .ok
          · cases hfin : hashFinal hk junk o (l ++ [i] ++ ups) with
            | mk r l3 =>
              obtain ⟨c, r⟩ := r
              rw [hfin] at hcok
              dsimp only at hcok
              subst hcok
              obtain ⟨f, rfl, g1, g2, g3, rfl⟩ := hashFinal_ok hfin
              exact ⟨i :: (ups ++ f :: fr), by simp, Or.inl ⟨f.ans.data.take 64, rfl, i, ups, f, fr, rfl, ⟨hi1, hi2, hi3⟩, hu,
                hc.trans hflat, ⟨g1, g2, g3, rfl⟩, hf2, hf3⟩⟩
          · rcases hashFinal_fail hcok with ⟨h1, h2⟩ | ⟨f, h1, h2, h3, h4⟩
            · rw [h2]
              exact ⟨[i] ++ ups ++ fr, by simp, Or.inr (Or.inr (Or.inr (Or.inl h1)))⟩
            · rw [h1]
              exact ⟨[i] ++ ups ++ [f] ++ fr, by simp, Or.inr (Or.inr (Or.inr (Or.inr ⟨f, by simp, h4, by rw [h3]; intro h; cases h⟩)))⟩
        · rw [if_neg' he]
          obtain ⟨ups, h1, h2, h3⟩ := updates_log (o := o) (hk := hk) ds (l ++ [i])
          rw [hp] at h1 h3
          obtain ⟨fr, hf1, hf2, hf3⟩ := hashFree_log (o := o) (hk := hk) l2
          rw [bind_eq, pure_eq]
          dsimp only at h1 h3 ⊢
          rw [hf1, h1]
          refine ⟨i :: ups ++ fr, by simp, Or.inr (Or.inr ?_)⟩
          rcases h3 he with h | ⟨e, he, h⟩
          · exact Or.inl h
          · obtain ⟨_, d, hd⟩ := h2 e he
            exact Or.inr (Or.inr ⟨e, by simp [he], h, by rw [hd]; intro h; cases h⟩)
    · rw [if_neg' he, pure_eq]
      unfold hashInit at hi
      rw [bind_eq, pure_eq] at hi
      unfold callHook at hi
      cases hu : hk.init with
      | none =>
        rw [hu] at hi
        obtain ⟨_, rfl⟩ := Prod.mk.inj hi
        exact ⟨[], by simp, Or.inr (Or.inl rfl)⟩
      | some f =>
        rw [hu] at hi
        obtain ⟨h1, rfl⟩ := Prod.mk.inj hi
        refine ⟨_, rfl, Or.inr (Or.inr (Or.inr (Or.inr ⟨_, List.mem_cons_self, ?_, by intro h; cases h⟩)))⟩
        intro ha
        exact he (h1.symm.trans ha)

theorem payloadReadLoop_mono {r1 r2 : Reader} (hr : ∀ off n x, r1 off n = .ok x → r2 off n = .ok x) (n : Nat) :
    ∀ (off : U64) (c : HashCtx) (x : U64 × HashCtx), payloadReadLoop r1 off n c = .ok x → payloadReadLoop r2 off n c = .ok x := by
  induction n using Nat.strongRecOn with
  | ind n ih =>
    intro off c x h
    rw [payloadReadLoop] at h ⊢
    split at h
    · exact nomatch h
    · rename_i y hy
      rw [hr _ _ _ hy]
      dsimp only
      split at h
      · exact nomatch h
      · rename_i hl
        rw [if_neg hl]
        split at h
        · rename_i hz
          rw [dif_pos hz]
          exact h
        · rename_i hz
          rw [dif_neg hz]
          exact ih _ (by omega) _ _ _ h

theorem payloadHashGo_mono {r1 r2 : Reader} (hr : ∀ off n x, r1 off n = .ok x → r2 off n = .ok x) (ps : List PartHdr) :
    ∀ (off : U64) (c x : HashCtx), payloadHashGo r1 ps off c = .ok x → payloadHashGo r2 ps off c = .ok x := by
  induction ps with
  | nil => exact fun _ _ _ h => h
  | cons p ps ih =>
    intro off c x h
    unfold payloadHashGo at h ⊢
    by_cases h0 : p.id = 0
    · rw [if_pos h0] at h ⊢
      exact ih _ _ _ h
    · rw [if_neg h0] at h ⊢
      by_cases hx : p.isExcluded = true
      · rw [if_pos hx] at h ⊢
        exact ih _ _ _ h
      · rw [if_neg hx] at h ⊢
        cases hl : payloadReadLoop r1 off (partSize p).toNat c with
        | error e => rw [hl] at h; exact nomatch h
        | ok y =>
          rw [hl] at h
          rw [payloadReadLoop_mono hr _ _ _ _ hl]
          exact ih _ _ _ h

/-- What was hashed is what the package file holds. -/
theorem payload_data {P : Bytes} (hP : P.length < 2^63) {ps : List PartHdr} {off : U64} {k : U8} {data : Bytes}
    (h : payloadHashGo (pkgReader P) ps off ⟨k, []⟩ = .ok ⟨k, data⟩) :
    HashedReadable P ps off ∧ data = hashedBytes P ps off := by
  have h2 := payloadHashGo_mono (r2 := payloadReader P) (fun off n x hx => by
    unfold pkgReader at hx
    split at hx
    · cases hx
    · split at hx
      · cases hx
      · exact hx) ps off _ _ h
  rw [payloadHashGo_eq P (by omega)] at h2
  split at h2
  · rename_i hr
    refine ⟨hr, ?_⟩
    have := HashCtx.mk.inj (Except.ok.inj h2)
    rw [← this.2]
    rfl
  · exact nomatch h2

theorem verifyPayload_ok {h : Header} {P : Bytes} (hP : P.length < 2^63) {junk : Bytes} {l : List Ev}
    (hv : (verifyPayload hk h (pkgReader P) 4096 junk o l).1 = .ok) :
    ∃ evs dig t, (verifyPayload hk h (pkgReader P) 4096 junk o l).2 = l ++ (evs ++ [t]) ∧
      HashedReadable P h.parts 4096 ∧ Hashed hk h.hashKind (hashedBytes P h.parts 4096) dig evs ∧
      dig = h.payloadHash.take dig.length ∧ t.call = .trees ∧ t.ans.code = .ok := by
  unfold verifyPayload at hv ⊢
  rw [bind_eq] at hv ⊢
  cases hr : payloadHash hk h (pkgReader P) 4096 junk o l with
  | mk r l1 =>
    obtain ⟨e, d, n⟩ := r
    rw [hr] at hv
    dsimp only at hv ⊢
    by_cases he : e = .ok
    · subst he
      rw [if_pos' rfl] at hv ⊢
      obtain ⟨evs, dig, rfl, rfl, rfl, data, hd, hh⟩ := payloadHash_ok hr
      obtain ⟨h1, rfl⟩ := payload_data hP hd
      rw [List.take_append_of_le_length (Nat.le_refl _), List.take_length] at hv ⊢
      by_cases hp : dig = h.payloadHash.take dig.length
      · rw [if_pos' hp] at hv ⊢
        rw [bind_eq, pure_eq] at hv ⊢
        exact ⟨evs, dig, _, List.append_assoc _ _ _, h1, hh, hp, rfl, hv⟩
      · rw [if_neg' hp] at hv
        exact nomatch hv
    · rw [if_neg' he] at hv
      exact absurd hv he

theorem signed_bytes (h : Header) (w : h.WF) : h.image.take 3582 ++ List.replicate 514 0 = headerSignedBytes h := by
  unfold headerSignedBytes
  have e2 : le16 0 = List.replicate 2 0 := rfl
  rw [image_prefix h w _ _ List.length_replicate, List.append_assoc, e2, List.replicate_append_replicate]

theorem image_signature (h : Header) (w : h.WF) (s : Bytes) (z : U16) (hs : s.length = 512) :
    ({ h with signature := s, signatureSz := z } : Header).image.take 3582 = h.image.take 3582 := by
  rw [image_prefix h w s z hs, List.append_assoc, List.take_append_of_le_length, List.take_take, Nat.min_self]
  rw [List.length_take, image_length w]
  decide

end Bpak.Hk
