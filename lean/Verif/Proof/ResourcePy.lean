import Verif.Proof.ResourceCmd

/-!
# The calls that leave nothing behind, and the life of a Python object
-/

namespace Bpak.Res

open Bpak.Spec

variable {over : Bool} {l : Luck} {L : List (Nat × Kind)}

/-- A call that loads no key from a key file leaves everything as it was. -/
theorem call_keeps {fp : Nat} {k : Kind} (c : Call) (hm : Enough l ∨ ¬ TrustsMemory c) (hl : ¬ LoadsKey c)
    (ho : over = false ∨ ¬ FreesForeign c) (h : (fp, k) ∈ L) : Keeps over l L (c.run (.to fp)) := by
  cases c with
  | addFile n => exact addFile_keeps h
  | addFileTree n => exact addFileTree_keeps (hm.resolve_right fun h => h ⟨n, Or.inr (Or.inr rfl)⟩) h
  | addKey n => exact absurd ⟨n, Or.inl rfl⟩ hl
  | sign n => exact pkgSign_keeps h
  | verify n => exact absurd ⟨n, Or.inr rfl⟩ hl
  | verifyKeystore n =>
    obtain rfl : over = false := ho.resolve_right fun h => h ⟨n, Or.inr (Or.inr rfl)⟩
    refine Runs.bind (keystoreLoad_runs n) fun r L' hr => ?_
    rcases hr with ⟨rfl, rfl⟩ | ⟨i, rfl, hi, rfl⟩
    · exact Runs.pure rfl
    · dsimp only
      refine Keeps.then (pkgVerify_keeps List.mem_cons_self (List.mem_cons_of_mem _ h)) fun b => ?_
      exact Runs.giveMem fits_lib_heap (Runs.pure rfl)
  | extract n f => exact extractFile_keeps h
  | delete n => exact deletePart_keeps h
  | deleteAll n => exact deleteAll_keeps h
  | rawSignature => exact rawSignature_keeps h
  | writeHeader => exact writeHeader_keeps h
  | updateHash n => exact updateHash_keeps h
  | partHash n => exact partHash_keeps h

theorem runCalls_keeps {fp : Nat} {k : Kind} (cs : List Call)
    (hc : ∀ c ∈ cs, (Enough l ∨ ¬ TrustsMemory c) ∧ ¬ LoadsKey c ∧ (over = false ∨ ¬ FreesForeign c)) :
    ∀ {L : List (Nat × Kind)}, (fp, k) ∈ L → Keeps over l L (runCalls (.to fp) cs) := by
  induction cs with
  | nil => exact fun _ => Keeps.pure
  | cons c cs ih =>
    intro L h
    obtain ⟨h1, h2, h3⟩ := hc c List.mem_cons_self
    exact Keeps.then (call_keeps c h1 h2 h3 h) fun _ => ih (fun c hc' => hc c (List.mem_cons_of_mem _ hc')) h

theorem session_keeps (n : Nat) (cs : List Call)
    (hc : ∀ c ∈ cs, (Enough l ∨ ¬ TrustsMemory c) ∧ ¬ LoadsKey c ∧ (over = false ∨ ¬ FreesForeign c)) :
    Keeps over l L (session n cs) := by
  unfold session
  refine pkgOpen_then (fun _ => Runs.pure rfl) fun i _ => ?_
  exact Keeps.then (runCalls_keeps cs hc List.mem_cons_self) fun _ => pkgClose_then (Runs.pure rfl)

theorem own_of {c : Call} (h : ¬ FreesForeign c) : c.own = true := by
  cases c <;> first
    | rfl
    | exact absurd ⟨_, Or.inl rfl⟩ h
    | exact absurd ⟨_, Or.inr (Or.inl rfl)⟩ h
    | exact absurd ⟨_, Or.inr (Or.inr rfl)⟩ h

/-! ## Python -/

theorem pyRun_closed : ∀ (ps : List PyOp), (∀ p ∈ ps, p = .close ∨ p = .exit) → pyRun .null ps = pure .null := by
  intro ps
  induction ps with
  | nil => exact fun _ => rfl
  | cons p ps ih =>
    intro h
    have hs := ih fun q hq => h q (List.mem_cons_of_mem _ hq)
    rcases h p List.mem_cons_self with rfl | rfl
    · exact hs
    · exact hs

/-- The end of an object's life when nothing is called on it any more. -/
theorem pyEnd_runs {i : Nat} {C : List (Nat × Kind)} (ps : List PyOp) (h : ∀ p ∈ ps, p = .close ∨ p = .exit) :
    Runs over l (C ++ (i, .file) :: L) (pyRun (.to i) ps >>= fun fp => pkgClose fp >>= fun _ => pure ())
      fun _ L' => L' = C ++ L := by
  have key : ∀ ps : List PyOp, (∀ p ∈ ps, p = .close ∨ p = .exit) →
      Runs over l (C ++ (i, .file) :: L)
        ((pkgClose (.to i) >>= fun fp => pyRun fp ps) >>= fun fp => pkgClose fp >>= fun _ => pure ())
        fun _ L' => L' = C ++ L := by
    intro ps h
    refine pkgClose_mid (f := fun fp => pyRun fp ps >>= fun fp => pkgClose fp >>= fun _ => pure ()) ?_
    rw [pyRun_closed ps h]
    exact Runs.pure (Q := fun _ L' => L' = C ++ L) rfl
  cases ps with
  | nil => exact pkgClose_mid (f := fun _ => pure ()) (Runs.pure (Q := fun _ L' => L' = C ++ L) rfl)
  | cons p ps =>
    have hs := key ps fun q hq => h q (List.mem_cons_of_mem _ hq)
    rcases h p List.mem_cons_self with rfl | rfl
    · exact hs
    · exact hs

theorem pyRun_append (cs : List Call) (ps : List PyOp) (fp : Ptr) :
    pyRun fp (cs.map .call ++ ps) = runCalls fp cs >>= fun _ => pyRun fp ps := by
  induction cs with
  | nil => rfl
  | cons c cs ih =>
    show (c.run fp >>= fun _ => pyRun fp (cs.map .call ++ ps)) = _
    rw [ih]
    rfl

/-- What opening a package answers, and how its trace ends when it fails after the file was opened. -/
def Opens (l : Luck) (m : M (Bool × Ptr)) : Prop := ∀ s, (∃ i, (m l s).1 = (true, .to i)) ∨
  ((m l s).1 = (false, .null) ∧ (m l s).2.log = s.log) ∨
  ∃ i t, (m l s).1 = (false, .to i) ∧ (m l s).2.log = t ++ [.gave i .file]

theorem Opens.ask {f : Bool → M (Bool × Ptr)} (h : ∀ b, Opens l (f b)) : Opens l (Res.ask >>= f) := fun s => h _ _

theorem Opens.take {k : Kind} {f : Ptr → M (Bool × Ptr)} (h0 : Opens l (f .null))
    (h : ∀ i s, (∃ j, (f (.to i) l s).1 = (true, .to j)) ∨
      ∃ j t, (f (.to i) l s).1 = (false, .to j) ∧ (f (.to i) l s).2.log = t ++ [.gave j .file]) :
    Opens l (Res.take k >>= f) := by
  intro s
  have hb : ∀ b : Bool, l.io s.calls = b → (Res.take k >>= f) l s =
      ((match b with | true => (start k : M Ptr) | false => Pure.pure .null) >>= f) l { s with calls := s.calls + 1 } := by
    rintro b rfl
    rfl
  rw [hb _ rfl]
  cases l.io s.calls with
  | false => exact h0 _
  | true =>
    show (∃ i, (f (.to s.next) l ⟨s.calls + 1, s.next + 1, s.log ++ [.got s.next k]⟩).1 = _) ∨ _ ∨
      ∃ j t, (f (.to s.next) l ⟨s.calls + 1, s.next + 1, s.log ++ [.got s.next k]⟩).1 = _ ∧
        (f (.to s.next) l ⟨s.calls + 1, s.next + 1, s.log ++ [.got s.next k]⟩).2.log = _
    rcases h s.next ⟨s.calls + 1, s.next + 1, s.log ++ [.got s.next k]⟩ with h | h
    · exact Or.inl h
    · exact Or.inr (Or.inr h)

theorem pkgOpen_opens (n : Nat) : Opens l (pkgOpen n) := by
  unfold pkgOpen
  refine Opens.ask fun b => ?_
  cases b with
  | false => exact fun s => Or.inr (Or.inl ⟨rfl, rfl⟩)
  | true =>
    refine Opens.take (fun s => Or.inr (Or.inl ⟨rfl, rfl⟩)) fun i s => ?_
    have hr : ∀ r : Bool × St, ((match r.1 with
        | true => (pure (true, .to i) : M (Bool × Ptr))
        | false => (give .file (.to i) >>= fun _ => pure (false, .to i))) l r.2).1 = (true, Ptr.to i) ∨
        ∃ j t, ((match r.1 with
        | true => (pure (true, .to i) : M (Bool × Ptr))
        | false => (give .file (.to i) >>= fun _ => pure (false, .to i))) l r.2).1 = (false, Ptr.to j) ∧
        ((match r.1 with
        | true => (pure (true, .to i) : M (Bool × Ptr))
        | false => (give .file (.to i) >>= fun _ => pure (false, .to i))) l r.2).2.log = t ++ [.gave j .file] := by
      intro r
      obtain ⟨b, s2⟩ := r
      cases b with
      | true => exact Or.inl rfl
      | false => exact Or.inr ⟨i, s2.log, rfl, rfl⟩
    rcases hr (steps [io (.to i), openedHeader n (.to i)] l s) with h | h
    · exact Or.inl ⟨i, h⟩
    · exact Or.inr h

/-- A constructor that succeeds, and calls only before the object is closed: nothing is left but key contexts. -/
theorem pyLife_good {n : Nat} (cs : List Call) (ps : List PyOp) (hm : Enough l)
    (hp : ∀ p ∈ ps, p = .close ∨ p = .exit)
    (ho : (pkgOpen n l ⟨0, 0, []⟩).1.1 = true ∨ trace l (pkgOpen n) = []) :
    Clean false (trace l (pyLife n (cs.map .call ++ ps))) ∧
      ∀ m k, Left (trace l (pyLife n (cs.map .call ++ ps))) m k → k = .pk := by
  have h0 : Inv false ⟨0, 0, []⟩ [] := ⟨fun i hi => absurd hi (Nat.not_lt_zero _),
    fun n k => ⟨fun h => (nomatch h), fun h => (nomatch h.1)⟩, fun n k h => (nomatch h), List.nodup_nil,
    fun n k h => (nomatch h)⟩
  obtain ⟨L', hI, hr⟩ := pkgOpen_runs (over := false) (l := l) n _ h0
  have ht : trace l (pyLife n (cs.map .call ++ ps)) =
      ((match (pkgOpen n l ⟨0, 0, []⟩).1 with
        | (false, fp) => (pkgClose fp >>= fun _ => pure ())
        | (true, fp) => (pyRun fp (cs.map .call ++ ps) >>= fun fp => pkgClose fp >>= fun _ => pure ()) : M Unit)
          l (pkgOpen n l ⟨0, 0, []⟩).2).2.log := rfl
  rw [ht]
  rcases hr with ⟨h1, rfl⟩ | ⟨i, h1, _, rfl⟩
  · have hnil := ho.resolve_left (by rw [h1]; decide)
    rcases pkgOpen_opens (l := l) n ⟨0, 0, []⟩ with ⟨j, h2⟩ | ⟨h2, _⟩ | ⟨j, t, _, h3⟩
    · rw [h2] at h1
      cases h1
    · rw [h2]
      refine ⟨hI.clean, fun m k hl => ?_⟩
      exact nomatch (hI.held m k).2 hl
    · rw [show (pkgOpen n l ⟨0, 0, []⟩).2.log = [] from hnil] at h3
      exact absurd h3.symm (by simp)
  · rw [h1]
    dsimp only
    rw [pyRun_append]
    obtain ⟨L2, hI2, C, hC, rfl⟩ := runCalls_runs (fp := i) (k := .file) hm cs (Or.inl rfl) List.mem_cons_self _ hI
    obtain ⟨L3, hI3, rfl⟩ := pyEnd_runs (i := i) (C := C) ps hp _ hI2
    refine ⟨hI3.clean, fun m k hl => ?_⟩
    have := (hI3.held m k).2 hl
    rw [List.append_nil] at this
    exact hC _ this

/-- A constructor that fails after the file was opened: the stream is closed twice. -/
theorem pyLife_failed {n : Nat} (ps : List PyOp) (hf : (pkgOpen n l ⟨0, 0, []⟩).1.1 = false)
    (ho : trace l (pkgOpen n) ≠ []) : ¬ Clean over (trace l (pyLife n ps)) := by
  have ht : trace l (pyLife n ps) =
      ((match (pkgOpen n l ⟨0, 0, []⟩).1 with
        | (false, fp) => (pkgClose fp >>= fun _ => pure ())
        | (true, fp) => (pyRun fp ps >>= fun fp => pkgClose fp >>= fun _ => pure ()) : M Unit)
          l (pkgOpen n l ⟨0, 0, []⟩).2).2.log := rfl
  rw [ht]
  rcases pkgOpen_opens (l := l) n ⟨0, 0, []⟩ with ⟨j, h2⟩ | ⟨_, h2⟩ | ⟨j, t, h2, h3⟩
  · rw [h2] at hf
    cases hf
  · exact absurd h2 ho
  · rw [h2]
    intro hc
    have he : (((pkgClose (.to j) >>= fun _ => pure ()) : M Unit) l (pkgOpen n l ⟨0, 0, []⟩).2).2.log =
        t ++ [.gave j .file] ++ [.gave j .file] := by
      rw [← h3]
      rfl
    dsimp only at hc
    rw [he] at hc
    have hi := hc (t ++ [Ev.gave j .file]).length (by simp)
    rw [List.take_left, List.getElem_append_right (by simp)] at hi
    simp only [Nat.sub_self, List.getElem_cons_zero] at hi
    exact hi.2 .file (by simp)

end Bpak.Res
