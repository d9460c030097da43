import Verif.Spec.Lines
import Verif.Proof.MainFrame
import Verif.Props.Session
import Verif.Props.SignVerify
/-! What the option loops leave, option by option; and single lines as commands. -/
namespace Bpak

/-- A switch that only the option `k` sets is on after the loop if there was a `k`. -/
theorem optLoop_flag {σ : Type} (step : Char → Bytes → σ → Option σ) (π : σ → Bool) (k : Char) (hv : k ≠ 'v')
    (hs : ∀ c a s s', step c a s = some s' → π s' = if c = k then true else π s) :
    ∀ (evs : List OptEv) (s o : σ) (x : Option Bytes), x.isSome = π s → optLoop step evs s = .ok o →
      π o = (evs.foldl (fun x e => match e with | .opt d a => if d = k then some a else x | .bad => x) x).isSome := by
  intro evs
  induction evs with
  | nil => intro s o x hx h; cases h; exact hx.symm
  | cons e es ih =>
    intro s o x hx h
    cases e with
    | bad => cases h
    | opt c a =>
      unfold optLoop at h
      split at h
      · cases h
      · split at h
        · rename_i hc
          rw [ih s o x hx h]
          simp only [List.foldl_cons]
          rw [if_neg (by rw [hc]; exact fun h => hv h.symm)]
        · split at h
          · cases h
          · rename_i s' hst
            simp only [List.foldl_cons]
            refine ih s' o _ ?_ h
            rw [hs c a s s' hst]
            split
            · rfl
            · exact hx

theorem createStep_hash' : ∀ c a (s s' : CreateOpts), createStep c a s = some s' → s'.hash = if c = 'H' then some a else s.hash := by
  intro c a s s' h
  unfold createStep at h
  split at h <;> first | (cases h; rfl) | cases h

theorem createStep_sig' : ∀ c a (s s' : CreateOpts), createStep c a s = some s' → s'.sig = if c = 'S' then some a else s.sig := by
  intro c a s s' h
  unfold createStep at h
  split at h <;> first | (cases h; rfl) | cases h

theorem createStep_force' : ∀ c a (s s' : CreateOpts), createStep c a s = some s' → s'.force = if c = 'Y' then true else s.force := by
  intro c a s s' h
  unfold createStep at h
  split at h <;> first | (cases h; rfl) | cases h

theorem create_opts {evs : List OptEv} {o : CreateOpts} (h : optLoop createStep evs {} = .ok o) :
    o.hash = lastArg 'H' evs ∧ o.sig = lastArg 'S' evs ∧ o.force = (lastArg 'Y' evs).isSome :=
  ⟨optLoop_last createStep CreateOpts.hash 'H' (by decide) createStep_hash' _ _ _ h, optLoop_last createStep CreateOpts.sig 'S' (by decide) createStep_sig' _ _ _ h, optLoop_flag createStep CreateOpts.force 'Y' (by decide) createStep_force' _ _ _ none rfl h⟩

theorem addStep_part' : ∀ c a (s s' : AddLine), addStep c a s = some s' → s'.part = if c = 'p' then some a else s.part := by
  intro c a s s' h
  unfold addStep at h
  split at h <;> first | (cases h; rfl) | cases h | (split at h <;> first | (cases h; rfl) | cases h)

theorem addStep_metaName' : ∀ c a (s s' : AddLine), addStep c a s = some s' → s'.metaName = if c = 'm' then some a else s.metaName := by
  intro c a s s' h
  unfold addStep at h
  split at h <;> first | (cases h; rfl) | cases h | (split at h <;> first | (cases h; rfl) | cases h)

theorem addStep_fromFile' : ∀ c a (s s' : AddLine), addStep c a s = some s' → s'.fromFile = if c = 'f' then some a else s.fromFile := by
  intro c a s s' h
  unfold addStep at h
  split at h <;> first | (cases h; rfl) | cases h | (split at h <;> first | (cases h; rfl) | cases h)

theorem addStep_fromString' : ∀ c a (s s' : AddLine), addStep c a s = some s' → s'.fromString = if c = 's' then some a else s.fromString := by
  intro c a s s' h
  unfold addStep at h
  split at h <;> first | (cases h; rfl) | cases h | (split at h <;> first | (cases h; rfl) | cases h)

theorem addStep_encoder' : ∀ c a (s s' : AddLine), addStep c a s = some s' → s'.encoder = if c = 'e' then some a else s.encoder := by
  intro c a s s' h
  unfold addStep at h
  split at h <;> first | (cases h; rfl) | cases h | (split at h <;> first | (cases h; rfl) | cases h)

theorem addStep_ref' : ∀ c a (s s' : AddLine), addStep c a s = some s' → s'.ref = if c = 'r' then some a else s.ref := by
  intro c a s s' h
  unfold addStep at h
  split at h <;> first | (cases h; rfl) | cases h | (split at h <;> first | (cases h; rfl) | cases h)

theorem addStep_dontHash' : ∀ c a (s s' : AddLine), addStep c a s = some s' → s'.dontHash = if c = 'F' then true else s.dontHash := by
  intro c a s s' h
  unfold addStep at h
  split at h <;> first | (cases h; rfl) | cases h | (split at h <;> first | (cases h; rfl) | cases h)

theorem add_opts {evs : List OptEv} {o : AddLine} (h : optLoop addStep evs {} = .ok o) :
    o.part = lastArg 'p' evs ∧ o.metaName = lastArg 'm' evs ∧ o.fromFile = lastArg 'f' evs ∧ o.fromString = lastArg 's' evs ∧ o.encoder = lastArg 'e' evs ∧ o.ref = lastArg 'r' evs ∧ o.dontHash = (lastArg 'F' evs).isSome :=
  ⟨optLoop_last addStep AddLine.part 'p' (by decide) addStep_part' _ _ _ h, optLoop_last addStep AddLine.metaName 'm' (by decide) addStep_metaName' _ _ _ h, optLoop_last addStep AddLine.fromFile 'f' (by decide) addStep_fromFile' _ _ _ h, optLoop_last addStep AddLine.fromString 's' (by decide) addStep_fromString' _ _ _ h, optLoop_last addStep AddLine.encoder 'e' (by decide) addStep_encoder' _ _ _ h, optLoop_last addStep AddLine.ref 'r' (by decide) addStep_ref' _ _ _ h, optLoop_flag addStep AddLine.dontHash 'F' (by decide) addStep_dontHash' _ _ _ none rfl h⟩

theorem setStep_name' : ∀ c a (s s' : SetOpts), setStep c a s = some s' → s'.name = if c = 'm' then some a else s.name := by
  intro c a s s' h
  unfold setStep at h
  split at h <;> first | (cases h; rfl) | cases h

theorem setStep_text' : ∀ c a (s s' : SetOpts), setStep c a s = some s' → s'.text = if c = 's' then some a else s.text := by
  intro c a s s' h
  unfold setStep at h
  split at h <;> first | (cases h; rfl) | cases h

theorem setStep_encoder' : ∀ c a (s s' : SetOpts), setStep c a s = some s' → s'.encoder = if c = 'e' then some a else s.encoder := by
  intro c a s s' h
  unfold setStep at h
  split at h <;> first | (cases h; rfl) | cases h

theorem setStep_keyId' : ∀ c a (s s' : SetOpts), setStep c a s = some s' → s'.keyId = if c = 'k' then some a else s.keyId := by
  intro c a s s' h
  unfold setStep at h
  split at h <;> first | (cases h; rfl) | cases h

theorem setStep_keystoreId' : ∀ c a (s s' : SetOpts), setStep c a s = some s' → s'.keystoreId = if c = 'i' then some a else s.keystoreId := by
  intro c a s s' h
  unfold setStep at h
  split at h <;> first | (cases h; rfl) | cases h

theorem set_opts {evs : List OptEv} {o : SetOpts} (h : optLoop setStep evs {} = .ok o) :
    o.name = lastArg 'm' evs ∧ o.text = lastArg 's' evs ∧ o.encoder = lastArg 'e' evs ∧ o.keyId = lastArg 'k' evs ∧ o.keystoreId = lastArg 'i' evs :=
  ⟨optLoop_last setStep SetOpts.name 'm' (by decide) setStep_name' _ _ _ h, optLoop_last setStep SetOpts.text 's' (by decide) setStep_text' _ _ _ h, optLoop_last setStep SetOpts.encoder 'e' (by decide) setStep_encoder' _ _ _ h, optLoop_last setStep SetOpts.keyId 'k' (by decide) setStep_keyId' _ _ _ h, optLoop_last setStep SetOpts.keystoreId 'i' (by decide) setStep_keystoreId' _ _ _ h⟩

theorem deleteStep_part' : ∀ c a (s s' : DeleteOpts), deleteStep c a s = some s' → s'.part = if c = 'p' then some a else s.part := by
  intro c a s s' h
  unfold deleteStep at h
  split at h <;> first | (cases h; rfl) | cases h

theorem deleteStep_all' : ∀ c a (s s' : DeleteOpts), deleteStep c a s = some s' → s'.all = if c = 'a' then true else s.all := by
  intro c a s s' h
  unfold deleteStep at h
  split at h <;> first | (cases h; rfl) | cases h

theorem deleteStep_keep' : ∀ c a (s s' : DeleteOpts), deleteStep c a s = some s' → s'.keep = if c = 'k' then true else s.keep := by
  intro c a s s' h
  unfold deleteStep at h
  split at h <;> first | (cases h; rfl) | cases h

theorem delete_opts {evs : List OptEv} {o : DeleteOpts} (h : optLoop deleteStep evs {} = .ok o) :
    o.part = lastArg 'p' evs ∧ o.all = (lastArg 'a' evs).isSome ∧ o.keep = (lastArg 'k' evs).isSome :=
  ⟨optLoop_last deleteStep DeleteOpts.part 'p' (by decide) deleteStep_part' _ _ _ h, optLoop_flag deleteStep DeleteOpts.all 'a' (by decide) deleteStep_all' _ _ _ none rfl h, optLoop_flag deleteStep DeleteOpts.keep 'k' (by decide) deleteStep_keep' _ _ _ none rfl h⟩

theorem signStep_key' : ∀ c a (s s' : SignOpts), signStep c a s = some s' → s'.key = if c = 'k' then some a else s.key := by
  intro c a s s' h
  unfold signStep at h
  split at h <;> first | (cases h; rfl) | cases h

theorem signStep_signature' : ∀ c a (s s' : SignOpts), signStep c a s = some s' → s'.signature = if c = 'f' then some a else s.signature := by
  intro c a s s' h
  unfold signStep at h
  split at h <;> first | (cases h; rfl) | cases h

theorem sign_opts {evs : List OptEv} {o : SignOpts} (h : optLoop signStep evs {} = .ok o) :
    o.key = lastArg 'k' evs ∧ o.signature = lastArg 'f' evs :=
  ⟨optLoop_last signStep SignOpts.key 'k' (by decide) signStep_key' _ _ _ h, optLoop_last signStep SignOpts.signature 'f' (by decide) signStep_signature' _ _ _ h⟩

theorem transportStep_add' : ∀ c a (s s' : TransportOpts), transportStep c a s = some s' → s'.add = if c = 'a' then true else s.add := by
  intro c a s s' h
  unfold transportStep at h
  split at h <;> first | (cases h; rfl) | cases h

theorem transportStep_encoder' : ∀ c a (s s' : TransportOpts), transportStep c a s = some s' → s'.encoder = if c = 'e' then some a else s.encoder := by
  intro c a s s' h
  unfold transportStep at h
  split at h <;> first | (cases h; rfl) | cases h

theorem transportStep_decoder' : ∀ c a (s s' : TransportOpts), transportStep c a s = some s' → s'.decoder = if c = 'd' then some a else s.decoder := by
  intro c a s s' h
  unfold transportStep at h
  split at h <;> first | (cases h; rfl) | cases h

theorem transportStep_ref' : ∀ c a (s s' : TransportOpts), transportStep c a s = some s' → s'.ref = if c = 'r' then some a else s.ref := by
  intro c a s s' h
  unfold transportStep at h
  split at h <;> first | (cases h; rfl) | cases h

theorem transport_opts {evs : List OptEv} {o : TransportOpts} (h : optLoop transportStep evs {} = .ok o) :
    o.add = (lastArg 'a' evs).isSome ∧ o.encoder = lastArg 'e' evs ∧ o.decoder = lastArg 'd' evs ∧ o.ref = lastArg 'r' evs :=
  ⟨optLoop_flag transportStep TransportOpts.add 'a' (by decide) transportStep_add' _ _ _ none rfl h, optLoop_last transportStep TransportOpts.encoder 'e' (by decide) transportStep_encoder' _ _ _ h, optLoop_last transportStep TransportOpts.decoder 'd' (by decide) transportStep_decoder' _ _ _ h, optLoop_last transportStep TransportOpts.ref 'r' (by decide) transportStep_ref' _ _ _ h⟩

theorem lastArg_none {c : Char} {evs : List OptEv} (h : ∀ a, OptEv.opt c a ∉ evs) : lastArg c evs = none := by
  cases hx : lastArg c evs with
  | none => rfl
  | some a => exact absurd (lastArg_mem _ _ _ hx) (h a)

end Bpak
