import Verif.Proof.Lines
/-! The options of the commands that read, and of `transport`. -/
namespace Bpak

theorem lastArg_absent {c : Char} {evs : List OptEv} (h : lastArg c evs = none) (a : Bytes) : OptEv.opt c a ∉ evs := by
  have keep : ∀ (evs : List OptEv) (x : Option Bytes), (x ≠ none ∨ OptEv.opt c a ∈ evs) →
      evs.foldl (fun x e => match e with | .opt d a => if d = c then some a else x | .bad => x) x ≠ none := by
    intro evs
    induction evs with
    | nil => intro x hx; rcases hx with hx | hx; exact hx; cases hx
    | cons e es ih =>
      intro x hx
      rw [List.foldl_cons]
      apply ih
      rcases hx with hx | hx
      · left
        cases e with
        | bad => exact hx
        | opt d b => show (if d = c then some b else x) ≠ none; split <;> simp [hx]
      · rcases List.mem_cons.1 hx with e1 | hx
        · subst e1; left; show (if c = c then some a else x) ≠ none; simp
        · exact .inr hx
  exact fun hm => keep evs none (.inr hm) h

theorem extractStep_metaName'' : ∀ c a (s s' : ExtractOpts), extractStep c a s = some s' → s'.metaName = if c = 'm' then some a else s.metaName := by
  intro c a s s' h
  unfold extractStep at h
  split at h <;> first | (cases h; rfl) | cases h

theorem extractStep_part'' : ∀ c a (s s' : ExtractOpts), extractStep c a s = some s' → s'.part = if c = 'p' then some a else s.part := by
  intro c a s s' h
  unfold extractStep at h
  split at h <;> first | (cases h; rfl) | cases h

theorem extractStep_output'' : ∀ c a (s s' : ExtractOpts), extractStep c a s = some s' → s'.output = if c = 'o' then some a else s.output := by
  intro c a s s' h
  unfold extractStep at h
  split at h <;> first | (cases h; rfl) | cases h

theorem extractStep_ref'' : ∀ c a (s s' : ExtractOpts), extractStep c a s = some s' → s'.ref = if c = 'r' then some a else s.ref := by
  intro c a s s' h
  unfold extractStep at h
  split at h <;> first | (cases h; rfl) | cases h

theorem extract_opts' {evs : List OptEv} {o : ExtractOpts} (h : optLoop extractStep evs {} = .ok o) :
    o.metaName = lastArg 'm' evs ∧ o.part = lastArg 'p' evs ∧ o.output = lastArg 'o' evs ∧ o.ref = lastArg 'r' evs :=
  ⟨optLoop_last extractStep ExtractOpts.metaName 'm' (by decide) extractStep_metaName'' _ _ _ h, optLoop_last extractStep ExtractOpts.part 'p' (by decide) extractStep_part'' _ _ _ h, optLoop_last extractStep ExtractOpts.output 'o' (by decide) extractStep_output'' _ _ _ h, optLoop_last extractStep ExtractOpts.ref 'r' (by decide) extractStep_ref'' _ _ _ h⟩

theorem showStep_metaName'' : ∀ c a (s s' : ShowOpts), showStep c a s = some s' → s'.metaName = if c = 'm' then some a else s.metaName := by
  intro c a s s' h
  unfold showStep at h
  split at h <;> first | (cases h; rfl) | cases h

theorem showStep_partName'' : ∀ c a (s s' : ShowOpts), showStep c a s = some s' → s'.partName = if c = 'p' then some a else s.partName := by
  intro c a s s' h
  unfold showStep at h
  split at h <;> first | (cases h; rfl) | cases h

theorem showStep_partHash'' : ∀ c a (s s' : ShowOpts), showStep c a s = some s' → s'.partHash = if c = 'P' then some a else s.partHash := by
  intro c a s s' h
  unfold showStep at h
  split at h <;> first | (cases h; rfl) | cases h

theorem showStep_binary'' : ∀ c a (s s' : ShowOpts), showStep c a s = some s' → s'.binary = if c = 'B' then true else s.binary := by
  intro c a s s' h
  unfold showStep at h
  split at h <;> first | (cases h; rfl) | cases h

theorem showStep_text'' : ∀ c a (s s' : ShowOpts), showStep c a s = some s' → s'.text = if c = 'H' then true else s.text := by
  intro c a s s' h
  unfold showStep at h
  split at h <;> first | (cases h; rfl) | cases h

theorem show_opts' {evs : List OptEv} {o : ShowOpts} (h : optLoop showStep evs {} = .ok o) :
    o.metaName = lastArg 'm' evs ∧ o.partName = lastArg 'p' evs ∧ o.partHash = lastArg 'P' evs ∧ o.binary = (lastArg 'B' evs).isSome ∧ o.text = (lastArg 'H' evs).isSome :=
  ⟨optLoop_last showStep ShowOpts.metaName 'm' (by decide) showStep_metaName'' _ _ _ h, optLoop_last showStep ShowOpts.partName 'p' (by decide) showStep_partName'' _ _ _ h, optLoop_last showStep ShowOpts.partHash 'P' (by decide) showStep_partHash'' _ _ _ h, optLoop_flag showStep ShowOpts.binary 'B' (by decide) showStep_binary'' _ _ _ none rfl h, optLoop_flag showStep ShowOpts.text 'H' (by decide) showStep_text'' _ _ _ none rfl h⟩

theorem generateStep_name'' : ∀ c a (s s' : GenerateOpts), generateStep c a s = some s' → s'.name = if c = 'n' then some a else s.name := by
  intro c a s s' h
  unfold generateStep at h
  split at h <;> first | (cases h; rfl) | cases h

theorem generateStep_decorate'' : ∀ c a (s s' : GenerateOpts), generateStep c a s = some s' → s'.decorate = if c = 'd' then true else s.decorate := by
  intro c a s s' h
  unfold generateStep at h
  split at h <;> first | (cases h; rfl) | cases h

theorem generate_opts' {evs : List OptEv} {o : GenerateOpts} (h : optLoop generateStep evs {} = .ok o) :
    o.name = lastArg 'n' evs ∧ o.decorate = (lastArg 'd' evs).isSome :=
  ⟨optLoop_last generateStep GenerateOpts.name 'n' (by decide) generateStep_name'' _ _ _ h, optLoop_flag generateStep GenerateOpts.decorate 'd' (by decide) generateStep_decorate'' _ _ _ none rfl h⟩

theorem verifyStep_key'' : ∀ c a (s s' : VerifyOpts), verifyStep c a s = some s' → s'.key = if c = 'k' then some a else s.key := by
  intro c a s s' h
  unfold verifyStep at h
  split at h <;> first | (cases h; rfl) | cases h

theorem verifyStep_keystore'' : ∀ c a (s s' : VerifyOpts), verifyStep c a s = some s' → s'.keystore = if c = 'K' then some a else s.keystore := by
  intro c a s s' h
  unfold verifyStep at h
  split at h <;> first | (cases h; rfl) | cases h

theorem verify_opts' {evs : List OptEv} {o : VerifyOpts} (h : optLoop verifyStep evs {} = .ok o) :
    o.key = lastArg 'k' evs ∧ o.keystore = lastArg 'K' evs :=
  ⟨optLoop_last verifyStep VerifyOpts.key 'k' (by decide) verifyStep_key'' _ _ _ h, optLoop_last verifyStep VerifyOpts.keystore 'K' (by decide) verifyStep_keystore'' _ _ _ h⟩

theorem transportStep_add'' : ∀ c a (s s' : TransportOpts), transportStep c a s = some s' → s'.add = if c = 'a' then true else s.add := by
  intro c a s s' h
  unfold transportStep at h
  split at h <;> first | (cases h; rfl) | cases h

theorem transportStep_encode'' : ∀ c a (s s' : TransportOpts), transportStep c a s = some s' → s'.encode = if c = 'E' then true else s.encode := by
  intro c a s s' h
  unfold transportStep at h
  split at h <;> first | (cases h; rfl) | cases h

theorem transportStep_decode'' : ∀ c a (s s' : TransportOpts), transportStep c a s = some s' → s'.decode = if c = 'D' then true else s.decode := by
  intro c a s s' h
  unfold transportStep at h
  split at h <;> first | (cases h; rfl) | cases h

theorem transportStep_origin'' : ∀ c a (s s' : TransportOpts), transportStep c a s = some s' → s'.origin = if c = 'O' then some a else s.origin := by
  intro c a s s' h
  unfold transportStep at h
  split at h <;> first | (cases h; rfl) | cases h

theorem transportStep_output'' : ∀ c a (s s' : TransportOpts), transportStep c a s = some s' → s'.output = if c = 'o' then some a else s.output := by
  intro c a s s' h
  unfold transportStep at h
  split at h <;> first | (cases h; rfl) | cases h

theorem transportStep_encoder'' : ∀ c a (s s' : TransportOpts), transportStep c a s = some s' → s'.encoder = if c = 'e' then some a else s.encoder := by
  intro c a s s' h
  unfold transportStep at h
  split at h <;> first | (cases h; rfl) | cases h

theorem transportStep_decoder'' : ∀ c a (s s' : TransportOpts), transportStep c a s = some s' → s'.decoder = if c = 'd' then some a else s.decoder := by
  intro c a s s' h
  unfold transportStep at h
  split at h <;> first | (cases h; rfl) | cases h

theorem transportStep_ref'' : ∀ c a (s s' : TransportOpts), transportStep c a s = some s' → s'.ref = if c = 'r' then some a else s.ref := by
  intro c a s s' h
  unfold transportStep at h
  split at h <;> first | (cases h; rfl) | cases h

theorem transport_opts' {evs : List OptEv} {o : TransportOpts} (h : optLoop transportStep evs {} = .ok o) :
    o.add = (lastArg 'a' evs).isSome ∧ o.encode = (lastArg 'E' evs).isSome ∧ o.decode = (lastArg 'D' evs).isSome ∧ o.origin = lastArg 'O' evs ∧ o.output = lastArg 'o' evs ∧ o.encoder = lastArg 'e' evs ∧ o.decoder = lastArg 'd' evs ∧ o.ref = lastArg 'r' evs :=
  ⟨optLoop_flag transportStep TransportOpts.add 'a' (by decide) transportStep_add'' _ _ _ none rfl h, optLoop_flag transportStep TransportOpts.encode 'E' (by decide) transportStep_encode'' _ _ _ none rfl h, optLoop_flag transportStep TransportOpts.decode 'D' (by decide) transportStep_decode'' _ _ _ none rfl h, optLoop_last transportStep TransportOpts.origin 'O' (by decide) transportStep_origin'' _ _ _ h, optLoop_last transportStep TransportOpts.output 'o' (by decide) transportStep_output'' _ _ _ h, optLoop_last transportStep TransportOpts.encoder 'e' (by decide) transportStep_encoder'' _ _ _ h, optLoop_last transportStep TransportOpts.decoder 'd' (by decide) transportStep_decoder'' _ _ _ h, optLoop_last transportStep TransportOpts.ref 'r' (by decide) transportStep_ref'' _ _ _ h⟩

theorem extract_letters (args : List Bytes) (c : Char) (a : Bytes) (h : OptEv.opt c a ∈ (getopt extractTable args).1) : c = 'h' ∨ c = 'v' ∨ ∀ s, extractStep c a s ≠ none := by
  have := getopt_letters extractTable args false c a h
  simp only [OptTable.letters, extractTable, List.map_cons, List.map_nil, List.cons_append, List.nil_append, List.mem_cons, List.not_mem_nil, or_false] at this
  rcases this with h | h | h | h | h | h | h | h | h | h | h | h <;> subst h <;> first | exact .inl rfl | exact .inr (.inl rfl) | exact .inr (.inr fun s h => (by cases h))

theorem show_letters (args : List Bytes) (c : Char) (a : Bytes) (h : OptEv.opt c a ∈ (getopt showTable args).1) : c = 'h' ∨ c = 'v' ∨ ∀ s, showStep c a s ≠ none := by
  have := getopt_letters showTable args false c a h
  simp only [OptTable.letters, showTable, List.map_cons, List.map_nil, List.cons_append, List.nil_append, List.mem_cons, List.not_mem_nil, or_false] at this
  rcases this with h | h | h | h | h | h | h | h | h | h | h | h | h | h <;> subst h <;> first | exact .inl rfl | exact .inr (.inl rfl) | exact .inr (.inr fun s h => (by cases h))

theorem generate_letters (args : List Bytes) (c : Char) (a : Bytes) (h : OptEv.opt c a ∈ (getopt generateTable args).1) : c = 'h' ∨ c = 'v' ∨ ∀ s, generateStep c a s ≠ none := by
  have := getopt_letters generateTable args false c a h
  simp only [OptTable.letters, generateTable, List.map_cons, List.map_nil, List.cons_append, List.nil_append, List.mem_cons, List.not_mem_nil, or_false] at this
  rcases this with h | h | h | h | h | h | h | h <;> subst h <;> first | exact .inl rfl | exact .inr (.inl rfl) | exact .inr (.inr fun s h => (by cases h))

theorem sign_letters (args : List Bytes) (c : Char) (a : Bytes) (h : OptEv.opt c a ∈ (getopt signTable args).1) : c = 'h' ∨ c = 'v' ∨ ∀ s, signStep c a s ≠ none := by
  have := getopt_letters signTable args false c a h
  simp only [OptTable.letters, signTable, List.map_cons, List.map_nil, List.cons_append, List.nil_append, List.mem_cons, List.not_mem_nil, or_false] at this
  rcases this with h | h | h | h | h | h | h | h <;> subst h <;> first | exact .inl rfl | exact .inr (.inl rfl) | exact .inr (.inr fun s h => (by cases h))

theorem transport_letters (args : List Bytes) (hs : lastArg 's' (getopt transportTable args).1 = none) (hg : lastArg 'G' (getopt transportTable args).1 = none) (c : Char) (a : Bytes)
    (h : OptEv.opt c a ∈ (getopt transportTable args).1) : c = 'h' ∨ c = 'v' ∨ ∀ s, transportStep c a s ≠ none := by
  have hl := getopt_letters transportTable args false c a h
  simp only [OptTable.letters, transportTable, List.map_cons, List.map_nil, List.cons_append, List.nil_append, List.mem_cons, List.not_mem_nil, or_false] at hl
  rcases hl with e | e | e | e | e | e | e | e | e | e | e | e | e | e | e | e | e | e | e | e | e <;> subst e <;>
    first | exact .inl rfl | exact .inr (.inl rfl) | exact absurd h (lastArg_absent hs a) | exact absurd h (lastArg_absent hg a) | exact .inr (.inr fun s h => (by cases h))

/-- A command whose options are in order goes on with its first operand. -/
theorem withFile_go {σ : Type} {t : OptTable} {step : Char → Bytes → σ → Option σ} {init : σ} {w : World} {args : List Bytes} {k : σ → Bytes → Ran} {path : Bytes} {o : σ}
    (ho : optLoop step (getopt t args).1 init = .ok o) (hp : (getopt t args).2.head? = some path) : withFile t step init w args k = k o path := by
  unfold withFile withOpts
  rw [ho]
  rcases hx : (getopt t args).2 with _ | ⟨x, xs⟩
  · rw [hx] at hp; cases hp
  · rw [hx] at hp
    cases hp
    rfl

end Bpak
