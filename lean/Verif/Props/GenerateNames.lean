import Verif.Props.Generate
/-! The symbols printed by `bpak generate keystore` (C97). -/
namespace Bpak

/-- A character that may occur in a C identifier: a letter, a digit or an underscore. -/
def identChar (c : U8) : Prop := (48 ≤ c.toNat ∧ c.toNat ≤ 57) ∨ (65 ≤ c.toNat ∧ c.toNat ≤ 90) ∨ c.toNat = 95 ∨ (97 ≤ c.toNat ∧ c.toNat ≤ 122)

instance (c : U8) : Decidable (identChar c) := by unfold identChar; infer_instance

theorem decimal_ident (v : Nat) : ∀ c ∈ decimal v, identChar c := by
  induction v using Nat.strongRecOn with
  | ind v ih =>
    intro c hc
    rw [decimal.eq_def] at hc
    split at hc
    · rename_i h
      simp only [List.mem_singleton] at hc
      subst hc
      left
      rw [BitVec.toNat_ofNat]
      omega
    · rename_i h
      rw [List.mem_append] at hc
      rcases hc with hc | hc
      · exact ih (v / 10) (by omega) c hc
      · simp only [List.mem_singleton] at hc
        subst hc
        left
        rw [BitVec.toNat_ofNat]
        omega

theorem genName_ident {name : Bytes} (h : ∀ c ∈ name, identChar c ∨ c = 45) : ∀ c ∈ genName name, identChar c := by
  intro c hc
  unfold genName at hc
  rw [List.mem_map] at hc
  obtain ⟨a, ha, rfl⟩ := hc
  split
  · decide
  · rename_i hn
    exact (h a ha).resolve_right hn

theorem genParts_symbols (f name : Bytes) (deco : Bool) (parse : Bytes → Except Err Key) : ∀ (qs : List PartHdr) (i : Nat),
    ∀ k ∈ (genParts f name deco parse i qs).1, ∃ j, i ≤ j ∧ k.symbol = genKeySymbol name j ∧ k.decorated = deco := by
  intro qs
  induction qs with
  | nil => intro i k hk; cases hk
  | cons q qs ih =>
    intro i k hk
    unfold genParts at hk
    split at hk
    · exact ih i k hk
    · split at hk
      · cases hk
      · rw [List.mem_cons] at hk
        rcases hk with rfl | hk
        · exact ⟨i, Nat.le_refl _, rfl, rfl⟩
        · obtain ⟨j, hj, e⟩ := ih (i + 1) k hk
          exact ⟨j, by omega, e⟩

/-- C97: whatever the file, when the name given with `--name` has only letters, digits, underscores and dashes, every symbol printed is a C identifier that begins
with `keystore_`: those of the keys and that of the keystore; and exactly the definitions are decorated when that was asked for. -/
theorem C97_symbols (f : Option Bytes) (name : Bytes) (deco : Bool) (parse : Bytes → Except Err Key) (hname : ∀ c ∈ name, identChar c ∨ c = 45)
    (rc : Err) (out : GenOut) (h : generateKeystore f (some name) deco parse = .ret (rc, out)) :
    (∀ k ∈ out.keys, (∀ c ∈ k.symbol, identChar c) ∧ (ascii "keystore_").isPrefixOf k.symbol = true ∧ k.decorated = deco) ∧
    ∀ s, out.store = some s → (∀ c ∈ s.symbol, identChar c) ∧ (ascii "keystore_").isPrefixOf s.symbol = true ∧ s.decorated = deco := by
  have hk : ∀ i, (∀ c ∈ genKeySymbol name i, identChar c) ∧ (ascii "keystore_").isPrefixOf (genKeySymbol name i) = true := by
    intro i
    constructor
    · intro c hc
      unfold genKeySymbol at hc
      simp only [List.mem_append] at hc
      rcases hc with ((hc | hc) | hc) | hc
      · revert c; decide +kernel
      · exact genName_ident hname c hc
      · revert c; decide +kernel
      · exact decimal_ident i c hc
    · unfold genKeySymbol
      rw [List.isPrefixOf_iff_prefix, List.append_assoc, List.append_assoc]
      exact List.prefix_append _ _
  have hs : (∀ c ∈ genStoreSymbol name, identChar c) ∧ (ascii "keystore_").isPrefixOf (genStoreSymbol name) = true := by
    constructor
    · intro c hc
      unfold genStoreSymbol at hc
      rw [List.mem_append] at hc
      rcases hc with hc | hc
      · revert c; decide +kernel
      · exact genName_ident hname c hc
    · unfold genStoreSymbol
      rw [List.isPrefixOf_iff_prefix]
      exact List.prefix_append _ _
  have hks : ∀ (g : Bytes) (qs : List PartHdr), ∀ k ∈ (genParts g name deco parse 0 qs).1,
      (∀ c ∈ k.symbol, identChar c) ∧ (ascii "keystore_").isPrefixOf k.symbol = true ∧ k.decorated = deco := by
    intro g qs k hm
    obtain ⟨j, _, e1, e2⟩ := genParts_symbols g name deco parse qs 0 k hm
    rw [e1]
    exact ⟨(hk j).1, (hk j).2, e2⟩
  have nil : ∀ (e : Err), (Out.ret (e, (⟨[], none⟩ : GenOut)) : Out (Err × GenOut)) = .ret (rc, out) →
      (∀ k ∈ out.keys, (∀ c ∈ k.symbol, identChar c) ∧ (ascii "keystore_").isPrefixOf k.symbol = true ∧ k.decorated = deco) ∧
      ∀ s, out.store = some s → (∀ c ∈ s.symbol, identChar c) ∧ (ascii "keystore_").isPrefixOf s.symbol = true ∧ s.decorated = deco := by
    intro e he
    injection he with he
    obtain ⟨_, rfl⟩ := Prod.mk.inj he
    exact ⟨fun k hk => (by cases hk), fun s hs => (by cases hs)⟩
  unfold generateKeystore at h
  simp only at h
  split at h
  · exact nil _ h
  · rename_i f'
    split at h
    · exact nil _ h
    · split at h
      · exact nil _ h
      · split at h
        · exact nil _ h
        · split at h
          · exact nil _ h
          · split at h
            · rename_i ks e hg
              injection h with h
              obtain ⟨_, rfl⟩ := Prod.mk.inj h
              refine ⟨fun k hm => hks f' (parseHeader (f'.take 4096)).parts k ?_, fun s hs => by cases hs⟩
              rw [hg]; exact hm
            · rename_i ks hg
              split at h
              · cases h
              · split at h
                · cases h
                · injection h with h
                  obtain ⟨_, rfl⟩ := Prod.mk.inj h
                  refine ⟨fun k hm => hks f' (parseHeader (f'.take 4096)).parts k ?_, fun s hs' => ?_⟩
                  · rw [hg]; exact hm
                  · have := Option.some.inj hs'
                    subst this
                    exact ⟨hs.1, hs.2, rfl⟩

/-- the name of a keystore of the test suite meets the hypothesis -/
example : ∀ c ∈ ascii "internal-keystore2", identChar c ∨ c = 45 := by decide +kernel

end Bpak
