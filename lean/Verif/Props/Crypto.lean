import Verif.Spec.Crypto
/-! Key files and the functions of the mbedtls wrapper (C101). -/
namespace Bpak

theorem pkKind_pub (n : PkName) (b : Nat) (k : U8) : pkKind 0 n b = some k ↔ (n, b, k) ∈ publicKinds := by
  unfold pkKind publicKinds
  cases n with
  | ec =>
    simp only [List.mem_cons, Prod.mk.injEq, List.not_mem_nil, or_false, reduceCtorEq, false_and, false_or, true_and]
    repeat' split
    all_goals (simp only [Option.some.injEq, reduceCtorEq, false_iff, not_or])
    all_goals subst_vars
    all_goals first
      | (constructor
         · intro h; subst h; simp
         · rintro (⟨h, rfl⟩ | ⟨h, rfl⟩ | ⟨h, rfl⟩) <;> first | omega | rfl)
      | omega
  | rsa =>
    simp only [List.mem_cons, Prod.mk.injEq, List.not_mem_nil, or_false, reduceCtorEq, false_and, true_and]
    split
    · rename_i h; subst h; simp [eq_comm]
    · rename_i h; simp [h]
  | other => simp

theorem pkKind_pri (n : PkName) (b : Nat) (k : U8) : pkKind 4 n b = some k ↔ (n, b, k) ∈ privateKinds := by
  unfold pkKind privateKinds
  cases n with
  | ec =>
    simp only [List.mem_cons, Prod.mk.injEq, List.not_mem_nil, or_false, reduceCtorEq, false_and, false_or, true_and]
    repeat' split
    all_goals (simp only [Option.some.injEq, reduceCtorEq, false_iff, not_or])
    all_goals subst_vars
    all_goals first
      | (constructor
         · intro h; subst h; simp
         · rintro (⟨h, rfl⟩ | ⟨h, rfl⟩ | ⟨h, rfl⟩) <;> first | omega | rfl)
      | omega
  | rsa =>
    simp only [List.mem_cons, Prod.mk.injEq, List.not_mem_nil, or_false, reduceCtorEq, false_and, true_and]
    split
    · rename_i h; subst h; simp [eq_comm]
    · rename_i h; simp [h]
  | other => simp

/-- What is copied out of the buffer is the text written to its end. -/
theorem derInto_some {room : Nat} {d : Bytes} (h : d.length ≤ room) :
    ∃ tmp, derInto room (some d) = some (tmp, d.length) ∧ (tmp.drop (room - d.length)).take d.length = d := by
  refine ⟨_, by unfold derInto; simp only; rw [if_neg (by omega)], ?_⟩
  rw [List.drop_append_of_le_length (by rw [List.length_replicate]; omega), List.drop_of_length_le (by rw [List.length_replicate]; omega), List.nil_append,
    List.take_of_length_le (Nat.le_refl _)]

theorem derInto_none {room : Nat} {d : Option Bytes} (h : ∀ x, d = some x → room < x.length) : derInto room d = none := by
  unfold derInto
  cases d with
  | none => rfl
  | some d => simp only; rw [if_pos (h d rfl)]

/-- C101, loading a public key file (`none`: no such file): succeeds exactly for a key of one of the four kinds that takes at most 1024 bytes in its standard form, and gives the
kind and that form. -/
theorem C101_load_public (M : Mbed) (file : Option Bytes) (key : Key) :
    mbedLoadPublic M file = .ok key ↔
      ∃ f p kind d, file = some f ∧ PublicFile M f p kind ∧ M.derPub p = some d ∧ d.length ≤ 1024 ∧ key = ⟨0, kind, d⟩ := by
  constructor
  · intro h
    unfold mbedLoadPublic at h
    simp only at h
    split at h
    · cases h
    · rename_i tmp len ht
      split at h
      · cases h
      · rename_i p hp
        split at h
        · cases h
        · rename_i kind hk
          rw [hp, Option.bind_some] at ht
          cases file with
          | none => cases hp
          | some f =>
            cases hd : M.derPub p with
            | none => rw [hd] at ht; cases ht
            | some d =>
              rw [hd] at ht
              have hl : d.length ≤ 1024 := Nat.le_of_not_lt (fun h => by rw [derInto_none (by rintro x hx; cases hx; exact h)] at ht; cases ht)
              obtain ⟨tmp', e1, e2⟩ := derInto_some hl
              rw [e1] at ht
              obtain ⟨rfl, rfl⟩ := Prod.mk.inj (Option.some.inj ht)
              refine ⟨f, p, kind, d, rfl, ⟨hp, (pkKind_pub _ _ _).1 hk⟩, hd, hl, ?_⟩
              rw [← Except.ok.inj h, e2]
  · rintro ⟨f, p, kind, d, rfl, ⟨h1, h2⟩, hd, hl, rfl⟩
    obtain ⟨tmp, e1, e2⟩ := derInto_some hl
    unfold mbedLoadPublic
    simp only [Option.bind_some, h1, hd, e1, (pkKind_pub _ _ _).2 h2, e2]

/-- C101, loading a private key file. -/
theorem C101_load_private (M : Mbed) (L : MbedLaws M) (file : Option Bytes) (key : Key) :
    mbedLoadPrivate M true file = .ok key ↔ ∃ f k kind d, file = some f ∧ PrivateFile M f k kind ∧ M.derPri k = some d ∧ key = ⟨0, kind, d⟩ := by
  constructor
  · intro h
    unfold mbedLoadPrivate at h
    rw [if_neg (by decide)] at h
    simp only at h
    split at h
    · cases h
    · rename_i tmp len ht
      split at h
      · cases h
      · rename_i p hp
        split at h
        · cases h
        · rename_i kind hk
          rw [hp, Option.bind_some] at ht
          cases file with
          | none => cases hp
          | some f =>
            have hk2 := (pkKind_pri _ _ _).1 hk
            obtain ⟨d, hd, hl⟩ := L.priSize p kind hk2
            rw [hd] at ht
            obtain ⟨tmp', e1, e2⟩ := derInto_some hl
            rw [e1] at ht
            obtain ⟨rfl, rfl⟩ := Prod.mk.inj (Option.some.inj ht)
            refine ⟨f, p, kind, d, rfl, ⟨hp, hk2⟩, hd, ?_⟩
            rw [← Except.ok.inj h, e2]
  · rintro ⟨f, p, kind, d, rfl, ⟨h1, h2⟩, hd, rfl⟩
    obtain ⟨d', hd', hl⟩ := L.priSize p kind h2
    rw [hd] at hd'
    cases hd'
    obtain ⟨tmp, e1, e2⟩ := derInto_some hl
    unfold mbedLoadPrivate
    rw [if_neg (by decide)]
    simp only [Option.bind_some, h1, hd, e1, (pkKind_pri _ _ _).2 h2, e2]

/-- C101, the codes of failures: a key that mbedtls reads but bpak does not know is reported as unsupported if it is public (and not too long), every other failure as a key that cannot
be decoded. -/
theorem C101_codes (M : Mbed) (file : Option Bytes) (e : Err) :
    (mbedLoadPublic M file = .error e → e = .keyDecode ∨
      (e = .unsupportedKey ∧ ∃ f p, file = some f ∧ M.parsePubFile f = some p ∧ ∀ kind, (M.pubName p, M.pubBits p, kind) ∉ publicKinds)) ∧
    (mbedLoadPrivate M true file = .error e → e = .keyDecode) ∧ (∀ buf, mbedParsePublic M buf = .error e → e = .keyDecode) := by
  refine ⟨?_, ?_, ?_⟩
  · intro h
    unfold mbedLoadPublic at h
    simp only at h
    split at h
    · exact Or.inl (Except.error.inj h).symm
    · rename_i tmp len ht
      split at h
      · rename_i hp
        rw [hp] at ht
        cases ht
      · rename_i p hp
        split at h
        · rename_i hk
          refine Or.inr ⟨(Except.error.inj h).symm, ?_⟩
          cases file with
          | none => cases hp
          | some f => exact ⟨f, p, rfl, hp, fun kind hm => by rw [(pkKind_pub _ _ _).2 hm] at hk; cases hk⟩
        · cases h
  · intro h
    unfold mbedLoadPrivate at h
    rw [if_neg (by decide)] at h
    simp only at h
    repeat' split at h
    all_goals first | exact (Except.error.inj h).symm | cases h
  · intro buf h
    unfold mbedParsePublic at h
    repeat' split at h
    all_goals first | exact (Except.error.inj h).symm | cases h

/-- C101, parsing a public key from memory (as from a keystore). -/
theorem C101_parse_public (M : Mbed) (buf : Bytes) (key : Key) :
    mbedParsePublic M buf = .ok key ↔
      ∃ p kind d, M.parsePub buf = some p ∧ (M.pubName p, M.pubBits p, kind) ∈ publicKinds ∧ M.derPub p = some d ∧ d.length ≤ 512 ∧ key = ⟨0, kind, d⟩ := by
  constructor
  · intro h
    unfold mbedParsePublic at h
    split at h
    · cases h
    · rename_i p hp
      split at h
      · cases h
      · rename_i kind hk
        split at h
        · cases h
        · rename_i tmp len ht
          cases hd : M.derPub p with
          | none => rw [hd] at ht; cases ht
          | some d =>
            rw [hd] at ht
            have hl : d.length ≤ 512 := Nat.le_of_not_lt (fun h => by rw [derInto_none (by rintro x hx; cases hx; exact h)] at ht; cases ht)
            obtain ⟨tmp', e1, e2⟩ := derInto_some hl
            rw [e1] at ht
            obtain ⟨rfl, rfl⟩ := Prod.mk.inj (Option.some.inj ht)
            refine ⟨p, kind, d, hp, (pkKind_pub _ _ _).1 hk, hd, hl, ?_⟩
            rw [← Except.ok.inj h, e2]
  · rintro ⟨p, kind, d, h1, h2, hd, hl, rfl⟩
    obtain ⟨tmp, e1, e2⟩ := derInto_some hl
    unfold mbedParsePublic
    simp only [h1, (pkKind_pub _ _ _).2 h2, hd, e1, e2]

/-- The digest mbedtls is told is the one the hash kind stands for. -/
theorem digestOf_eq : digestOf = mdKind := by
  funext k
  rfl

/-- C101, keys on the three curves: they can be loaded from a file; the key so obtained checks signatures exactly as the key in the file does; and when its bytes are stored
(in a keystore, say) and parsed again, the same key comes back. -/
theorem C101_curve_keys (M : Mbed) (L : MbedLaws M) (f : Bytes) (p : M.Pub) (kind : U8) (h : PublicFile M f p kind) (hec : kind ≠ 1) :
    ∃ key, mbedLoadPublic M (some f) = .ok key ∧ key.kind = kind ∧ mbedParsePublic M key.data = .ok key ∧
      ∀ hk hash sig, mbedVerify M sig hash hk key = (.ok, M.verify p (digestOf hk) hash sig) := by
  rw [digestOf_eq]
  have hc : M.pubName p = .ec ∧ M.pubBits p ≤ 521 := by
    have := h.2
    unfold publicKinds at this
    simp only [List.mem_cons, Prod.mk.injEq, List.not_mem_nil, or_false] at this
    rcases this with ⟨_, _, a⟩ | ⟨a, b, _⟩ | ⟨a, b, _⟩ | ⟨a, b, _⟩
    · exact absurd a hec
    all_goals exact ⟨a, by omega⟩
  obtain ⟨d, hd, hl⟩ := L.ecSize p hc.1 hc.2
  refine ⟨⟨0, kind, d⟩, (C101_load_public M _ _).2 ⟨f, p, kind, d, rfl, h, hd, by omega, rfl⟩, rfl,
    (C101_parse_public M _ _).2 ⟨p, kind, d, L.pub p d hd, h.2, hd, hl, rfl⟩, ?_⟩
  intro hk hash sig
  unfold mbedVerify
  simp only [L.pub p d hd]
  split
  · rename_i hv; rw [hv]
  · rename_i hv; rw [Bool.not_eq_true] at hv; rw [hv]

/-- C101, every key that was loaded from a file: it checks signatures exactly as the key in the file does, and a wrong signature is no error. -/
theorem C101_verify (M : Mbed) (L : MbedLaws M) (f : Bytes) (p : M.Pub) (hp : M.parsePubFile f = some p) (key : Key) (h : mbedLoadPublic M (some f) = .ok key) (hk : U8) (hash sig : Bytes) :
    mbedVerify M sig hash hk key = (.ok, M.verify p (digestOf hk) hash sig) := by
  rw [digestOf_eq]
  obtain ⟨f', p', kind, d, hf, hpf, hd, -, rfl⟩ := (C101_load_public M _ _).1 h
  cases hf
  have : p' = p := by have := hpf.1; rw [hp] at this; exact (Option.some.inj this).symm
  subst this
  unfold mbedVerify
  simp only [L.pub p' d hd]
  split
  · rename_i hv; rw [hv]
  · rename_i hv; rw [Bool.not_eq_true] at hv; rw [hv]

/-- C101, the flaw: an RSA key of 4096 bits, which bpak loads from a file, is never accepted from memory, in whatever form it is stored: the buffer for it is too small. So no such key can be
used from a keystore. -/
theorem C101_rsa_is_false (M : Mbed) (L : MbedLaws M) (buf : Bytes) (p : M.Pub) (hp : M.parsePub buf = some p) (h1 : M.pubName p = .rsa) (h2 : M.pubBits p = 4096) :
    mbedParsePublic M buf = .error .keyDecode := by
  cases h : mbedParsePublic M buf with
  | error e => rw [(C101_codes M none e).2.2 buf h]
  | ok key =>
    obtain ⟨p', kind, d, e1, -, hd, hl, -⟩ := (C101_parse_public M _ _).1 h
    rw [hp] at e1
    cases e1
    have := L.rsaSize p d h1 h2 hd
    omega

end Bpak
