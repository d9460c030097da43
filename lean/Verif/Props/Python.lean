import Verif.Props.PySession
import Verif.Props.CliChanges
/-! The single classes' attributes and methods. -/
namespace Bpak

/-! ### C90: integer attributes -/

/-- What assigning an integer attribute does, said for one header field: `w` is its width, `set` puts a value in the header, `get` is the
attribute read back. -/
def IntAttr (H : HashFn) (p : Pkg) (w : Nat) (set : PyVal → PyOut Unit × Pkg) (get : Pkg → Int) (upd : Nat → Header) (opens : Nat → Prop) : Prop :=
  (∀ n : Int, 0 ≤ n → n < 2^64 → ∃ p', set (.int n) = (.val (), p') ∧ get p' = n % 2^w ∧ p'.hdr = upd (n % 2^w).toNat ∧
    p'.file.drop 4096 = p.file.drop 4096 ∧ p'.file.take 4096 = p'.hdr.image ∧
    (opens (n % 2^w).toNat → pkgOpen H true p'.file = (.ok, ⟨p'.hdr, p'.file, []⟩))) ∧
  (∀ n : Int, (n < 0 ∨ 2^64 ≤ n) → set (.int n) = (.raise .overflowError, p)) ∧
  (∀ v, (∀ n, v ≠ .int n) → set v = (.raise .typeError, p))

theorem pyULong_int {n : Int} (h0 : 0 ≤ n) (h1 : n < 2^64) (w : Nat) (hw : w ≤ 64) :
    ∃ m : U64, pyULong (.int n) = .val m ∧ m.setWidth w = BitVec.ofNat w (n % 2^w).toNat := by
  refine ⟨BitVec.ofInt 64 n, by simp only [pyULong]; rw [if_pos ⟨h0, h1⟩], ?_⟩
  apply BitVec.eq_of_toNat_eq
  obtain ⟨k, rfl⟩ := Int.eq_ofNat_of_zero_le h0
  have e : ((k : Int) % 2^w).toNat = k % 2^w := by
    have : ((k : Int) % 2^w) = ((k % 2^w : Nat) : Int) := by push_cast; rfl
    rw [this]; exact Int.toNat_natCast _
  have e2 : ((k : Int) % (2^64 : Nat)).toNat = k % 2^64 := by
    have : ((k : Int) % (2^64 : Nat)) = ((k % 2^64 : Nat) : Int) := (Int.natCast_emod k (2^64)).symm
    rw [this]; exact Int.toNat_natCast _
  rw [BitVec.toNat_setWidth, BitVec.toNat_ofInt, BitVec.toNat_ofNat, e, e2, Nat.mod_mod,
    Nat.mod_mod_of_dvd _ (Nat.pow_dvd_pow 2 hw)]

theorem pyULong_bad {n : Int} (h : n < 0 ∨ 2^64 ≤ n) : pyULong (.int n) = .raise .overflowError := by
  simp only [pyULong]
  rw [if_neg (by omega)]

theorem pyULong_other {v : PyVal} (h : ∀ n, v ≠ .int n) : pyULong v = .raise .typeError := by
  cases v with
  | int n => exact absurd rfl (h n)
  | _ => rfl

theorem ofNat_back (w : Nat) (n : Int) : ((BitVec.ofNat w (n % 2^w).toNat).toNat : Int) = n % 2^w := by
  have h1 : 0 ≤ n % 2^w := Int.emod_nonneg _ (by have := Int.pow_pos (n := 2) (m := w) (by decide); omega)
  have h2 : n % 2^w < 2^w := Int.emod_lt_of_pos _ (Int.pow_pos (by decide))
  obtain ⟨k, hk⟩ := Int.eq_ofNat_of_zero_le h1
  rw [hk] at h2 ⊢
  rw [Int.toNat_natCast, BitVec.toNat_ofNat, Nat.mod_eq_of_lt (by exact_mod_cast h2)]

theorem write_facts {p : Pkg} {h : Header} (w : h.WF) : (writeHeader { p with hdr := h }).file.drop 4096 = p.file.drop 4096 ∧
    (writeHeader { p with hdr := h }).file.take 4096 = h.image := by
  rw [writeHeader_eq _ w]
  have il := image_length w
  simp only
  constructor
  · rw [List.drop_append_of_le_length (by omega), List.drop_of_length_le (by omega), List.nil_append]
  · rw [List.take_append_of_le_length (by omega), List.take_of_length_le (by omega)]

/-- The setters at once. -/
theorem intAttr_of {H : HashFn} {p : Pkg} (w : Nat) (hw : w ≤ 64) (set : PyVal → PyOut Unit × Pkg) (get : Pkg → Int)
    (upd : Nat → Header) (fld : Header → BitVec w) (opens : Nat → Prop)
    (hset : ∀ v, set v = match pyULong v with | .raise e => (.raise e, p) | .val n => (.val (), writeHeader { p with hdr := upd (n.setWidth w).toNat }))
    (hget : ∀ q, get q = (fld q.hdr).toNat) (hfld : ∀ n, fld (upd n) = BitVec.ofNat w n) (hwf : ∀ n, (upd n).WF)
    (hv : ∀ n, n < 2^w → opens n → validHeader (upd n) = .ok) : IntAttr H p w set get upd opens := by
  refine ⟨?_, ?_, ?_⟩
  · intro n h0 hn
    obtain ⟨m, e1, e2⟩ := pyULong_int h0 hn w hw
    have e3 : (m.setWidth w).toNat = (n % 2^w).toNat := by
      have := ofNat_back w n
      rw [← e2] at this
      omega
    have f := write_facts (p := p) (hwf (n % 2^w).toNat)
    refine ⟨writeHeader { p with hdr := upd (n % 2^w).toNat }, by rw [hset, e1]; simp only; rw [e3], ?_, rfl, f.1, f.2, fun ho => ?_⟩
    · rw [hget]
      show ((fld (upd (n % 2^w).toNat)).toNat : Int) = _
      rw [hfld]; exact ofNat_back w n
    · have hl : 4096 ≤ (writeHeader { p with hdr := upd (n % 2^w).toNat }).file.length := by
        have := congrArg List.length f.2
        rw [image_length (hwf _), List.length_take] at this
        omega
      rw [C56_open_existing H true _ hl, f.2, parse_image (hwf _), hv _ (by rw [← e3]; exact BitVec.isLt _) ho]
      rfl
  · intro n hn; rw [hset, pyULong_bad hn]
  · intro v hv; rw [hset, pyULong_other hv]

theorem valid_same {h h' : Header} (hv : validHeader h = .ok) (e1 : h'.magic = h.magic) (e2 : h'.parts = h.parts) (e3 : h'.metas = h.metas) (e4 : h'.hashKind ≠ 0) :
    validHeader h' = .ok := by
  unfold validHeader at hv ⊢
  rw [e1, e2, e3]
  split at hv
  · cases hv
  · rename_i v1
    rw [if_neg v1]
    split at hv
    · cases hv
    · rename_i v2
      rw [if_neg v2]
      split at hv
      · cases hv
      · rename_i v3
        rw [if_neg v3, if_neg e4]

theorem ofNat_toNat' {w : Nat} (x : BitVec w) : BitVec.ofNat w x.toNat = x := by simp

def updKeyId (h : Header) (n : Nat) : Header := { h with keyId := BitVec.ofNat 32 n }
def updKeystoreId (h : Header) (n : Nat) : Header := { h with keystoreId := BitVec.ofNat 32 n }
def updSignatureKind (h : Header) (n : Nat) : Header := { h with signatureKind := BitVec.ofNat 8 n }
def updHashKind (h : Header) (n : Nat) : Header := { h with hashKind := BitVec.ofNat 8 n }

/-- C90: `key_id`, `keystore_id` and `signature_kind`. Any integer from 0 to 2^64-1 is taken, cut to the field (32, 32 and 8 bits); the
attribute then reads back as that; nothing else in the header changes, nor do the parts; the file is written at once and opens. Other
values raise and nothing changes. -/
theorem C90_integer_attributes {SK PK : Type} (H : HashFn) (hH : HashLen H) (S : SigScheme SK PK) (hS : ∀ sk rnd k d, S.sign sk rnd k d ≠ .error .ok)
    (s : List (U32 × Bytes)) (t : List (PyCall SK × Option PyExc)) (p : Pkg) (h : PySession H S s t p) :
    IntAttr H p 32 (pySetKeyId p) pyKeyId (fun n => { p.hdr with keyId := BitVec.ofNat 32 n }) (fun _ => True) ∧
    IntAttr H p 32 (pySetKeystoreId p) pyKeystoreId (fun n => { p.hdr with keystoreId := BitVec.ofNat 32 n }) (fun _ => True) ∧
    IntAttr H p 8 (pySetSignatureKind p) pySignatureKind (fun n => { p.hdr with signatureKind := BitVec.ofNat 8 n }) (fun _ => True) := by
  have i := pysession_inv hH S hS h
  refine ⟨?_, ?_, ?_⟩
  · refine intAttr_of 32 (by decide) _ _ (updKeyId p.hdr) (·.keyId) _ ?_ (fun _ => rfl) (fun _ => rfl) (fun _ => i.good.wf) (fun _ _ _ => valid_same i.valid rfl rfl rfl i.hdr.hashKind)
    intro v
    unfold pySetKeyId updKeyId
    simp only [ofNat_toNat']
    rfl
  · refine intAttr_of 32 (by decide) _ _ (updKeystoreId p.hdr) (·.keystoreId) _ ?_ (fun _ => rfl) (fun _ => rfl) (fun _ => i.good.wf) (fun _ _ _ => valid_same i.valid rfl rfl rfl i.hdr.hashKind)
    intro v
    unfold pySetKeystoreId updKeystoreId
    simp only [ofNat_toNat']
    rfl
  · refine intAttr_of 8 (by decide) _ _ (updSignatureKind p.hdr) (·.signatureKind) _ ?_ (fun _ => rfl) (fun _ => rfl) (fun _ => i.good.wf) (fun _ _ _ => valid_same i.valid rfl rfl rfl i.hdr.hashKind)
    intro v
    unfold pySetSignatureKind updSignatureKind
    simp only [ofNat_toNat']
    rfl

/-- C90: `hash_kind` in the same way; the file opens unless the value is 0 modulo 256. What is not done is to compute the payload hash
anew, see `C90_hash_kind_is_false`. -/
theorem C90_hash_kind_partial {SK PK : Type} (H : HashFn) (hH : HashLen H) (S : SigScheme SK PK) (hS : ∀ sk rnd k d, S.sign sk rnd k d ≠ .error .ok)
    (s : List (U32 × Bytes)) (t : List (PyCall SK × Option PyExc)) (p : Pkg) (h : PySession H S s t p) :
    IntAttr H p 8 (pySetHashKind p) pyHashKind (fun n => { p.hdr with hashKind := BitVec.ofNat 8 n }) (fun n => n ≠ 0) := by
  have i := pysession_inv hH S hS h
  refine intAttr_of 8 (by decide) _ _ (updHashKind p.hdr) (·.hashKind) _ ?_ (fun _ => rfl) (fun _ => rfl) (fun _ => i.good.wf) ?_
  · intro v
    unfold pySetHashKind updHashKind
    simp only [ofNat_toNat']
    rfl
  · intro n hn h0
    refine valid_same i.valid rfl rfl rfl ?_
    show BitVec.ofNat 8 n ≠ 0
    intro hc
    have := congrArg BitVec.toNat hc
    rw [BitVec.toNat_ofNat, Nat.mod_eq_of_lt hn] at this
    exact h0 this

/-- The claim "the payload hash in a package is always the one of its hash kind" is false once `hash_kind` is assigned: whatever the package
holds, if the new kind's digest of the parts does not begin like the stored one, the file is left with a payload hash that is wrong. -/
theorem C90_hash_kind_is_false {SK PK : Type} (H : HashFn) (hH : HashLen H) (S : SigScheme SK PK) (hS : ∀ sk rnd k d, S.sign sk rnd k d ≠ .error .ok)
    (s : List (U32 × Bytes)) (t : List (PyCall SK × Option PyExc)) (p : Pkg) (h : PySession H S s t p) (n : Nat) (hn : n < 256)
    (hd : ¬ H (BitVec.ofNat 8 n) (((usedParts p.hdr).filter (fun q => !q.excluded)).flatMap (storedBytes p)) <+: p.hdr.payloadHash) :
    ∃ p', pySetHashKind p (.int n) = (.val (), p') ∧ ¬ HashStored H p' := by
  have i := pysession_inv hH S hS h
  obtain ⟨p', e1, e2, e3, e4, -⟩ := (C90_hash_kind_partial H hH S hS s t p h).1 n (by omega) (by omega)
  refine ⟨p', e1, ?_⟩
  have en : ((n : Int) % 2^8).toNat = n := by omega
  rw [en] at e3
  unfold HashStored
  have hu : usedParts p'.hdr = usedParts p.hdr := by rw [e3]; rfl
  have hsb : storedBytes p' = storedBytes p := by
    funext q
    have t : TidyParts p.hdr := i.good.parts.tidy (by have := i.small; have := i.good.exact; omega)
    unfold storedBytes
    have : partOffset p'.hdr q = partOffset p.hdr q := by unfold partOffset; rw [e3]
    rw [this]
    exact fileRead_drop _ _ e4 _ _ (partOffset_ge p.hdr t q)
  rw [hu, hsb, e3]
  exact hd

/-- C90: `Meta.id`, `Meta.part_id_ref` and `Part.id` raise OverflowError only outside 0 to 2^64-1, and are cut to 32 bits otherwise... -/
theorem C90_u32 (n : Int) : pyU32 (.int n) = if 0 ≤ n ∧ n < 2^64 then .val (BitVec.ofNat 32 (n % 2^32).toNat) else .raise .overflowError := by
  rw [pyU32_eq]
  simp only
  by_cases h : 0 ≤ n ∧ n < 2^64
  · rw [if_pos h, if_pos h]
    obtain ⟨m, e1, e2⟩ := pyULong_int h.1 h.2 32 (by decide)
    simp only [pyULong] at e1
    rw [if_pos h] at e1
    rw [← e2, ← PyOut.val.inj e1, pyMask_toInt h.1 h.2]
  · rw [if_neg h, if_neg h]

/-- ... so the check "value outside the 32-bit range" that the code makes never raises: 2^32 + 5 is taken for 5. -/
theorem C90_range_check_is_false : ∃ n : Int, 2^32 ≤ n ∧ ∀ p id ref, pyPartSetId p id (.int n) = pyPartSetId p id (.int 5) ∧
    pyMetaSetId p id ref (.int n) = pyMetaSetId p id ref (.int 5) ∧ pyMetaSetRef p id ref (.int n) = pyMetaSetRef p id ref (.int 5) := by
  refine ⟨2^32 + 5, by decide, ?_⟩
  intro p id ref
  have e : pyU32 (.int (2^32 + 5)) = pyU32 (.int 5) := by decide
  refine ⟨?_, ?_, ?_⟩
  · unfold pyPartSetId; rw [e]
  · unfold pyMetaSetId; rw [e]
  · unfold pyMetaSetRef; rw [if_neg (by decide), if_neg (by decide), e]

end Bpak
