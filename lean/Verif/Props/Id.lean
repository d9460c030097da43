import Verif.Proof.Crc
/-! Properties C01, C02: identifiers. -/
namespace Bpak

/-- C01: the table-driven routine is bitwise CRC-32 division, for every start value and string. -/
theorem C01_crc32_is_bitwise_division (start : U32) (data : Bytes) :
    crc32 start data = Spec.crc start data := crc32_eq start data

/-- C01: feeding a string in two pieces equals feeding it whole. -/
theorem C01_crc32_streams (start : U32) (a b : Bytes) :
    crc32 (crc32 start a) b = crc32 start (a ++ b) := (crc32_append start a b).symm

/-- C01: an identifier is the CRC from a zero register. -/
theorem C01_id_is_crc (name : Bytes) : bpakId name = Spec.crc 0 name := crc32_eq 0 name

/-- C01: two names of equal length differing in exactly one byte never share an id. -/
theorem C01_one_byte_change_changes_id (pre post : Bytes) (x y : U8) (h : x ≠ y) :
    bpakId (pre ++ x :: post) ≠ bpakId (pre ++ y :: post) := by
  intro heq
  unfold bpakId at heq
  rw [crc32_append, crc32_append] at heq
  have h2 : crc32 (crcStep (crc32 0 pre) x) post = crc32 (crcStep (crc32 0 pre) y) post := heq
  exact h (crcStep_inj_byte (crc32_inj_start h2))

-- The documented constant for "bpak-transport" (a test, not a proof of the claim).
example : bpakId [0x62,0x70,0x61,0x6b,0x2d,0x74,0x72,0x61,0x6e,0x73,0x70,0x6f,0x72,0x74] = 0x2d44bbfb := by
  decide +kernel
example : bpakId [0x61] ≠ bpakId [0x62] := C01_one_byte_change_changes_id [] [] _ _ (by decide)

/-- The bytes of an ASCII string. -/
def asciiBytes (s : String) : Bytes := s.toList.map (fun c => BitVec.ofNat 8 c.toNat)
theorem hashTreeSuffix_eq : hashTreeSuffix = asciiBytes "-hash-tree" := by decide

/-- C02: the hash-tree id computed from the numeric id alone is the id of the name with
"-hash-tree" appended. -/
theorem C02_hash_tree_id_of_name (name : Bytes) :
    partIdToHashTreeId (bpakId name) = bpakId (name ++ asciiBytes "-hash-tree") := by
  rw [← hashTreeSuffix_eq]
  exact (crc32_append 0 name hashTreeSuffix).symm

theorem C02_hash_tree_id_by_name (name : Bytes) :
    partNameToHashTreeId name = bpakId (name ++ asciiBytes "-hash-tree") :=
  C02_hash_tree_id_of_name name

/-- C02: distinct part ids have distinct hash-tree ids, so no two parts share a tree part. -/
theorem C02_hash_tree_id_injective (a b : U32) (h : partIdToHashTreeId a = partIdToHashTreeId b) :
    a = b := crc32_inj_start h

example : partIdToHashTreeId (bpakId [0x66, 0x73])
    = bpakId [0x66, 0x73, 0x2d, 0x68, 0x61, 0x73, 0x68, 0x2d, 0x74, 0x72, 0x65, 0x65] :=
  C02_hash_tree_id_of_name _

end Bpak
