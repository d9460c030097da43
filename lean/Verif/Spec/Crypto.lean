import Verif.Model.Crypto
/-!
The keys bpak knows, and what mbedtls promises about keys, as far as bpak relies on it.
-/
namespace Bpak

/-- Algorithm, size in bits and kind (include/bpak/bpak.h:142-152) of the public keys bpak knows. -/
def publicKinds : List (PkName × Nat × U8) := [(.rsa, 4096, 1), (.ec, 256, 2), (.ec, 384, 3), (.ec, 521, 4)]
/-- The same for private keys. -/
def privateKinds : List (PkName × Nat × U8) := [(.rsa, 4096, 5), (.ec, 256, 6), (.ec, 384, 7), (.ec, 521, 8)]

/-- `f` is a public key file that holds the key `p`, of the given kind. -/
def PublicFile (M : Mbed) (f : Bytes) (p : M.Pub) (kind : U8) : Prop := M.parsePubFile f = some p ∧ (M.pubName p, M.pubBits p, kind) ∈ publicKinds
/-- `f` is a private key file that holds the key `k`, of the given kind. -/
def PrivateFile (M : Mbed) (f : Bytes) (k : M.Pri) (kind : U8) : Prop := M.parsePriFile f = some k ∧ (M.priName k, M.priBits k, kind) ∈ privateKinds

/-- The digests the hash kinds (include/bpak/bpak.h:71-76) stand for: SHA-256, SHA-384 and SHA-512, by their numbers here; every other number stands for none. -/
def digestOf (kind : U8) : Option U8 := if kind = 1 ∨ kind = 2 ∨ kind = 3 then some kind else none

/-- Keys that belong together: what `k` signs, `p` accepts. -/
def Mbed.Pair (M : Mbed) (k : M.Pri) (p : M.Pub) : Prop := ∀ rnd md hash room s, M.sign k rnd md hash room = some s → M.verify p md hash s = true

/-- The promises. A key that was written is read back as the same key; a signature fits into the room given. A key on one of the three curves can be written, in at
most 512 bytes (158 in fact), an RSA key of 4096 bits takes more than 512 (its modulus alone has 512); a private key bpak knows takes at most 4096. -/
structure MbedLaws (M : Mbed) : Prop where
  pub : ∀ p d, M.derPub p = some d → M.parsePub d = some p
  pri : ∀ k d, M.derPri k = some d → M.parsePri d = some k
  room : ∀ k rnd md hash room s, M.sign k rnd md hash room = some s → s.length ≤ room
  ecSize : ∀ p, M.pubName p = .ec → M.pubBits p ≤ 521 → ∃ d, M.derPub p = some d ∧ d.length ≤ 512
  rsaSize : ∀ p d, M.pubName p = .rsa → M.pubBits p = 4096 → M.derPub p = some d → 512 < d.length
  priSize : ∀ k kind, (M.priName k, M.priBits k, kind) ∈ privateKinds → ∃ d, M.derPri k = some d ∧ d.length ≤ 4096

end Bpak
