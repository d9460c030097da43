import Verif.Model.Python
import Verif.Spec.Session
/-!
Programs that work on a package through the Python classes, and what their author expects.
-/
namespace Bpak

/-- A call or assignment on an open `bpak.Package` or on one of its `Part` and `Meta` objects that may change something. Objects are given by
the ids they carry, so an object of any age is covered. `src`: content of the named file, if there is one. -/
inductive PyCall (SK : Type) where
  | addFile (name : Bytes) (src : Option Bytes)
  | addFileTree (name : Bytes) (src : Option Bytes) (salt : Bytes)
  | addKey (name : Bytes) (key : Except Err Bytes)
  | addMeta (id ref : Int) (data : Option PyVal) (size : Int)
  | setKeyId (v : PyVal)
  | setKeystoreId (v : PyVal)
  | setSignatureKind (v : PyVal)
  | setSignature (v : PyVal)
  | sign (key : Except Err SK) (rnd : Bytes)
  | digest
  | metaSetId (id ref : U32) (v : PyVal)
  | metaSetRef (id ref : U32) (v : PyVal)
  | metaSetRaw (id ref : U32) (v : PyVal)
  | metaDelete (id ref : U32)
  | partSetId (id : U32) (v : PyVal)
  | partDelete (id : U32)

/-- The exception, if there is one, and the package. -/
def pyDone {α : Type} : PyOut α × Pkg → Option PyExc × Pkg
  | (.val _, p) => (none, p)
  | (.raise e, p) => (some e, p)

/-- A call whose behaviour is defined. -/
def pyDone' {α : Type} : Out (PyOut α × Pkg) → Option (Option PyExc × Pkg)
  | .ub => none
  | .ret r => some (pyDone r)

/-- One call; `none` if it does not end or its behaviour is undefined. -/
def pyStep {SK PK : Type} (H : HashFn) (S : SigScheme SK PK) (p : Pkg) : PyCall SK → Option (Option PyExc × Pkg)
  | .addFile name src => (pyAddFile H p name src none).bind pyDone'
  | .addFileTree name src salt => (pyAddFile H p name src (some salt)).bind pyDone'
  | .addKey name key => pyDone' (pyAddKey H p name key)
  | .addMeta id ref data size => pyDone' (pyAddMeta p id ref data size)
  | .setKeyId v => some (pyDone (pySetKeyId p v))
  | .setKeystoreId v => some (pyDone (pySetKeystoreId p v))
  | .setSignatureKind v => some (pyDone (pySetSignatureKind p v))
  | .setSignature v => pyDone' (pySetSignature p v)
  | .sign key rnd => some (pyDone (pySign H S rnd key p))
  | .digest => some (none, (pyDigest H p).2)
  | .metaSetId id ref v => some (pyDone (pyMetaSetId p id ref v))
  | .metaSetRef id ref v => some (pyDone (pyMetaSetRef p id ref v))
  | .metaSetRaw id ref v => pyDone' (pyMetaSetRaw p id ref v)
  | .metaDelete id ref => pyDone' (pyMetaDelete p id ref)
  | .partSetId id v => some (pyDone (pyPartSetId p id v))
  | .partDelete id => (pyPartDelete H p id).bind pyDone'

/-- Bytes of the metadata area in use: each entry starts at a multiple of 8. -/
def metaBytesUsed (h : Header) : Nat := ((usedMetas h).map (fun m => (m.size.toNat + 7) / 8 * 8)).sum

/-- The number of bytes `add_meta` is asked for. -/
def wantedSize (data : Option PyVal) (size : Int) : Nat :=
  if 0 ≤ size then size.toNat else match data with
    | some (.bytes b) => b.length
    | some (.str s) => s.length + 1
    | _ => 0

/-- What the program must not do. Ids are not 0 (it marks a free slot) and no part or entry is renamed to what exists (C92); `add_meta`
asks for no more bytes than are left (C93); a deletion in a full metadata table (C36), a signature over 512 bytes (C33) and a signature that
cannot be made although the key could be read (C94) are excluded; so are files beyond the range of `off_t` and a hash tree that does not fit. -/
def PyAllowed {SK PK : Type} (H : HashFn) (S : SigScheme SK PK) (p : Pkg) : PyCall SK → Prop
  | .addFile name src => bpakId name ≠ 0 ∧ ∀ d, src = some d → p.file.length + d.length + 512 < 2^63
  | .addFileTree name src salt => bpakId name ≠ 0 ∧ ∀ d, src = some d → partIdToHashTreeId (bpakId name) ≠ 0 ∧ salt.length = 32 ∧
      p.file.length + d.length + (hashTree H salt d).length + 512 < 2^63 ∧
      ∃ q, addFileWithMerkle H (d.length + 2) p (bpakId name) 0 d salt = some (.ret (.ok, q))
  | .addKey name key => bpakId name ≠ 0 ∧ key ≠ .error .ok ∧ ∀ k, key = .ok k → p.file.length + k.length + 512 < 2^63
  | .addMeta id ref data size => pyMask id ≠ 0 ∧ ((∃ m ∈ usedMetas p.hdr, m.id = pyMask id ∧ m.partRef = pyMask ref) ∨ (usedMetas p.hdr).length = 32 ∨
      metaBytesUsed p.hdr + wantedSize data size ≤ 1920)
  | .setSignature v => ∀ b, v = .bytes b → b.length ≤ 512
  | .sign key rnd => (∃ e, key = .error e ∧ e ≠ .ok) ∨ ∃ q, pySign H S rnd key p = (.val (), q)
  | .metaSetId id ref v => id ≠ 0 ∧ ∀ n, v = .int n → pyMask n ≠ 0 ∧ ∀ m ∈ usedMetas p.hdr, m.id = pyMask n → m.partRef = ref → pyMask n = id
  | .metaSetRef id ref v => id ≠ 0 ∧ ∀ r, (v = .none ∧ r = 0 ∨ ∃ n, v = .int n ∧ r = pyMask n) → ∀ m ∈ usedMetas p.hdr, m.id = id → m.partRef = r → r = ref
  | .metaSetRaw id _ _ => id ≠ 0
  | .metaDelete id _ => id ≠ 0 ∧ (usedMetas p.hdr).length < 32
  | .partSetId id v => id ≠ 0 ∧ ∀ n, v = .int n → pyMask n ≠ 0 ∧ ∀ q ∈ usedParts p.hdr, q.id = pyMask n → pyMask n = id
  | .partDelete id => id ≠ 0 ∧ ((usedMetas p.hdr).length < 32 ∨ ∀ m ∈ usedMetas p.hdr, m.partRef ≠ id)
  | _ => True

/-- What the author expects to be in the package after a call: only calls that raise nothing count. -/
def pyFilesStep {SK : Type} (H : HashFn) (s : List (U32 × Bytes)) : PyCall SK × Option PyExc → List (U32 × Bytes)
  | (c, e) => if e ≠ none then s else match c with
    | .addFile name (some d) => s ++ [(bpakId name, d)]
    | .addFileTree name (some d) salt => s ++ [(bpakId name, d), (partIdToHashTreeId (bpakId name), hashTree H salt d)]
    | .addKey name (.ok k) => s ++ [(bpakId name, k)]
    | .partSetId id (.int n) => s.map (fun c => if c.1 = id then (pyMask n, c.2) else c)
    | .partDelete id => s.filter (fun c => c.1 ≠ id)
    | _ => s

/-- A program: the package is new (mode "w+") or left by a session with the tool (mode "r+"); then calls; at any point it may be
closed and opened again. `s`: what was in it when it was opened first; `t`: the calls and their exceptions. -/
inductive PySession {SK PK : Type} (H : HashFn) (S : SigScheme SK PK) : List (U32 × Bytes) → List (PyCall SK × Option PyExc) → Pkg → Prop where
  | new {p : Pkg} : pkgOpen H true [] = (.ok, p) → PySession H S [] [] p
  | existing {t : List (Cmd SK × Err)} {f : Bytes} {p : Pkg} : Session H S t (some f) → pkgOpen H true f = (.ok, p) → PySession H S (sessionFiles H t) [] p
  | reopen {s : List (U32 × Bytes)} {t : List (PyCall SK × Option PyExc)} {p p' : Pkg} : PySession H S s t p → pkgOpen H true p.file = (.ok, p') → PySession H S s t p'
  | call {s : List (U32 × Bytes)} {t : List (PyCall SK × Option PyExc)} {p p' : Pkg} {c : PyCall SK} {e : Option PyExc} :
      PySession H S s t p → PyAllowed H S p c → pyStep H S p c = some (e, p') → PySession H S s (t ++ [(c, e)]) p'

/-- What the author of the program expects to be in the package. -/
def pyFiles {SK : Type} (H : HashFn) (s : List (U32 × Bytes)) (t : List (PyCall SK × Option PyExc)) : List (U32 × Bytes) := t.foldl (pyFilesStep H) s

end Bpak
