import Verif.Model.Diff
/-!
What a delta is: a list of records, each a block of differences against the origin at the current
position, a block of literal bytes, and a seek.
-/
namespace Bpak

structure Rec where
  diff : Bytes
  extra : Bytes
  adjust : Int
  deriving DecidableEq, Repr

/-- The lengths fit the 63-bit magnitude of the wire format. -/
def Rec.Small (r : Rec) : Prop := r.diff.length < 2^63 ∧ r.extra.length < 2^63 ∧ r.adjust.natAbs < 2^63

/-- The wire format of a signed number: 63-bit magnitude, little-endian, sign in the top bit. -/
def wireInt (x : Int) : Bytes := 
  (List.range 8).map (fun i => BitVec.ofNat 8 ((x.natAbs + if x < 0 then 2^63 else 0) / 256^i))

/-- The wire format of a record. -/
def encodeRec (r : Rec) : Bytes :=
  wireInt r.diff.length ++ wireInt r.extra.length ++ wireInt r.adjust ++ r.diff ++ r.extra

def encodeRecs (rs : List Rec) : Bytes := rs.flatMap encodeRec

/-- Meaning of a delta. `rd p n` yields the `n` origin bytes at position `p`, if they exist. Result: the
output and the final origin position. -/
def applyRecs (rd : Int → Nat → Option Bytes) (pos : Int) : List Rec → Option (Bytes × Int)
  | [] => some ([], pos)
  | r :: rs =>
    match rd pos r.diff.length with
    | none => none
    | some o =>
      match applyRecs rd (pos + r.diff.length + r.adjust) rs with
      | none => none
      | some (w, q) => some (List.zipWith (· + ·) o r.diff ++ r.extra ++ w, q)

/-- An origin file: reading at a negative offset fails, and so does reading past the end. -/
def fileReader (f : Bytes) : Int → Nat → Option Bytes := fun p n =>
  if p < 0 then none
  else if n = 0 then some []
  else if p.toNat + n ≤ f.length then some ((f.drop p.toNat).take n) else none

/-- A decoder set up on an origin file (stream offset `originOff`), writing at offset `outOff`, with a
work buffer of `2 * bufLen` bytes. -/
def patchCfg (origin : Bytes) (originOff : Int) (outOff bufLen : Nat) : PatchCfg :=
  ⟨fileReader origin, originOff, outOff, bufLen⟩

/-- The control headers reached in the stream all have a non-negative diff length. A header is followed
by its diff bytes and its extra bytes (a negative extra length counts as none). -/
inductive CtrlOk : Bytes → Prop where
  | short (b : Bytes) : b.length < 24 → CtrlOk b
  | record (b : Bytes) : 24 ≤ b.length → 0 ≤ offtin (b.take 8) →
      CtrlOk (b.drop (24 + (offtin (b.take 8)).toNat + (offtin ((b.drop 8).take 8)).toNat)) → CtrlOk b


/-- What a match search must satisfy: a length within the rest of the new data and a position within the
origin. -/
def SearchOk (o n : Bytes) (srch : Int → Option (Int × Int)) : Prop :=
  ∀ scan : Int, 0 ≤ scan → scan < n.length → ∃ len pos, srch scan = some (len, pos) ∧ 0 ≤ len ∧ len ≤ n.length - scan ∧
    0 ≤ pos ∧ pos ≤ o.length

end Bpak
