import Verif.Model.Header
/-!
Specification vocabulary for the header API: what a user sees (entries with their content), and the
headers reachable by API calls.
-/
namespace Bpak

/-- The slots in use: those before the first slot whose id is zero. -/
def usedMetas (h : Header) : List MetaHdr := h.metas.takeWhile (fun m => m.id ≠ 0)
def usedParts (h : Header) : List PartHdr := h.parts.takeWhile (fun p => p.id ≠ 0)

/-- Stored bytes of a part: transport size if transport-encoded, else size plus padding. -/
def storedSize (p : PartHdr) : Nat :=
  if p.flags &&& 2 ≠ 0 then p.transportSize.toNat else p.size.toNat + p.padBytes.toNat

/-- The part is left out of the payload hash: flag bit 0, BPAK_FLAG_EXCLUDE_FROM_HASH. -/
def PartHdr.excluded (p : PartHdr) : Bool := p.flags &&& 1 != 0

/-- The bytes a metadata slot designates. -/
def metaContent (h : Header) (m : MetaHdr) : Bytes :=
  (h.metadata.drop m.offset.toNat).take m.size.toNat

/-- A metadata entry as a user sees it: key (id, part reference) and content. -/
structure Entry where
  id : U32
  ref : U32
  data : Bytes
  deriving DecidableEq, Repr

/-- All entries of a header, in table order. -/
def entries (h : Header) : List Entry :=
  (usedMetas h).map (fun m => ⟨m.id, m.partRef, metaContent h m⟩)

/-- A call of the header API by an application. Applications find slots by lookup, and write the
content of a metadata entry, or the size fields of a part header, through the returned pointer. -/
inductive Op where
  | addMeta (id ref : U32) (size : U16)
  | delMeta (id ref : U32)
  | writeMeta (id ref : U32) (data : Bytes)
  | addPart (id : U32)
  | delPart (id : U32)
  | setPart (id : U32) (size : U64) (padBytes : U16) (flags : U8) (transportSize : U64)
  | setKeyId (k : U32)
  | setKeystoreId (k : U32)
  | setPayloadHash (b : Bytes)
  deriving Repr

/-- Effect of one call. `none` if the arguments break the API's contract (id 0, missing entry, content
of the wrong length, undefined behaviour) or if a failed call damaged the header (see C07). -/
def step (h : Header) : Op → Option Header
  | .addMeta id ref size =>
    if id = 0 then none else
    let r := addMeta h id ref size
    if r.1 = .ok ∨ r.2.1 = h then some r.2.1 else none
  | .delMeta id ref =>
    if id = 0 then none else
    match getMeta h id ref with
    | none => some h
    | some i => match delMeta h i with
      | .ub => none
      | .ret h' => some h'
  | .writeMeta id ref data =>
    if id = 0 then none else
    match getMeta h id ref with
    | none => none
    | some i => match h.metas[i]? with
      | none => none
      | some m =>
        if data.length = m.size.toNat then
          match writeAt h.metadata m.offset.toNat data with
          | none => none
          | some md => some { h with metadata := md }
        else none
  | .addPart id => if id = 0 then none else some (addPart h id).2.1
  | .delPart id =>
    if id = 0 then none else
    match getPart h id with
    | none => some h
    | some i => match delPart h i with
      | .ub => none
      | .ret h' => some h'
  | .setPart id size padBytes flags tsz =>
    if id = 0 then none else
    match getPart h id with
    | none => none
    | some i => some { h with parts := h.parts.modify i (fun p =>
        { p with size := size, padBytes := padBytes, flags := flags, transportSize := tsz }) }
  | .setKeyId k => some (setKeyId h k)
  | .setKeystoreId k => some (setKeystoreId h k)
  | .setPayloadHash b => if b.length = 64 then some { h with payloadHash := b } else none

/-- Run a whole history. -/
def run (h : Header) : List Op → Option Header
  | [] => some h
  | op :: ops => match step h op with
    | none => none
    | some h' => run h' ops

/-- A header an application can build with the API. -/
def Reachable (h : Header) : Prop := ∃ ops, run initHeader ops = some h

end Bpak
