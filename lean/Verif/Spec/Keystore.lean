import Verif.Model.Utils
import Verif.Model.Generate
import Verif.Spec.PkgHistory
/-!
What loading a key from a keystore package should do.
-/
namespace Bpak

/-- The outcome for a keystore with metadata `es` and keys `fs` (id and DER bytes). -/
def keystoreAnswer (es : List Entry) (fs : List (U32 × Bytes)) (ksid keyid : U32) (parse : Bytes → Except Err Key) : Err × Option Key :=
  match es.find? (fun e => e.id = 0xfb367d9a ∧ e.ref = 0) with
  | none => (.notFound, none)
  | some e =>
    if ofLe32 (e.data.take 4) ≠ ksid then (.keystoreIdMismatch, none)
    else match fs.find? (fun c => c.1 = keyid) with
      | none => (.notFound, none)
      | some c => match parse c.2 with
        | .error e => (e, none)
        | .ok k => (.ok, some ⟨keyid, k.kind, k.data⟩)

/-- The key that a file of a keystore package is turned into, or why it is not. -/
def keyVerdict (parse : Bytes → Except Err Key) (d : Bytes) : Except Err Key :=
  if 4096 < d.length then .error .bufferTooSmall
  else match parse d with
    | .error e => .error e
    | .ok k => if k.kind ∈ [1, 2, 3, 4] then .ok k else .error .unsupportedKey

def goodKey (parse : Bytes → Except Err Key) (d : Bytes) : Bool := match keyVerdict parse d with
  | .ok _ => true
  | .error _ => false

/-- The C objects a compiler makes of what was printed: a keystore with its keys. -/
def GenOut.compiled (o : GenOut) : Option Keystore := o.store.map (fun s => ⟨s.id, s.verified, o.keys.map (fun k => ⟨k.id, k.kind, k.data⟩)⟩)

end Bpak
