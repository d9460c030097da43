import Verif.Spec.Session
import Verif.Props.Add
import Verif.Props.SetValue
/-! The metadata a user expects after a sequence of commands (C115). -/
namespace Bpak

/-- The last 24 bytes of a transport entry are not written by `transport --add` (C44): they count as zeros here. -/
def shown (e : Entry) : Entry := if e.id = idBpakTransport then { e with data := e.data.take 8 ++ List.replicate (e.data.length - 8) 0 } else e

/-- No entry that goes (`sel`) is followed by one that is longer than its room (else the code cuts that one, C08). -/
def FitsBehind (sel : Entry → Bool) (s : List Entry) : Prop := s.Pairwise (fun a b => sel a = true → b.data.length ≤ roundUp8 a.data.length)

/-- The command leaves all metadata alone: parts and keys added, signatures, key ids, deleting with --keep-meta. -/
def Cmd.keepsMeta {SK : Type} : Cmd SK → Prop
  | .addPart _ _ none _ _ _ => True
  | .addPart _ _ (some enc) _ _ _ => enc = ascii "key"
  | .sign _ _ => True
  | .signRaw _ => True
  | .delete _ _ keep => keep = true
  | .set o => o.name = none
  | _ => False

/-- Commands with their exit codes, and the metadata the user expects afterwards, in the order of the table. -/
inductive MetaHistory {SK : Type} (H : HashFn) : List (Cmd SK × Err) → List Entry → Prop where
  | start : MetaHistory H [] []
  | failed {t s} (c : Cmd SK) (e : Err) : MetaHistory H t s → e ≠ .ok → MetaHistory H (t ++ [(c, e)]) s
  | created {t s} (a b : Option Bytes) (c : Bool) (d : U8) : MetaHistory H t s → MetaHistory H (t ++ [(.create a b c d, .ok)]) []
  | kept {t s} (c : Cmd SK) : MetaHistory H t s → c.keepsMeta → MetaHistory H (t ++ [(c, .ok)]) s
  /-- `add --meta NAME [--part-ref REF] [--encoder E]`: the encoded content comes last. -/
  | added {t s} (o : AddOpts) (d : Bytes) : MetaHistory H t s → Encodes o.source o.encoder d →
      MetaHistory H (t ++ [(.addMeta o, .ok)]) (s ++ [shown ⟨bpakId o.name, match o.ref with | none => 0 | some r => bpakId r, d⟩])
  /-- `add --part NAME --encoder merkle`: salt and root hash come last. -/
  | tree {t s} (name : Bytes) (dontHash : Bool) (d : Bytes) (key : Except Err Bytes) (salt : Bytes) : MetaHistory H t s →
      MetaHistory H (t ++ [(.addPart name dontHash (some (ascii "merkle")) (some d) key salt, .ok)])
        (s ++ [⟨idMerkleSalt, bpakId name, salt⟩, ⟨idMerkleRootHash, bpakId name, treeRoot H salt d⟩])
  /-- `transport --add`. -/
  | transport {t s} (part : Option Bytes) (enc dec : Bytes) : MetaHistory H t s →
      MetaHistory H (t ++ [(.transportAdd part enc dec, .ok)])
        (s ++ [⟨idBpakTransport, match part with | none => 0 | some n => idForNameOrRef n, le32 (bpakId enc) ++ le32 (bpakId dec) ++ List.replicate 24 0⟩])
  /-- `set --meta NAME --from-string TEXT`, the text fits the entry: it is replaced, and the rest of the entry is zeroed. -/
  | text {t pre e post} (o : SetOpts) (name text : Bytes) : MetaHistory H t (pre ++ e :: post) → o.name = some name → o.text = some text → o.encoder = none →
      e.id = bpakId name → e.ref = 0 → e.id ≠ idBpakTransport → text.length + 1 ≤ e.data.length →
      MetaHistory H (t ++ [(.set o, .ok)]) (pre ++ { e with data := text ++ 0 :: List.replicate (e.data.length - text.length - 1) 0 } :: post)
  /-- The same with a longer text: the entry moves to the end. -/
  | grown {t pre e post} (o : SetOpts) (name text : Bytes) : MetaHistory H t (pre ++ e :: post) → o.name = some name → o.text = some text → o.encoder = none →
      e.id = bpakId name → e.ref = 0 → e.id ≠ idBpakTransport → e.data.length < text.length + 1 → (∀ x ∈ post, x.data.length ≤ roundUp8 e.data.length) →
      MetaHistory H (t ++ [(.set o, .ok)]) (pre ++ post ++ [{ e with data := text ++ [0] }])
  /-- With `--encoder integer` (8 bytes) and `--encoder id` (4 bytes). -/
  | integer {t pre e post} (o : SetOpts) (name text : Bytes) (v : Int) : MetaHistory H t (pre ++ e :: post) → o.name = some name → o.text = some text →
      o.encoder = some (ascii "integer") → e.id = bpakId name → e.ref = 0 → e.id ≠ idBpakTransport → e.data.length = 8 → Spec.Integer text v →
      MetaHistory H (t ++ [(.set o, .ok)]) (pre ++ { e with data := Spec.leBytes 8 (v % 2^64).toNat } :: post)
  | id {t pre e post} (o : SetOpts) (name text : Bytes) : MetaHistory H t (pre ++ e :: post) → o.name = some name → o.text = some text →
      o.encoder = some (ascii "id") → e.id = bpakId name → e.ref = 0 → e.id ≠ idBpakTransport → e.data.length = 4 →
      MetaHistory H (t ++ [(.set o, .ok)]) (pre ++ { e with data := Spec.leBytes 4 (bpakId text).toNat } :: post)
  /-- `delete --part NAME`: the entries of the part go. -/
  | deleted {t s} (name : Bytes) : MetaHistory H t s → FitsBehind (fun e => decide (e.ref = idForNameOrRef name)) s →
      MetaHistory H (t ++ [(.delete (some name) false false, .ok)]) (s.filter (fun e => decide (e.ref ≠ idForNameOrRef name)))
  /-- `delete --all`: the entries of all parts go. -/
  | deletedAll {t s} (part : Option Bytes) : MetaHistory H t s → FitsBehind (fun e => decide (e.ref ≠ 0)) s →
      MetaHistory H (t ++ [(.delete part true false, .ok)]) (s.filter (fun e => decide (e.ref = 0)))

end Bpak
