import Verif.Model.Keystore
import Verif.Model.Add
/-!
src/generate.c: `bpak generate`. The C text it prints is represented by the values of the initialisers, not by its characters.
-/
namespace Bpak

/-- One printed `const struct bpak_key`, src/generate.c:177-241: the symbol's name, `--decorate`, and the fields. -/
structure GenKey where
  symbol : Bytes
  decorated : Bool
  id : U32
  size : U64
  kind : U8
  data : Bytes
  deriving DecidableEq, Repr

/-- The printed `const struct bpak_keystore`, src/generate.c:244-264. -/
structure GenStore where
  symbol : Bytes
  decorated : Bool
  id : U32
  noOfKeys : Nat
  verified : Bool
  keys : List Bytes
  deriving DecidableEq, Repr

/-- What is printed: complete key definitions, then, if all went well, the keystore. (When a key fails, the start of its definition
has been printed too, src/generate.c:177-184; that is left out.) -/
structure GenOut where
  keys : List GenKey
  store : Option GenStore
  deriving DecidableEq, Repr

/-- `keystore_name_copy`, src/generate.c:163-168. -/
def genName (name : Bytes) : Bytes := name.map (fun c => if c = 45 then 95 else c)

/-- The digits of `printf("%i", v)` for a number that is not negative. (src/generate.c:180) -/
def decimal (v : Nat) : Bytes := if h : v < 10 then [BitVec.ofNat 8 (48 + v)] else decimal (v / 10) ++ [BitVec.ofNat 8 (48 + v % 10)]
termination_by v
decreasing_by omega

/-- The symbol `keystore_%s_key%i`, src/generate.c:177-180. -/
def genKeySymbol (name : Bytes) (i : Nat) : Bytes := ascii "keystore_" ++ genName name ++ ascii "_key" ++ decimal i

/-- The symbol `keystore_%s`, src/generate.c:247-249. -/
def genStoreSymbol (name : Bytes) : Bytes := ascii "keystore_" ++ genName name

/-- One round of the loop, src/generate.c:187-229: seek to the stored offset, bound, read, parse, kind. (`fseek` takes a `long`: an
offset of 2^63 or more is negative and refused.) -/
def genKey (f : Bytes) (q : PartHdr) (parse : Bytes → Except Err Key) : Except Err Key :=
  if 2^63 ≤ q.offset.toNat then .error .seekError
  else if q.size.toNat > 4096 then .error .bufferTooSmall
  else if (fileRead f q.offset.toNat q.size.toNat).length ≠ q.size.toNat then .error .readError
  else match parse (fileRead f q.offset.toNat q.size.toNat) with
    | .error e => .error e
    | .ok k => if k.kind = 2 ∨ k.kind = 3 ∨ k.kind = 4 ∨ k.kind = 1 then .ok k else .error .unsupportedKey

/-- The loop over the parts, src/generate.c:170-242: the definitions printed and the error that ended it, if any. `i` is `key_index`. -/
def genParts (f : Bytes) (name : Bytes) (deco : Bool) (parse : Bytes → Except Err Key) : Nat → List PartHdr → List GenKey × Option Err
  | _, [] => ([], none)
  | i, q :: qs =>
    if q.id = 0 then genParts f name deco parse i qs
    else match genKey f q parse with
      | .error e => ([], some e)
      | .ok k => (⟨genKeySymbol name i, deco, q.id, q.size, k.kind, k.data⟩ :: (genParts f name deco parse (i + 1) qs).1,
          (genParts f name deco parse (i + 1) qs).2)

/-- `bpak generate keystore`, src/generate.c:83-275. `f` is the file (`none`: it cannot be opened), `name` is `--name`. -/
def generateKeystore (f : Option Bytes) (name : Option Bytes) (deco : Bool) (parse : Bytes → Except Err Key) : Out (Err × GenOut) :=
  match name with
  | none => .ret (.failed, ⟨[], none⟩)
  | some name =>
    match f with
    | none => .ret (.notFound, ⟨[], none⟩)
    | some f =>
      if f.length < 4096 then .ret (.readError, ⟨[], none⟩)
      else
        let h := parseHeader (f.take 4096)
        if validHeader h ≠ .ok then .ret (validHeader h, ⟨[], none⟩)
        else match getMeta h idPackage 0 with
          | none => .ret (.notFound, ⟨[], none⟩)
          | some _ => match getMeta h idProvider 0 with
            | none => .ret (.notFound, ⟨[], none⟩)
            | some j =>
              match genParts f name deco parse 0 h.parts with
              | (ks, some e) => .ret (e, ⟨ks, none⟩)
              | (ks, none) =>
                match h.metas[j]? with
                | none => .ub
                | some m =>
                  match readAt h.metadata m.offset.toNat 4 with
                  | none => .ub
                  | some b => .ret (.ok, ⟨ks, some ⟨genStoreSymbol name, deco, ofLe32 b, ks.length, true, (List.range ks.length).map (genKeySymbol name)⟩⟩)

/-- `bpak generate id`, src/generate.c:72-82: the number printed. -/
def generateId (s : Bytes) : U32 := bpakId s

end Bpak
