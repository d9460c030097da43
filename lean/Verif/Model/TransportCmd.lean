import Verif.Model.Transport
import Verif.Model.Pkg
/-!
src/transport.c with `--encode` and `--decode`, and the Python functions on top of the same library calls. The three files are taken to be
different (an output that is also the input or the origin is truncated before it is read).
-/
namespace Bpak
variable [LzmaLib]

/-- Opening the input and the origin, src/transport.c:118-140. `none`: the file cannot be opened; for the origin, the outer `none`
means there is no `--origin`, and then the variable `origin` stays uninitialised. -/
def transportOpen (H : HashFn) (inp : Option Bytes) (org : Option (Option Bytes)) : Except Err (Pkg × Option Pkg) :=
  match inp with
  | none => .error .notFound
  | some f =>
    if (pkgOpen H true f).1 ≠ .ok then .error (pkgOpen H true f).1
    else match org with
      | none => .ok ((pkgOpen H true f).2, none)
      | some none => .error .notFound
      | some (some g) =>
        if (pkgOpen H true g).1 ≠ .ok then .error (pkgOpen H true g).1
        else .ok ((pkgOpen H true f).2, some (pkgOpen H true g).2)

/-- `action_transport` with `--encode`, src/transport.c:105-187: the output file, or the code. `output`: `--output` is given. The address
of `origin` is passed whether it was initialised or not; `bpak_pkg_transport_encode` then reads it (lib/pkg.c:398-403). -/
def transportEncodeCmd (H : HashFn) (srch : Bytes → Bytes → Int → Option (Int × Int)) (inp : Option Bytes) (org : Option (Option Bytes)) (output : Bool) : Drv Bytes :=
  match transportOpen H inp org with
  | .error e => .fail e
  | .ok (p, o) =>
    if !output then .fail .failed
    else if (pkgOpen H true []).1 ≠ .ok then .fail (pkgOpen H true []).1
    else match o with
      | none => .ub
      | some o => match transportEncode srch p.hdr p.file (some (o.hdr, o.file)) (pkgOpen H true []).2.file with
        | .ok (_, f) => .ok f
        | .fail e => .fail e
        | .ub => .ub
        | .hang => .hang

/-- `action_transport` with `--decode`, src/transport.c:105-187; the uninitialised `origin` is read in lib/pkg.c:274-301. -/
def transportDecodeCmd (H : HashFn) (inp : Option Bytes) (org : Option (Option Bytes)) (output : Bool) : Drv Bytes :=
  match transportOpen H inp org with
  | .error e => .fail e
  | .ok (p, o) =>
    if !output then .fail .failed
    else if (pkgOpen H true []).1 ≠ .ok then .fail (pkgOpen H true []).1
    else match o with
      | none => .ub
      | some o => match transportDecode H p.hdr p.file (some (o.hdr, o.file)) (pkgOpen H true []).2.file with
        | .ok (_, f) => .ok f
        | .fail e => .fail e
        | .ub => .ub
        | .hang => .hang

/-- `bpak.transport_encode(input, output[, origin])`, python/python_wrapper.c:62-95: the output file, or the code in the exception. The
output object is one the caller opened; its header in memory is replaced (lib/transport_encode.c:390). -/
def pyTransportEncode (srch : Bytes → Bytes → Int → Option (Int × Int)) (inp out : Pkg) (org : Option Pkg) : Drv Pkg :=
  match transportEncode srch inp.hdr inp.file (org.map (fun o => (o.hdr, o.file))) out.file with
  | .ok (h, f) => .ok { out with hdr := h, file := f }
  | .fail e => .fail e
  | .ub => .ub
  | .hang => .hang

/-- `bpak.transport_decode(input, output[, origin])`, python/python_wrapper.c:97-130: the input (whose header in memory is the one
the decoder works on) and the output, whose header in memory is not changed. -/
def pyTransportDecode (H : HashFn) (inp out : Pkg) (org : Option Pkg) : Drv (Pkg × Pkg) :=
  match transportDecode H inp.hdr inp.file (org.map (fun o => (o.hdr, o.file))) out.file with
  | .ok (h, f) => .ok ({ inp with hdr := h }, { out with file := f })
  | .fail e => .fail e
  | .ub => .ub
  | .hang => .hang

end Bpak
