import Verif.Model.Basic
/-!
lib/heatshrink/heatshrink_decoder.c: the decompressor used for deltas, with its static configuration (window 8 bits,
lookahead 7 bits, input buffer 256 bytes: include/bpak/heatshrink_decoder.h). With these the two `_MSB` states are never
entered and are left out. The `uint16_t` counters other than `head_index` are natural numbers: C50 shows that they
stay below 512, so no wrap-around is lost.
-/
namespace Bpak

/-- `HSD_state`, lib/heatshrink/heatshrink_decoder.c:34-42. -/
inductive DState where
  | tagBit | literal | indexLsb | countLsb | backref
  deriving DecidableEq, Repr

/-- `heatshrink_decoder`, include/bpak/heatshrink_decoder.h:57-71. `buf` is `buffers`: 256 bytes of input, then the
window of 256 bytes. -/
structure HsDec where
  inputSize : Nat
  inputIndex : Nat
  outCount : Nat
  outIndex : Nat
  head : U16
  st : DState
  cur : U8
  bitIndex : U8
  buf : Bytes
  deriving DecidableEq, Repr

/-- `heatshrink_decoder_reset`, lib/heatshrink/heatshrink_decoder.c:76-89. -/
def HsDec.reset : HsDec := ⟨0, 0, 0, 0, 0, .tagBit, 0, 0, List.replicate 512 0⟩

/-- `memcpy(&buf[i], d, …)` within an array: a write past its end is undefined. (lib/heatshrink/heatshrink_decoder.c:92-113) -/
def bufCopy (b : Bytes) (i : Nat) (d : Bytes) : Out Bytes :=
  if i + d.length ≤ b.length then .ret (b.take i ++ d ++ b.drop (i + d.length)) else .ub

/-- `buf[i] = c`. (lib/heatshrink/heatshrink_decoder.c:207-234) -/
def bufSet (b : Bytes) (i : Nat) (c : U8) : Out Bytes := if i < b.length then .ret (b.set i c) else .ub

/-- `buf[i]`. (lib/heatshrink/heatshrink_decoder.c:302-336) -/
def bufGet (b : Bytes) (i : Nat) : Out U8 :=
  match b[i]? with
  | some c => .ret c
  | none => .ub

/-- `heatshrink_decoder_sink`, lib/heatshrink/heatshrink_decoder.c:92-113. Result: the number of bytes taken (0 when the
buffer is full, `HSDR_SINK_FULL`). -/
def decSink (s : HsDec) (d : Bytes) : Out (Nat × HsDec) :=
  let rem := 256 - s.inputSize
  if rem = 0 then .ret (0, s)
  else
    let n := if rem < d.length then rem else d.length
    match bufCopy s.buf s.inputSize (d.take n) with
    | .ub => .ub
    | .ret b => .ret (n, { s with buf := b, inputSize := s.inputSize + n })

/-- The part of the loop of `get_bits` that fetches a byte, lib/heatshrink/heatshrink_decoder.c:360-377: `none` when
out of input. -/
def decFetch (s : HsDec) : Out (Option HsDec) :=
  if s.bitIndex = 0 then
    if s.inputSize = 0 then .ret none
    else match bufGet s.buf s.inputIndex with
      | .ub => .ub
      | .ret c =>
        if s.inputIndex + 1 = s.inputSize then .ret (some { s with cur := c, bitIndex := 0x80, inputIndex := 0, inputSize := 0 })
        else .ret (some { s with cur := c, bitIndex := 0x80, inputIndex := s.inputIndex + 1 })
  else .ret (some s)

/-- The loop of `get_bits`, lib/heatshrink/heatshrink_decoder.c:359-385. -/
def getBitsGo : Nat → Nat → HsDec → Out (Option Nat × HsDec)
  | 0, acc, s => .ret (some acc, s)
  | n+1, acc, s =>
    match decFetch s with
    | .ub => .ub
    | .ret none => .ret (none, s)
    | .ret (some s) => getBitsGo n (2 * acc + (if s.cur &&& s.bitIndex ≠ 0 then 1 else 0)) { s with bitIndex := s.bitIndex >>> 1 }

/-- `get_bits`, lib/heatshrink/heatshrink_decoder.c:340-392; `none` is `NO_BITS`. -/
def getBits (s : HsDec) (count : Nat) : Out (Option Nat × HsDec) :=
  if s.inputSize = 0 ∧ s.bitIndex.toNat < 2^(count-1) then .ret (none, s) else getBitsGo count 0 s

/-- `push_byte`, lib/heatshrink/heatshrink_decoder.c:424-431, into an output buffer of `cap` bytes. -/
def pushByte (cap : Nat) (out : Bytes) (c : U8) : Out Bytes := if out.length < cap then .ret (out ++ [c]) else .ub

/-- `st_yield_literal`, lib/heatshrink/heatshrink_decoder.c:207-234. -/
def yieldLiteral (cap : Nat) (s : HsDec) (out : Bytes) : Out (HsDec × Bytes) :=
  if out.length < cap then
    match getBits s 8 with
    | .ub => .ub
    | .ret (none, s) => .ret (s, out)
    | .ret (some v, s) =>
      let c : U8 := BitVec.ofNat 8 v
      match bufSet s.buf (256 + (s.head &&& 255).toNat) c with
      | .ub => .ub
      | .ret b =>
        match pushByte cap out c with
        | .ub => .ub
        | .ret out => .ret ({ s with buf := b, head := s.head + 1, st := .tagBit }, out)
  else .ret (s, out)

/-- The copy loop of `st_yield_backref`, lib/heatshrink/heatshrink_decoder.c:320-326. -/
def copyGo (cap : Nat) (neg : Nat) : Nat → HsDec → Bytes → Out (HsDec × Bytes)
  | 0, s, out => .ret (s, out)
  | n+1, s, out =>
    match bufGet s.buf (256 + ((s.head - BitVec.ofNat 16 neg) &&& 255).toNat) with
    | .ub => .ub
    | .ret c =>
      match pushByte cap out c with
      | .ub => .ub
      | .ret out =>
        match bufSet s.buf (256 + (s.head &&& 255).toNat) c with
        | .ub => .ub
        | .ret b => copyGo cap neg n { s with buf := b, head := s.head + 1 } out

/-- `st_yield_backref`, lib/heatshrink/heatshrink_decoder.c:302-336. -/
def yieldBackref (cap : Nat) (s : HsDec) (out : Bytes) : Out (HsDec × Bytes) :=
  let count := cap - out.length
  if count > 0 then
    let count := if s.outCount < count then s.outCount else count
    match copyGo cap s.outIndex count s out with
    | .ub => .ub
    | .ret (s, out) =>
      let s := { s with outCount := s.outCount - count }
      .ret (if s.outCount = 0 then { s with st := .tagBit } else s, out)
  else .ret (s, out)

/-- One pass of the `switch` of `heatshrink_decoder_poll`, lib/heatshrink/heatshrink_decoder.c:153-177, with
`st_tag_bit` (191-205), `st_backref_index_lsb` (255-274) and `st_backref_count_lsb` (292-308, that is 283-297). -/
def decStep (cap : Nat) (s : HsDec) (out : Bytes) : Out (HsDec × Bytes) :=
  match s.st with
  | .tagBit =>
    match getBits s 1 with
    | .ub => .ub
    | .ret (none, s) => .ret (s, out)
    | .ret (some v, s) => .ret (if v ≠ 0 then { s with st := .literal } else { s with outIndex := 0, st := .indexLsb }, out)
  | .literal => yieldLiteral cap s out
  | .indexLsb =>
    match getBits s 8 with
    | .ub => .ub
    | .ret (none, s) => .ret (s, out)
    | .ret (some v, s) => .ret ({ s with outIndex := (s.outIndex ||| v) + 1, outCount := 0, st := .countLsb }, out)
  | .countLsb =>
    match getBits s 7 with
    | .ub => .ub
    | .ret (none, s) => .ret (s, out)
    | .ret (some v, s) => .ret ({ s with outCount := (s.outCount ||| v) + 1, st := .backref }, out)
  | .backref => yieldBackref cap s out

/-- The loop of `heatshrink_decoder_poll`, lib/heatshrink/heatshrink_decoder.c:145-189. Result: whether it returned
`HSDR_POLL_MORE` (else `HSDR_POLL_EMPTY`). The first argument bounds the passes; C24 shows that 4096 are enough. -/
def decPollGo (cap : Nat) : Nat → HsDec → Bytes → Option (Out (Bool × HsDec × Bytes))
  | 0, _, _ => none
  | k+1, s, out =>
    match decStep cap s out with
    | .ub => some .ub
    | .ret (s', out') =>
      if s'.st = s.st then some (.ret (decide (out'.length = cap), s', out'))
      else decPollGo cap k s' out'

/-- `heatshrink_decoder_poll`, lib/heatshrink/heatshrink_decoder.c:131-189, with an output buffer of `cap` bytes. -/
def decPoll (s : HsDec) (cap : Nat) : Option (Out (Bool × HsDec × Bytes)) := decPollGo cap 4096 s []

/-- `heatshrink_decoder_finish`, lib/heatshrink/heatshrink_decoder.c:394-422: true is `HSDR_FINISH_DONE`, false
`HSDR_FINISH_MORE`. -/
def decFinish (s : HsDec) : Bool :=
  match s.st with
  | .backref => false
  | _ => s.inputSize = 0

end Bpak
