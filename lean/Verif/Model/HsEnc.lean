import Verif.Model.HsDec
/-!
lib/heatshrink/heatshrink_encoder.c: the compressor used for deltas, with its static configuration (window 8 bits,
lookahead 7 bits, no index: lib/heatshrink/heatshrink_encoder.h:30-36). The `uint16_t` counters are natural numbers; C25
shows that they stay at most 512, so no wrap-around is lost. `do_indexing` does nothing in this configuration.
-/
namespace Bpak

/-- `HSE_state`, lib/heatshrink/heatshrink_encoder.c:7-18. -/
inductive EState where
  | notFull | filled | search | tagBit | literal | brIndex | brLength | saveBacklog | flushBits | done
  deriving DecidableEq, Repr

/-- `heatshrink_encoder`, lib/heatshrink/heatshrink_encoder.h:59-72. -/
structure HsEnc where
  inputSize : Nat
  scan : Nat
  matchLen : Nat
  matchPos : Nat
  outBits : Nat
  outBitsCount : Nat
  finishing : Bool
  st : EState
  cur : U8
  bitIndex : U8
  buf : Bytes
  deriving DecidableEq, Repr

/-- `heatshrink_encoder_reset`, lib/heatshrink/heatshrink_encoder.c:70-88 (`match_pos` is left alone there; it is not
read before it is set). -/
def HsEnc.reset : HsEnc := ⟨0, 0, 0, 0, 0, 0, false, .notFull, 0, 0x80, List.replicate 512 0⟩

/-- `heatshrink_encoder_sink`, lib/heatshrink/heatshrink_encoder.c:90-130; `none` is `HSER_SINK_ERROR_MISUSE`, else the
number of bytes taken. -/
def encSink (s : HsEnc) (d : Bytes) : Out (Option (Nat × HsEnc)) :=
  if s.finishing then .ret none
  else if s.st ≠ .notFull then .ret none
  else
    let rem := 256 - s.inputSize
    let n := if rem < d.length then rem else d.length
    match bufCopy s.buf (256 + s.inputSize) (d.take n) with
    | .ub => .ub
    | .ret b => .ret (some (n, { s with buf := b, inputSize := s.inputSize + n, st := if n = rem then .filled else s.st }))

/-- The inner loop of `find_longest_match`, lib/heatshrink/heatshrink_encoder.c:426-430: the length of the match from `len`
on; `k` comparisons are left before `maxlen`. -/
def extendGo (buf : Bytes) (pos fin : Nat) : Nat → Nat → Out Nat
  | 0, len => .ret len
  | k+1, len =>
    match bufGet buf (pos + len), bufGet buf (fin + len) with
    | .ret a, .ret b => if a ≠ b then .ret len else extendGo buf pos fin k (len + 1)
    | _, _ => .ub

/-- The outer loop of `find_longest_match`, lib/heatshrink/heatshrink_encoder.c:420-441, for `pos` from `start + k - 1` down
to `start`. Result: `match_maxlen`, `match_index`. -/
def matchGo (buf : Bytes) (start fin maxlen : Nat) : Nat → Nat → Nat → Out (Nat × Nat)
  | 0, best, idx => .ret (best, idx)
  | k+1, best, idx =>
    let pos := start + k
    match bufGet buf (pos + best), bufGet buf (fin + best), bufGet buf pos, bufGet buf fin with
    | .ret a, .ret b, .ret c, .ret d =>
      if a = b ∧ c = d then
        match extendGo buf pos fin (maxlen - 1) 1 with
        | .ub => .ub
        | .ret len =>
          if len > best then
            if len = maxlen then .ret (len, pos) else matchGo buf start fin maxlen k len pos
          else matchGo buf start fin maxlen k best idx
      else matchGo buf start fin maxlen k best idx
    | _, _, _, _ => .ub

/-- `find_longest_match`, lib/heatshrink/heatshrink_encoder.c:403-461: `none` is `MATCH_NOT_FOUND`, else distance and
length. The break-even point is (1 + 8 + 7) / 8 = 2. -/
def findMatch (buf : Bytes) (start fin maxlen : Nat) : Out (Option (Nat × Nat)) :=
  match matchGo buf start fin maxlen (fin - start) 0 0 with
  | .ub => .ub
  | .ret (len, idx) => .ret (if len > 2 then some (fin - idx, len) else none)

/-- `st_step_search`, lib/heatshrink/heatshrink_encoder.c:234-280. -/
def stepSearch (s : HsEnc) : Out HsEnc :=
  if s.scan + (if s.finishing then 1 else 128) > s.inputSize then
    .ret { s with st := if s.finishing then .flushBits else .saveBacklog }
  else
    let fin := 256 + s.scan
    let start := fin - 256
    let maxPossible := if s.inputSize - s.scan < 128 then s.inputSize - s.scan else 128
    match findMatch s.buf start fin maxPossible with
    | .ub => .ub
    | .ret none => .ret { s with scan := s.scan + 1, matchLen := 0, st := .tagBit }
    | .ret (some (pos, len)) => .ret { s with matchPos := pos, matchLen := len, st := .tagBit }

/-- The bit loop of `push_bits`, lib/heatshrink/heatshrink_encoder.c:498-513, for the `n` lowest bits. -/
def pushBitsGo (cap : Nat) (bits : U8) : Nat → U8 → U8 → Bytes → Out (U8 × U8 × Bytes)
  | 0, cur, bi, out => .ret (cur, bi, out)
  | n+1, cur, bi, out =>
    let cur := if bits.getLsbD n then cur ||| bi else cur
    let bi := bi >>> 1
    if bi = 0 then
      match pushByte cap out cur with
      | .ub => .ub
      | .ret out => pushBitsGo cap bits n 0 0x80 out
    else pushBitsGo cap bits n cur bi out

/-- `push_bits`, lib/heatshrink/heatshrink_encoder.c:487-515. -/
def pushBits (cap : Nat) (s : HsEnc) (count : Nat) (bits : U8) (out : Bytes) : Out (HsEnc × Bytes) :=
  if count = 8 ∧ s.bitIndex = 0x80 then
    match pushByte cap out bits with
    | .ub => .ub
    | .ret out => .ret (s, out)
  else
    match pushBitsGo cap bits count s.cur s.bitIndex out with
    | .ub => .ub
    | .ret (cur, bi, out) => .ret ({ s with cur := cur, bitIndex := bi }, out)

/-- `push_outgoing_bits`, lib/heatshrink/heatshrink_encoder.c:463-483. Result: the count pushed. -/
def pushOutgoing (cap : Nat) (s : HsEnc) (out : Bytes) : Out (Nat × HsEnc × Bytes) :=
  let count := if s.outBitsCount > 8 then 8 else s.outBitsCount
  let bits : U8 := if s.outBitsCount > 8 then BitVec.ofNat 8 (s.outBits >>> (s.outBitsCount - 8)) else BitVec.ofNat 8 s.outBits
  if count > 0 then
    match pushBits cap s count bits out with
    | .ub => .ub
    | .ret (s, out) => .ret (count, { s with outBitsCount := s.outBitsCount - count }, out)
  else .ret (count, s, out)

/-- `save_backlog`, lib/heatshrink/heatshrink_encoder.c:529-546. -/
def saveBacklog (s : HsEnc) : Out HsEnc :=
  let rem := 256 - s.scan
  let shift := 256 + rem
  if 256 - rem + shift ≤ s.buf.length then
    .ret { s with
      buf := (s.buf.drop (256 - rem)).take shift ++ s.buf.drop shift
      scan := 0
      inputSize := s.inputSize - (256 - rem) }
  else .ub

/-- One pass of the `switch` of `heatshrink_encoder_poll`, lib/heatshrink/heatshrink_encoder.c:176-206, with
`st_yield_tag_bit` (282-297), `st_yield_literal` (299-307), `push_literal_byte` (517-527), `st_yield_br_index` (309-324),
`st_yield_br_length` (326-341), `st_save_backlog` (343-348) and `st_flush_bit_buffer` (350-365). The flag says that
poll returns after the pass. -/
def encStep (cap : Nat) (s : HsEnc) (out : Bytes) : Out (Bool × HsEnc × Bytes) :=
  match s.st with
  | .notFull => .ret (true, s, out)
  | .filled => .ret (false, { s with st := .search }, out)
  | .search =>
    match stepSearch s with
    | .ub => .ub
    | .ret s => .ret (false, s, out)
  | .tagBit =>
    if out.length < cap then
      if s.matchLen = 0 then
        match pushBits cap s 1 1 out with
        | .ub => .ub
        | .ret (s, out) => .ret (false, { s with st := .literal }, out)
      else
        match pushBits cap s 1 0 out with
        | .ub => .ub
        | .ret (s, out) => .ret (false, { s with outBits := s.matchPos - 1, outBitsCount := 8, st := .brIndex }, out)
    else .ret (false, s, out)
  | .literal =>
    if out.length < cap then
      match bufGet s.buf (256 + (s.scan - 1)) with
      | .ub => .ub
      | .ret c =>
        match pushBits cap s 8 c out with
        | .ub => .ub
        | .ret (s, out) => .ret (false, { s with st := .search }, out)
    else .ret (false, s, out)
  | .brIndex =>
    if out.length < cap then
      match pushOutgoing cap s out with
      | .ub => .ub
      | .ret (n, s, out) =>
        if n > 0 then .ret (false, s, out)
        else .ret (false, { s with outBits := s.matchLen - 1, outBitsCount := 7, st := .brLength }, out)
    else .ret (false, s, out)
  | .brLength =>
    if out.length < cap then
      match pushOutgoing cap s out with
      | .ub => .ub
      | .ret (n, s, out) =>
        if n > 0 then .ret (false, s, out)
        else .ret (false, { s with scan := s.scan + s.matchLen, matchLen := 0, st := .search }, out)
    else .ret (false, s, out)
  | .saveBacklog =>
    match saveBacklog s with
    | .ub => .ub
    | .ret s => .ret (false, { s with st := .notFull }, out)
  | .flushBits =>
    if s.bitIndex = 0x80 then .ret (true, { s with st := .done }, out)
    else if out.length < cap then
      match pushByte cap out s.cur with
      | .ub => .ub
      | .ret out => .ret (true, { s with st := .done }, out)
    else .ret (true, s, out)
  | .done => .ret (true, s, out)

/-- The loop of `heatshrink_encoder_poll`, lib/heatshrink/heatshrink_encoder.c:168-216. Result: whether it returned
`HSER_POLL_MORE` (else `HSER_POLL_EMPTY`). The first argument bounds the passes; C25 shows that 4096 are enough. -/
def encPollGo (cap : Nat) : Nat → HsEnc → Bytes → Option (Out (Bool × HsEnc × Bytes))
  | 0, _, _ => none
  | k+1, s, out =>
    match encStep cap s out with
    | .ub => some .ub
    | .ret (true, s', out') => some (.ret (false, s', out'))
    | .ret (false, s', out') =>
      if s'.st = s.st ∧ out'.length = cap then some (.ret (true, s', out'))
      else encPollGo cap k s' out'

/-- `heatshrink_encoder_poll` behind its checks, lib/heatshrink/heatshrink_encoder.c:161-216, with an output buffer of
`cap` bytes. -/
def encPoll (s : HsEnc) (cap : Nat) : Option (Out (Bool × HsEnc × Bytes)) := encPollGo cap 4096 s []

/-- `heatshrink_encoder_poll`, lib/heatshrink/heatshrink_encoder.c:149-216; the inner `none` is `HSER_POLL_ERROR_MISUSE`
for an empty output buffer. -/
def encPollCall (s : HsEnc) (cap : Nat) : Option (Out (Option (Bool × HsEnc × Bytes))) :=
  if cap = 0 then some (.ret none)
  else
    match encPoll s cap with
    | none => none
    | some .ub => some .ub
    | some (.ret r) => some (.ret (some r))

/-- `heatshrink_encoder_finish`, lib/heatshrink/heatshrink_encoder.c:218-232: true is `HSER_FINISH_DONE`, false
`HSER_FINISH_MORE`. -/
def encFinish (s : HsEnc) : Bool × HsEnc :=
  let st := if s.st = .notFull then .filled else s.st
  (decide (st = .done), { s with finishing := true, st := st })

end Bpak
