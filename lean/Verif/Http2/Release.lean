import Verif.Http2.Client

/-!
# The HTTP/2 parser without overflow checks

`Verif.Http2.Model` is the parser as a debug build compiles it: an arithmetic underflow panics. A release build has no
overflow checks by default, and the two subtractions of the parser (`actual_length!` and `dec_payload_length!`,
src/http2/parser.rs lines 44-56) wrap around. This file models the state functions that use them, once more, with
wrapping subtraction (subtraction of `UInt32`); all other state functions are the same.
-/

namespace Verif.Http2.Release

/-- `actual_length!`, src/http2/parser.rs lines 44-48, without overflow checks. -/
def actualLength (p : Core) : UInt32 := p.payloadLength - p.padLength

/-- `dec_payload_length!`, src/http2/parser.rs lines 51-56, without overflow checks. -/
def decPayload (c : Cfg) (n : UInt32) : Cfg :=
  { c with p := { c.p with bit32a := c.p.padLength ||| ((c.p.payloadLength - n) <<< 8) } }

/-- `parse_payload_data!`, src/http2/parser.rs lines 89-121, without overflow checks. A mark beyond the index would
panic in `bs_slice!`. -/
def parsePayloadData (h : Handler) (c : Cfg) (kind : Kind) : Out :=
  let n := actualLength c.p
  if c.ctx.available ≥ n.toNat then
    let c := decPayload (jump c n.toNat) n
    let c := setState c (if c.p.bit32a &&& 0xFF > 0 then .framePadding else .frameLength1)
    if c.ctx.idx < c.ctx.mark then .panic c.log
    else callback h c (.payload kind c.ctx.slice true)
  else
    let c := decPayload c (UInt32.ofNat c.ctx.available)
    let c := jump c c.ctx.available
    if c.ctx.idx < c.ctx.mark then .panic c.log
    else
      let c := { c with log := c.log ++ [.payload kind c.ctx.slice false] }
      if h.ret c.log then exitEos c else exitCallback c

/-- `frame_padding`, src/http2/parser.rs lines 546-568. -/
def frame_padding (c : Cfg) : Out :=
  exitIfEos c <|
  if c.ctx.available ≥ c.p.payloadLength.toNat then
    transition (jump c c.p.payloadLength.toNat) .frameLength1
  else
    let c := decPayload c (UInt32.ofNat c.ctx.available)
    exitEos (jump c c.ctx.available)

/-- `data_pad_length`, src/http2/parser.rs lines 575-589. -/
def data_pad_length (c : Cfg) : Out :=
  exitIfEos c <| getU8 c fun b c =>
  transition (decPayload (set32a c (c.p.bit32a ||| b.toUInt32)) 1) .dataData

/-- `data_data`, src/http2/parser.rs lines 592-602. -/
def data_data (h : Handler) (c : Cfg) : Out :=
  exitIfEos c <| parsePayloadData h c .data

/-- `go_away_callback`, src/http2/parser.rs lines 756-774. -/
def go_away_callback (h : Handler) (c : Cfg) : Out :=
  let c := decPayload c 8
  let c := setState c (if c.p.payloadLength > 0 then .goAwayDebugData else .frameLength1)
  callback h c (.goAway (c.p.bit32b &&& 0x7FFFFFFF) ((c.p.bit16a.toUInt32 <<< 16) ||| c.p.bit16b.toUInt32))

/-- `go_away_debug_data`, src/http2/parser.rs lines 777-787. -/
def go_away_debug_data (h : Handler) (c : Cfg) : Out :=
  exitIfEos c <| parsePayloadData h c .goAwayDebugData

/-- `headers_pad_length_with_priority`, src/http2/parser.rs lines 794-808. -/
def headers_pad_length_with_priority (c : Cfg) : Out :=
  exitIfEos c <| getU8 c fun b c =>
  transition (decPayload (set32a c (c.p.bit32a ||| b.toUInt32)) 1) .headersStreamId1

/-- `headers_pad_length_without_priority`, src/http2/parser.rs lines 811-825. -/
def headers_pad_length_without_priority (c : Cfg) : Out :=
  exitIfEos c <| getU8 c fun b c =>
  transition (decPayload (set32a c (c.p.bit32a ||| b.toUInt32)) 1) .headersCallback

/-- `headers_weight`, src/http2/parser.rs lines 901-916. -/
def headers_weight (c : Cfg) : Out :=
  exitIfEos c <| getU8 c fun b c =>
  transition (decPayload (set16a c (b.toUInt16 <<< 8)) 5) .headersCallback

/-- `headers_fragment`, src/http2/parser.rs lines 943-953. -/
def headers_fragment (h : Handler) (c : Cfg) : Out :=
  exitIfEos c <| parsePayloadData h c .headersFragment

/-- `ping_data`, src/http2/parser.rs lines 960-970. -/
def ping_data (h : Handler) (c : Cfg) : Out :=
  exitIfEos c <| parsePayloadData h c .ping

/-- `push_promise_pad_length`, src/http2/parser.rs lines 1080-1094. -/
def push_promise_pad_length (c : Cfg) : Out :=
  exitIfEos c <| getU8 c fun b c =>
  transition (decPayload (set32a c (c.p.bit32a ||| b.toUInt32)) 1) .pushPromiseStreamId1

/-- `push_promise_callback`, src/http2/parser.rs lines 1170-1192. -/
def push_promise_callback (h : Handler) (c : Cfg) : Out :=
  exitIfEos c <|
  let c := decPayload c 4
  callback h (setState c .headersFragment) (.pushPromise c.p.bit32b)

/-- `unsupported_pad_length`, src/http2/parser.rs lines 1533-1547. -/
def unsupported_pad_length (c : Cfg) : Out :=
  exitIfEos c <| getU8 c fun b c =>
  transition (decPayload (set32a c (c.p.bit32a ||| b.toUInt32)) 1) .unsupportedData

/-- `unsupported_data`, src/http2/parser.rs lines 1550-1560. -/
def unsupported_data (h : Handler) (c : Cfg) : Out :=
  exitIfEos c <| parsePayloadData h c .unsupported

/-- `(self.state_function)(self, handler, context)`, src/http2/parser.rs line 259. -/
def stepFn (h : Handler) (c : Cfg) : Out :=
  match c.p.st with
  | .framePadding => frame_padding c
  | .dataPadLength => data_pad_length c
  | .dataData => data_data h c
  | .goAwayCallback => go_away_callback h c
  | .goAwayDebugData => go_away_debug_data h c
  | .headersPadLengthWithPriority => headers_pad_length_with_priority c
  | .headersPadLengthWithoutPriority => headers_pad_length_without_priority c
  | .headersWeight => headers_weight c
  | .headersFragment => headers_fragment h c
  | .pingData => ping_data h c
  | .pushPromisePadLength => push_promise_pad_length c
  | .pushPromiseCallback => push_promise_callback h c
  | .unsupportedPadLength => unsupported_pad_length c
  | .unsupportedData => unsupported_data h c
  | _ => Http2.stepFn h c

/-- The loop of `resume`, src/http2/parser.rs lines 258-279, at most `n` state functions. -/
def parse (h : Handler) : Nat → Cfg → Res × Cfg
  | 0, c => (.diverge, c)
  | n + 1, c =>
    match stepFn h c with
    | .cont c => parse h n c
    | .exit s c => (.ok s, c)
    | .err c => (.err, c)
    | .panic log => (.panic, { c with log := log })

/-- `Parser::resume`, src/http2/parser.rs lines 255-280. -/
def resume (h : Handler) (w : World) (s : Bytes) : Res × World :=
  let (r, c) := parse h (fuel s.length) ⟨w.p.toCore, Ctx.new s, w.log⟩
  match r with
  | .ok (.finished n) => (.ok (.finished n), ⟨⟨{ c.p with st := .finished }, w.p.byteCount + c.ctx.idx⟩, c.log⟩)
  | .ok su => (.ok su, ⟨⟨c.p, w.p.byteCount + c.ctx.idx⟩, c.log⟩)
  | .err => (.err, ⟨⟨{ c.p with st := .dead }, w.p.byteCount + c.ctx.idx⟩, c.log⟩)
  | r => (r, ⟨w.p, c.log⟩)

/-- The client of `Verif.Http2.Client` with this parser: feed `rem`; the `i`-th call gets the first `ks[i]` unread
bytes. A client, not code of the library; it calls `resume`, src/http2/parser.rs 255-280. -/
def drive (h : Handler) : End → List Stop → List Nat → World → Bytes → Outcome
  | last, sts, [], w, rem => ⟨last, w, rem, sts⟩
  | _, sts, k :: ks, w, rem =>
    match resume h w (rem.take k) with
    | (.ok (.callback n), w') => drive h .callback (sts ++ [⟨w'.p.st, (rem.drop n).length⟩]) ks w' (rem.drop n)
    | (.ok (.eos n), w') => drive h .eos (sts ++ [⟨w'.p.st, (rem.drop n).length⟩]) ks w' (rem.drop n)
    | (.ok (.finished n), w') => ⟨.finished, w', rem.drop n, sts ++ [⟨w'.p.st, (rem.drop n).length⟩]⟩
    | (.err, w') => ⟨.err, w', rem.drop (w'.p.byteCount - w.p.byteCount),
        sts ++ [⟨w'.p.st, rem.length - (w'.p.byteCount - w.p.byteCount)⟩]⟩
    | (.panic, w') => ⟨.panic, w', rem, sts⟩
    | (.diverge, w') => ⟨.diverge, w', rem, sts⟩

/-- The client run with a new parser. A client, not code of the library. -/
def run (h : Handler) (ks : List Nat) (m : Bytes) : Outcome := drive h .idle [] ks ⟨.new, []⟩ m

end Verif.Http2.Release
