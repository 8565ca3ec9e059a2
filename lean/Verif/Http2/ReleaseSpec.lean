import Verif.Http2.Release
import Verif.Http2.AnySpec

/-!
# What the HTTP/2 parser without overflow checks tells about any bytes

Not part of the code: the description of `Verif.Http2.AnySpec` for a parser whose subtractions wrap around. It reads
frame by frame and knows nothing about states, registers, slices and pauses. `num` is that of `Verif.Http2.AnySpec`.

The differences from `told`: nothing panics. A payload that is shorter than its fields is taken to be 2^24 bytes longer
than it would have to be, and one that is shorter than its padding 2^32 bytes longer.
-/

namespace Verif.Http2.Release

/-- The callbacks for one frame, with data byte by byte (see `flat`), and the bytes after it; `none` if the bytes are
used up before. -/
abbrev Tale := List Ev × Option Bytes

/-- First these callbacks. -/
def tell (es : List Ev) (t : Tale) : Tale := (es ++ t.1, t.2)

/-- A number of `size` bytes. -/
def readField (size : Nat) (r : Bytes) (k : Nat → Bytes → Tale) : Tale :=
  if r.length < size then ([], none) else k (num (r.take size)) (r.drop size)

/-- `n - k` with 24 bits. -/
def minus (n k : Nat) : Nat := if k ≤ n then n - k else 2 ^ 24 + n - k

/-- The pad length, if there is one; `n` bytes of payload are left. -/
def readPad (padded : Bool) (n : Nat) (r : Bytes) (k : Nat → Nat → Bytes → Tale) : Tale :=
  if padded then readField 1 r fun p r => k (minus n 1) p r
  else k n 0 r

/-- `n` bytes, the last `p` of which are padding. Without the padding these are `n - p` bytes, with 32 bits. -/
def readData (k : Kind) (n p : Nat) (r : Bytes) : Tale :=
  let size := if p ≤ n then n - p else 2 ^ 32 + n - p
  if r = [] then ([], none)
  else if r.length < size then (r.map (.payload k [·] false), none)
  else ((r.take size).map (.payload k [·] false) ++ [.payload k [] true], some (r.drop (size + p)))

/-- A payload of length `n`, according to the type and the flags in the frame header. -/
def readBody (n : Nat) (type flags : UInt8) (r : Bytes) : Tale :=
  let padded := (flags &&& 0x8) == 0x8
  let priority := (flags &&& 0x20) == 0x20
  match type with
  | 0x0 => readPad padded n r (readData .data)
  | 0x1 => readPad padded n r fun n p r =>
      if priority then
        readField 4 r fun d r => readField 1 r fun w r =>
        tell [.headers (2 ^ 31 ≤ d) (UInt32.ofNat (d % 2 ^ 31)) (UInt8.ofNat w)]
          (readData .headersFragment (minus n 5) p r)
      else tell (if padded then [.headers false 0 0] else []) (readData .headersFragment n p r)
  | 0x2 => readField 4 r fun d r => readField 1 r fun w r =>
      ([.priority (2 ^ 31 ≤ d) (UInt32.ofNat (d % 2 ^ 31)) (UInt8.ofNat w)], some r)
  | 0x3 => readField 4 r fun c r => ([.rstStream (UInt32.ofNat c)], some r)
  | 0x4 => readField 2 r fun i r => readField 4 r fun v r => ([.settings (UInt16.ofNat i) (UInt32.ofNat v)], some r)
  | 0x5 => readPad padded n r fun n p r => readField 4 r fun s r =>
      if r = [] then ([], none)
      else tell [.pushPromise (UInt32.ofNat s)] (readData .headersFragment (minus n 4) p r)
  | 0x6 => readData .ping n 0 r
  | 0x7 => readField 4 r fun l r => readField 4 r fun c r =>
      tell [.goAway (UInt32.ofNat (l % 2 ^ 31)) (UInt32.ofNat c)]
        (if n = 8 then ([], some r) else readData .goAwayDebugData (minus n 8) 0 r)
  | 0x8 => readField 4 r fun i r => ([.windowUpdate (UInt32.ofNat i)], some r)
  | 0x9 => readData .headersFragment n 0 r
  | _ => readPad padded n r (readData .unsupported)

/-- A frame: length, type, flags, stream id, payload. -/
def readFrame (r : Bytes) : Tale :=
  readField 3 r fun n r => readField 1 r fun t r => readField 1 r fun f r => readField 4 r fun id r =>
  tell [.frameFormat (UInt32.ofNat n) (UInt8.ofNat t) (UInt8.ofNat f) (UInt32.ofNat (id % 2 ^ 31))]
    (readBody n (UInt8.ofNat t) (UInt8.ofNat f) r)

/-- At most `k` frames. -/
def readFrames : Nat → Bytes → List Ev
  | 0, _ => []
  | k + 1, m =>
    match readFrame m with
    | (es, none) => es
    | (es, some r) => es ++ readFrames k r

/-- All callbacks for `m`. (Frames are not empty, so `m.length` is enough.) -/
def told (m : Bytes) : List Ev := readFrames m.length m

/-- `feed` of `Verif.Http2.Client` with this parser: pass all of `rem` to `resume`, and as long as a callback pauses
the parser, call `resume` again with the bytes that were not processed, at most `n` calls in all. -/
def feed (h : Handler) : Nat → World → Bytes → End × World × Bytes
  | 0, w, rem => (.callback, w, rem)
  | n + 1, w, rem =>
    match resume h w rem with
    | (.ok (.callback k), w') => feed h n w' (rem.drop k)
    | (.ok (.eos k), w') => (.eos, w', rem.drop k)
    | (.ok (.finished k), w') => (.finished, w', rem.drop k)
    | (.err, w') => (.err, w', rem.drop (w'.p.byteCount - w.p.byteCount))
    | (.panic, w') => (.panic, w', rem)
    | (.diverge, w') => (.diverge, w', rem)

end Verif.Http2.Release

namespace Verif.Http2

/-- Neither a frame header nor the end of a payload. -/
def Ev.inside : Ev → Bool
  | .frameFormat _ _ _ _ => false
  | .payload _ _ f => !f
  | _ => true

end Verif.Http2
