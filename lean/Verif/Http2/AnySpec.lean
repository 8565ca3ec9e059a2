import Verif.Http2.Client

/-!
# What the HTTP/2 parser tells about any bytes

Not part of the code: a description of how any byte string is read, whether or not it consists of frames. It reads
frame by frame, with numbers instead of packed registers, and knows nothing about states, slices and pauses.

The differences from RFC 7540 that can be seen here: PRIORITY, RST_STREAM, SETTINGS and WINDOW_UPDATE frames are as long
as their fields, whatever the frame header says; a SETTINGS frame has exactly one setting; the reserved bits of
PUSH_PROMISE and WINDOW_UPDATE are passed on; a padded HEADERS frame without priority is reported with a priority of 0;
frames that are shorter than their fields or their padding make the parser panic; after the fields, the end of empty
data is only noticed when the next byte arrives.
-/

namespace Verif.Http2

/-- The number that some bytes stand for, most significant first. -/
def num (l : Bytes) : Nat := l.foldl (fun a b => a * 256 + b.toNat) 0

/-- What comes after a frame: the bytes are used up, a panic, or the rest of the bytes. -/
inductive After
  | stop
  | panic
  | go (rest : Bytes)
deriving Repr, DecidableEq

/-- The callbacks for one frame, with data byte by byte (see `flat`), and what comes after it. -/
abbrev Tale := List Ev × After

/-- First these callbacks. -/
def tell (es : List Ev) (t : Tale) : Tale := (es ++ t.1, t.2)

/-- A number of `size` bytes. -/
def readField (size : Nat) (r : Bytes) (k : Nat → Bytes → Tale) : Tale :=
  if r.length < size then ([], .stop) else k (num (r.take size)) (r.drop size)

/-- The pad length, if there is one; `n` bytes of payload are left. -/
def readPad (padded : Bool) (n : Nat) (r : Bytes) (k : Nat → Nat → Bytes → Tale) : Tale :=
  if padded then
    readField 1 r fun p r => if n < 1 then ([], .panic) else k (n - 1) p r
  else k n 0 r

/-- `n` bytes, the last `p` of which are padding. -/
def readData (k : Kind) (n p : Nat) (r : Bytes) : Tale :=
  if r = [] then ([], .stop)
  else if n < p then ([], .panic)
  else if r.length < n - p then (r.map (.payload k [·] false), .stop)
  else ((r.take (n - p)).map (.payload k [·] false) ++ [.payload k [] true], .go (r.drop n))

/-- A payload of length `n`, according to the type and the flags in the frame header. -/
def readBody (n : Nat) (type flags : UInt8) (r : Bytes) : Tale :=
  let padded := (flags &&& 0x8) == 0x8
  let priority := (flags &&& 0x20) == 0x20
  match type with
  | 0x0 => readPad padded n r (readData .data)
  | 0x1 => readPad padded n r fun n p r =>
      if priority then
        readField 4 r fun d r => readField 1 r fun w r =>
        if n < 5 then ([], .panic)
        else tell [.headers (2 ^ 31 ≤ d) (UInt32.ofNat (d % 2 ^ 31)) (UInt8.ofNat w)]
          (readData .headersFragment (n - 5) p r)
      else tell (if padded then [.headers false 0 0] else []) (readData .headersFragment n p r)
  | 0x2 => readField 4 r fun d r => readField 1 r fun w r =>
      ([.priority (2 ^ 31 ≤ d) (UInt32.ofNat (d % 2 ^ 31)) (UInt8.ofNat w)], .go r)
  | 0x3 => readField 4 r fun c r => ([.rstStream (UInt32.ofNat c)], .go r)
  | 0x4 => readField 2 r fun i r => readField 4 r fun v r => ([.settings (UInt16.ofNat i) (UInt32.ofNat v)], .go r)
  | 0x5 => readPad padded n r fun n p r => readField 4 r fun s r =>
      if r = [] then ([], .stop)
      else if n < 4 then ([], .panic)
      else tell [.pushPromise (UInt32.ofNat s)] (readData .headersFragment (n - 4) p r)
  | 0x6 => readData .ping n 0 r
  | 0x7 => readField 4 r fun l r => readField 4 r fun c r =>
      if n < 8 then ([], .panic)
      else tell [.goAway (UInt32.ofNat (l % 2 ^ 31)) (UInt32.ofNat c)]
        (if n = 8 then ([], .go r) else readData .goAwayDebugData (n - 8) 0 r)
  | 0x8 => readField 4 r fun i r => ([.windowUpdate (UInt32.ofNat i)], .go r)
  | 0x9 => readData .headersFragment n 0 r
  | _ => readPad padded n r (readData .unsupported)

/-- A frame: length, type, flags, stream id, payload. -/
def readFrame (r : Bytes) : Tale :=
  readField 3 r fun n r => readField 1 r fun t r => readField 1 r fun f r => readField 4 r fun id r =>
  tell [.frameFormat (UInt32.ofNat n) (UInt8.ofNat t) (UInt8.ofNat f) (UInt32.ofNat (id % 2 ^ 31))]
    (readBody n (UInt8.ofNat t) (UInt8.ofNat f) r)

/-- At most `k` frames. -/
def readFrames : Nat → Bytes → List Ev × Bool
  | 0, _ => ([], false)
  | k + 1, m =>
    match readFrame m with
    | (es, .stop) => (es, false)
    | (es, .panic) => (es, true)
    | (es, .go r) => (es ++ (readFrames k r).1, (readFrames k r).2)

/-- All callbacks for `m`, and whether the parser panics. (Frames are not empty, so `m.length` is enough.) -/
def told (m : Bytes) : List Ev × Bool := readFrames m.length m

end Verif.Http2
