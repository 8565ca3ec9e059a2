import Verif.Http2.Client

/-!
# HTTP/2 frames

Not part of the code: the frames of RFC 7540 section 6, how they are written, and the callbacks that they are
expected to cause.
-/

namespace Verif.Http2

/-- The `k` low bytes of `n`, most significant first. -/
def be : Nat → Nat → Bytes
  | 0, _ => []
  | k + 1, n => UInt8.ofNat (n / 256 ^ k) :: be k n

/-- One bit and a 31-bit number. -/
def word (bit : Bool) (x : UInt32) : Bytes := be 4 (x.toNat + if bit then 2 ^ 31 else 0)

/-- What comes after the frame header. `pad` is the padding of a frame with the PADDED flag. -/
inductive Body
  | data (pad : Option Bytes) (d : Bytes)
  | headers (pad : Option Bytes) (prio : Option (Bool × UInt32 × UInt8)) (fragment : Bytes)
  | priority (exclusive : Bool) (dependency : UInt32) (weight : UInt8)
  | rstStream (code : UInt32)
  | settings (id : UInt16) (value : UInt32)
  | pushPromise (pad : Option Bytes) (promised : UInt32) (fragment : Bytes)
  | ping (d : Bytes)
  | goAway (reserved : Bool) (last : UInt32) (code : UInt32) (debug : Bytes)
  | windowUpdate (increment : UInt32)
  | continuation (fragment : Bytes)
  | unknown (type : UInt8) (pad : Option Bytes) (d : Bytes)
deriving Repr, DecidableEq

/-- The type of the frame, as in the frame header. -/
def Body.type : Body → UInt8
  | .data .. => 0
  | .headers .. => 1
  | .priority .. => 2
  | .rstStream .. => 3
  | .settings .. => 4
  | .pushPromise .. => 5
  | .ping .. => 6
  | .goAway .. => 7
  | .windowUpdate .. => 8
  | .continuation .. => 9
  | .unknown t .. => t

/-- The padding of a padded frame. -/
def Body.pad : Body → Option Bytes
  | .data p _ | .headers p _ _ | .pushPromise p _ _ | .unknown _ p _ => p
  | _ => none

/-- The fields before the data. -/
def Body.fields : Body → Bytes
  | .headers _ (some (e, d, w)) _ => word e d ++ [w]
  | .priority e d w => word e d ++ [w]
  | .rstStream c => be 4 c.toNat
  | .settings i v => be 2 i.toNat ++ be 4 v.toNat
  | .pushPromise _ s _ => be 4 s.toNat
  | .goAway r l c _ => word r l ++ be 4 c.toNat
  | .windowUpdate i => be 4 i.toNat
  | _ => []

/-- The data, and the callback to which it goes. -/
def Body.blob : Body → Option (Kind × Bytes)
  | .data _ d => some (.data, d)
  | .headers _ _ f => some (.headersFragment, f)
  | .pushPromise _ _ f => some (.headersFragment, f)
  | .ping d => some (.ping, d)
  | .goAway _ _ _ d => if d = [] then none else some (.goAwayDebugData, d)
  | .continuation f => some (.headersFragment, f)
  | .unknown _ _ d => some (.unsupported, d)
  | _ => none

/-- The pad length of a padded frame. -/
def Body.padLength (b : Body) : Bytes :=
  match b.pad with
  | some p => [UInt8.ofNat p.length]
  | none => []

/-- The payload of the frame: pad length, fields, data, padding. -/
def Body.payload (b : Body) : Bytes :=
  b.padLength ++ b.fields ++ (match b.blob with | some (_, d) => d | none => []) ++ b.pad.getD []

/-- The flags say whether there is padding and priority. -/
def Body.FlagsOK (b : Body) (flags : UInt8) : Prop :=
  match b with
  | .data p _ | .pushPromise p _ _ | .unknown _ p _ => (flags &&& 0x8 = 0x8 ↔ p.isSome)
  | .headers p q _ => (flags &&& 0x8 = 0x8 ↔ p.isSome) ∧ (flags &&& 0x20 = 0x20 ↔ q.isSome)
  | _ => True

instance (b : Body) (f : UInt8) : Decidable (b.FlagsOK f) := by unfold Body.FlagsOK; split <;> infer_instance

/-- Sizes and ranges. -/
def Body.OK (b : Body) : Prop :=
  (∀ p, b.pad = some p → p.length < 256) ∧ b.payload.length < 2 ^ 24 ∧
  match b with
  | .headers _ (some (_, d, _)) _ | .priority _ d _ | .goAway _ d _ _ | .pushPromise _ d _ | .windowUpdate d => d < 0x80000000
  | .ping d => d.length = 8
  | .unknown t _ _ => 9 < t
  | _ => True

/-- A frame: flags, reserved bit and stream id of the header, and the payload. -/
structure Frame where
  flags : UInt8
  reserved : Bool
  streamId : UInt32
  body : Body
deriving Repr, DecidableEq

/-- The frame is well-formed. -/
def Frame.OK (f : Frame) : Prop := f.streamId < 0x80000000 ∧ f.body.FlagsOK f.flags ∧ f.body.OK

instance (b : Body) : Decidable b.OK := by
  unfold Body.OK
  refine @instDecidableAnd _ _ ?_ (@instDecidableAnd _ _ inferInstance ?_)
  · cases h : b.pad with
    | none => exact .isTrue nofun
    | some p => exact decidable_of_iff (p.length < 256) (by simp)
  · split <;> infer_instance

instance (f : Frame) : Decidable f.OK := by unfold Frame.OK; infer_instance

/-- The bytes of a frame. -/
def Frame.write (f : Frame) : Bytes :=
  be 3 f.body.payload.length ++ [f.body.type, f.flags] ++ word f.reserved f.streamId ++ f.body.payload

/-- The callback for the header. -/
def Frame.format (f : Frame) : Ev :=
  .frameFormat (UInt32.ofNat f.body.payload.length) f.body.type f.flags f.streamId

/-- The callbacks for the fields. (A padded HEADERS frame without priority causes `on_headers`, too.) -/
def Body.fieldEvents : Body → List Ev
  | .headers _ (some (e, d, w)) _ => [.headers e d w]
  | .headers (some _) none _ => [.headers false 0 0]
  | .priority e d w => [.priority e d w]
  | .rstStream c => [.rstStream c]
  | .settings i v => [.settings i v]
  | .pushPromise _ s _ => [.pushPromise s]
  | .goAway _ l c _ => [.goAway l c]
  | .windowUpdate i => [.windowUpdate i]
  | _ => []

/-- The callbacks for the data: byte for byte, then the end (see `flat`). -/
def Body.blobEvents (b : Body) : List Ev :=
  match b.blob with
  | some (k, d) => d.map (fun x => .payload k [x] false) ++ [.payload k [] true]
  | none => []

/-- All callbacks of a frame. -/
def Frame.events (f : Frame) : List Ev := f.format :: (f.body.fieldEvents ++ f.body.blobEvents)

/-- Nothing is left of the frame after the fields, where data is expected. -/
def Body.waits (b : Body) : Bool :=
  match b.blob with
  | some (_, []) => b.pad.getD [] == []
  | _ => false

/-- The callbacks of a frame that the parser executes only when it sees the first byte after the frame: the end of
the data of a frame that has none, with PUSH_PROMISE also `on_push_promise`. -/
def Frame.late (f : Frame) : List Ev :=
  if f.body.waits then
    match f.body with
    | .pushPromise .. => f.body.fieldEvents ++ f.body.blobEvents
    | _ => f.body.blobEvents
  else []

/-- The same for a sequence of frames: what is missing when nothing follows it. -/
def late (fs : List Frame) : List Ev :=
  match fs.getLast? with
  | some f => f.late
  | none => []

/-- `l` are the callbacks that a user expects for the frame `f`: the header, the fields, and the data in pieces, of
which the last and only the last has `finished = true`; only the last may be empty. -/
def Frame.Delivered (f : Frame) (l : List Ev) : Prop :=
  match f.body.blob with
  | none => l = f.format :: f.body.fieldEvents
  | some (k, d) => ∃ (ds : List Bytes) (last : Bytes),
      l = f.format :: (f.body.fieldEvents ++ ds.map (.payload k · false) ++ [.payload k last true]) ∧
      ds.flatten ++ last = d ∧ [] ∉ ds

/-- `g` is `f`, or `f` with only the lower half of its stream id. -/
def Frame.HalfId (g f : Frame) : Prop := g = f ∨ g = { f with streamId := f.streamId &&& 0xFFFF }

/-- The nine bytes of a frame header. -/
def header (length : Nat) (type flags : UInt8) (reserved : Bool) (id : UInt32) : Bytes :=
  be 3 length ++ [type, flags] ++ word reserved id

/-! ## Where the fields are that must not be cut -/

/-- Where the stream ids of the frame headers begin. -/
def idsAt : List Frame → List Nat
  | [] => []
  | f :: fs => 5 :: (idsAt fs).map (· + f.write.length)

/-- Where the last stream id of a GOAWAY frame, or the value of a setting begins, after the beginning of the frame. -/
def Body.longAt : Body → List Nat
  | .goAway .. => [9]
  | .settings .. => [11]
  | _ => []

/-- The same for a sequence of frames. -/
def longAt : List Frame → List Nat
  | [] => []
  | f :: fs => f.body.longAt ++ (longAt fs).map (· + f.write.length)

/-- No position in `ps` is within one of the four byte fields that begin at `as`. -/
def Apart (ps as : List Nat) : Prop := ∀ p ∈ ps, ∀ a ∈ as, ¬ (a < p ∧ p < a + 4)

instance (ps as : List Nat) : Decidable (Apart ps as) := by unfold Apart; infer_instance

end Verif.Http2
