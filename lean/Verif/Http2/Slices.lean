import Verif.Http2.Bits

/-!
# The reference machine and slices

Not part of the code: the reference machine of `Verif.Http2.Spec` when the input is passed in slices, and the fields
whose slow paths are wrong in the code are cut by the end of a slice. A stream id that is cut loses its upper half; after
the cut in a last stream id of a GOAWAY frame or the value of a setting nothing happens any more.
-/

namespace Verif.Http2

/-- Where slices end, and how long the whole input is. -/
structure Slices where
  cut : Nat → Bool
  total : Nat

/-- A slice ends within the four bytes at `i`. -/
def Slices.within (K : Slices) (i : Nat) : Bool := K.cut (i + 1) || K.cut (i + 2) || K.cut (i + 3)

/-- No slice ends anywhere. -/
def Slices.none : Slices := ⟨fun _ => false, 0⟩

/-- No slice ends within the next four bytes. -/
def Clear (K : Slices) (r : Bytes) : Prop := K.within (K.total - r.length) = false

/-- No slice ends anywhere. -/
def Uncut (K : Slices) (_ : Bytes) : Prop := K = .none

/-- Whether the machine does something else in this state when slices end nearby. -/
def quiet : St → Bool
  | .frameStreamId1 | .frameStreamId2 | .goAwayStreamId1 | .settingsValue1 => false
  | _ => true

/-- The byte at `i` as it is taken. -/
def Slices.byte (K : Slices) (i : Nat) (st : St) (b : UInt8) : UInt8 :=
  match st with
  | .frameStreamId1 => if K.within i then 0 else b
  | .frameStreamId2 => if K.within (i - 1) then 0 else b
  | _ => b

/-- A field begins at `i` that is never completed. -/
def Slices.lost (K : Slices) (i : Nat) (st : St) : Bool :=
  match st with
  | .goAwayStreamId1 | .settingsValue1 => K.within i
  | _ => false

/-- Run over `m`, the end of the input, from state `s`, after the events `tr`. -/
def predC (K : Slices) (tr : List Ev) (s : Core) : Bytes → List Ev × Fin
  | [] =>
    match norm s with
    | .panic es => (tr ++ es, .panic)
    | .next es _ => (tr ++ es, .eos)
  | b :: r =>
    match norm s with
    | .panic es => (tr ++ es, .panic)
    | .next es s =>
      if K.lost (K.total - (r.length + 1)) s.st then (tr ++ es, .eos)
      else
        match bstep s (K.byte (K.total - (r.length + 1)) s.st b) with
        | .panic es' => (tr ++ es ++ es', .panic)
        | .next es' s => predC K (tr ++ es ++ es') s r

variable {K : Slices}

theorem byte_quiet {i : Nat} {st : St} {b : UInt8} (h : quiet st = true) : K.byte i st b = b := by
  cases st <;> first | rfl | cases h

theorem lost_quiet {i : Nat} {st : St} (h : quiet st = true) : K.lost i st = false := by
  cases st <;> first | rfl | cases h

theorem byte_within {i : Nat} {st : St} {b : UInt8} (h : K.within i = false) (h' : K.within (i - 1) = false) :
    K.byte i st b = b := by
  unfold Slices.byte
  split <;> simp [h, h']

theorem lost_within {i : Nat} {st : St} (h : K.within i = false) : K.lost i st = false := by
  unfold Slices.lost
  split <;> first | exact h | rfl

theorem predC_uncut (h : ∀ i, K.within i = false) : ∀ (m : Bytes) (tr : List Ev) (s : Core),
    predC K tr s m = pred tr s m
  | [], tr, s => by rw [predC, pred]; cases norm s <;> rfl
  | b :: m, tr, s => by
    rw [predC, pred]
    cases norm s with
    | panic es => rfl
    | next es s =>
      simp only
      rw [lost_within (h _), byte_within (h _) (h _), if_neg Bool.false_ne_true]
      cases bstep s b with
      | panic es' => rfl
      | next es' s => exact predC_uncut h m _ _

theorem predC_none (m : Bytes) (tr : List Ev) (s : Core) : predC .none tr s m = pred tr s m :=
  predC_uncut (fun _ => rfl) m tr s

theorem uncut_clear (K : Slices) (r : Bytes) (h : Uncut K r) : Clear K r := by rw [h]; rfl

theorem predC_imm {s s' : Core} {es : List Ev} (hn : norm s = .next es s') (hn' : norm s' = .next [] s')
    (tr : List Ev) (m : Bytes) : predC K tr s m = predC K (tr ++ es) s' m := by
  cases m <;> simp [predC, hn, hn']

theorem predC_byte {s s' : Core} {es : List Ev} {b : UInt8} (hq : quiet s.st = true) (hn : norm s = .next [] s)
    (hb : bstep s b = .next es s') (tr : List Ev) (r : Bytes) : predC K tr s (b :: r) = predC K (tr ++ es) s' r := by
  simp [predC, hn, lost_quiet hq, byte_quiet hq, hb]

theorem predC_panic {s : Core} {es : List Ev} {b : UInt8} (hq : quiet s.st = true) (hn : norm s = .next [] s)
    (hb : bstep s b = .panic es) (tr : List Ev) (r : Bytes) : predC K tr s (b :: r) = (tr ++ es, .panic) := by
  simp [predC, hn, lost_quiet hq, byte_quiet hq, hb]

theorem predC_same {s s' : Core} (hq : quiet s.st = true) (hq' : quiet s'.st = true) (hn : norm s = .next [] s)
    (hn' : norm s' = .next [] s') (hb : ∀ b, bstep s b = bstep s' b) (tr : List Ev) (m : Bytes) :
    predC K tr s m = predC K tr s' m := by
  cases m <;> simp [predC, hn, hn', lost_quiet hq, byte_quiet hq, lost_quiet hq', byte_quiet hq', hb]

theorem predC_start {s s' : Core} (h1 : s.st = .frameLength1) (h2 : s'.st = .frameLength1) (tr : List Ev) (m : Bytes) :
    predC K tr s m = predC K tr s' m := by
  refine predC_same ?_ ?_ ?_ ?_ ?_ tr m <;> simp [norm, bstep, h1, h2, quiet]

theorem predC_or32b {s s' : Core} {v : UInt32} {b : UInt8} (hq : quiet s.st = true) (hn : norm s = .next [] s) {st : St}
    (hb : bstep s b = or32b s v st) (hs : s' = { s with bit32b := s.bit32b ||| v, st := st }) (tr : List Ev)
    (r : Bytes) : predC K tr s (b :: r) = predC K tr s' r := by
  rw [predC_byte hq hn (hb.trans rfl), List.append_nil, hs]

/-- The bytes at `r` are taken as they are. -/
def Passes (K : Slices) (st : St) (r : Bytes) : Prop :=
  quiet st = true ∨ Clear K r ∧ (st = .goAwayStreamId1 ∨ st = .settingsValue1)

theorem predC_pass {s s' : Core} {es : List Ev} {b : UInt8} {r : Bytes} (hq : Passes K s.st (b :: r))
    (hn : norm s = .next [] s) (hb : bstep s b = .next es s') (tr : List Ev) :
    predC K tr s (b :: r) = predC K (tr ++ es) s' r := by
  rcases hq with hq | ⟨h1, h2⟩
  · exact predC_byte hq hn hb tr r
  · have e1 : K.lost (K.total - (r.length + 1)) s.st = false := lost_within h1
    have e2 : K.byte (K.total - (r.length + 1)) s.st b = b := by
      rcases h2 with h2 | h2 <;> rw [h2] <;> rfl
    simp [predC, hn, e1, e2, hb]

theorem predC_pass32 {s s' : Core} {v : UInt32} {b : UInt8} {r : Bytes} (hq : Passes K s.st (b :: r))
    (hn : norm s = .next [] s) {st : St} (hb : bstep s b = or32b s v st)
    (hs : s' = { s with bit32b := s.bit32b ||| v, st := st }) (tr : List Ev) :
    predC K tr s (b :: r) = predC K tr s' r := by
  rw [predC_pass hq hn (hb.trans rfl), List.append_nil, hs]

end Verif.Http2
