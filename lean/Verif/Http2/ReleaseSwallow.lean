import Verif.Http2.ReleaseLemmas
import Verif.Http2.RunsFrame

/-!
# Frames that are too short for their padding, without overflow checks (helper lemmas)
-/

set_option linter.unusedSimpArgs false
set_option linter.unusedVariables false

namespace Verif.Http2.Release

variable {h : Handler} {c : Cfg}

/-! ## Wrapping lengths -/

/-- Take `n` off the payload length, modulo 2^24. -/
theorem dec_num (c : Cfg) (n : UInt32) (hn : n.toNat < 2 ^ 24) :
    (decPayload c n).p.hi = (c.p.hi + 2 ^ 24 - n.toNat) % 2 ^ 24 ∧ (decPayload c n).p.lo = c.p.lo := by
  have h1 := hi_lt c.p
  have h2 := lo_lt c.p
  have h3 : (c.p.payloadLength - n).toNat = (2 ^ 32 - n.toNat + c.p.hi) % 2 ^ 32 := by
    rw [UInt32.toNat_sub, payload_toNat]
  have h4 : ((c.p.payloadLength - n) <<< 8).toNat = ((c.p.hi + 2 ^ 24 - n.toNat) % 2 ^ 24) <<< 8 := by
    rw [UInt32.toNat_shiftLeft, h3]
    show (_ <<< 8) % _ = _
    rw [Nat.shiftLeft_eq, Nat.shiftLeft_eq]
    omega
  have h5 : (decPayload c n).p.bit32a.toNat = ((c.p.hi + 2 ^ 24 - n.toNat) % 2 ^ 24) * 256 + c.p.lo := by
    show (c.p.padLength ||| ((c.p.payloadLength - n) <<< 8)).toNat = _
    rw [UInt32.toNat_or, h4, pad_toNat, Nat.or_comm, ← Nat.shiftLeft_add_eq_or_of_lt (by omega), Nat.shiftLeft_eq]
  constructor
  · rw [Core.hi, h5]; omega
  · rw [Core.lo, h5]; omega

theorem actual_num (s : Core) : (actualLength s).toNat =
    if s.lo ≤ s.hi then s.hi - s.lo else 2 ^ 32 + s.hi - s.lo := by
  have h1 := hi_lt s
  have h2 := lo_lt s
  rw [actualLength, UInt32.toNat_sub, payload_toNat, pad_toNat]
  split <;> omega

/-- How many bytes are taken for payload from here on. -/
def left (s : Core) : Nat := if s.lo ≤ s.hi then s.hi - s.lo else 2 ^ 24 + s.hi - s.lo

/-! ## Payload -/

/-- The kind of payload that is read in a state. -/
def kindOf : St → Option Kind
  | .dataData => some .data
  | .goAwayDebugData => some .goAwayDebugData
  | .headersFragment => some .headersFragment
  | .pingData => some .ping
  | .unsupportedData => some .unsupported
  | _ => none

theorem step_payload {k : Kind} (hk : kindOf c.p.st = some k) :
    stepFn h c = (exitIfEos c <| parsePayloadData h c k) := by
  unfold stepFn
  revert hk
  cases hs : c.p.st <;> simp only [kindOf, Option.some.injEq, reduceCtorEq, false_implies] <;> intro hk <;> subst hk <;> rfl

/-- A call that ends within the payload. -/
theorem parse_payload {k : Kind} {n : Nat} (hk : kindOf c.p.st = some k) (hok : Ok c)
    (hl : c.ctx.available < left c.p) : ∃ (r : Success) (c' : Cfg), parse h (n + 1) c = (.ok r, c') ∧
      (r = .eos c.ctx.stream.length ∨ r = .callback c.ctx.stream.length) ∧ c'.ctx.idx = c.ctx.stream.length ∧
      c'.p.st = c.p.st ∧ left c'.p = left c.p - c.ctx.available ∧
      flat c'.log = flat c.log ++ bytesEv k c.ctx.rest := by
  have hm := hok.mark
  have hle := hok.le
  rw [parse, step_payload hk]
  unfold exitIfEos
  by_cases h0 : c.ctx.available = 0
  · rw [if_pos h0]
    have : c.ctx.idx = c.ctx.stream.length := by unfold Ctx.available at h0; omega
    refine ⟨_, c, rfl, .inl ?_, this, rfl, by omega, ?_⟩
    · rw [this]
    · rw [rest_nil h0]; simp [bytesEv]
  · rw [if_neg h0]
    have hhi := hi_lt c.p
    have hlo := lo_lt c.p
    have hl' := hl
    unfold left at hl'
    unfold parsePayloadData
    simp only
    rw [if_neg (by rw [actual_num]; split at hl' <;> split <;> omega),
      if_neg (by simp only [decPayload, jump, Ctx.jump]; omega)]
    have ha : c.ctx.available < 2 ^ 24 := by split at hl' <;> omega
    obtain ⟨e1, e2⟩ := dec_num c (UInt32.ofNat c.ctx.available) (by rw [ofNat_toNat ha]; exact ha)
    rw [ofNat_toNat ha] at e1
    have hx : c.ctx.idx + c.ctx.available = c.ctx.stream.length := by unfold Ctx.available; omega
    have hsl : (c.ctx.jump c.ctx.available).slice = c.ctx.rest := by
      simp only [Ctx.slice, Ctx.jump, hm, Ctx.rest, hx]
      exact List.take_of_length_le (by simp)
    have hleft : left (decPayload c (UInt32.ofNat c.ctx.available)).p = left c.p - c.ctx.available := by
      unfold left
      rw [e1, e2]
      by_cases hc : c.p.lo ≤ c.p.hi
      · rw [if_pos hc] at hl' ⊢; rw [if_pos (by omega)]; omega
      · rw [if_neg hc] at hl' ⊢; split <;> omega
    have hflat : flat (c.log ++ [.payload k (c.ctx.jump c.ctx.available).slice false]) =
        flat c.log ++ bytesEv k c.ctx.rest := by
      rw [hsl]
      simp [flat, flatEv, bytesEv]
    by_cases hret : h.ret (c.log ++ [.payload k (c.ctx.jump c.ctx.available).slice false]) = true
    · refine ⟨.eos (c.ctx.idx + c.ctx.available), ⟨(decPayload c (UInt32.ofNat c.ctx.available)).p,
        c.ctx.jump c.ctx.available, c.log ++ [.payload k (c.ctx.jump c.ctx.available).slice false]⟩,
        ?_, .inl (congrArg Success.eos hx), hx, rfl, hleft, hflat⟩
      rw [if_pos (by exact hret)]
      rfl
    · refine ⟨.callback (c.ctx.idx + c.ctx.available), ⟨(decPayload c (UInt32.ofNat c.ctx.available)).p,
        c.ctx.jump c.ctx.available, c.log ++ [.payload k (c.ctx.jump c.ctx.available).slice false]⟩,
        ?_, .inr (congrArg Success.callback hx), hx, rfl, hleft, hflat⟩
      rw [if_neg (by exact hret)]
      rfl

theorem resume_payload {k : Kind} {w : World} {s : Bytes} (hk : kindOf w.p.st = some k)
    (hl : s.length < left w.p.toCore) : ∃ w', (resume h w s = (.ok (.eos s.length), w') ∨
      resume h w s = (.ok (.callback s.length), w')) ∧ w'.p.st = w.p.st ∧
      left w'.p.toCore = left w.p.toCore - s.length ∧ flat w'.log = flat w.log ++ bytesEv k s := by
  obtain ⟨r, c', e1, e2, e3, e4, e5, e6⟩ := parse_payload (h := h) (n := 4 * s.length + 7)
    (c := ⟨w.p.toCore, Ctx.new s, w.log⟩) hk ⟨rfl, Nat.zero_le _⟩ hl
  unfold resume
  rw [show fuel s.length = 4 * s.length + 7 + 1 from rfl, e1]
  rcases e2 with rfl | rfl
  · exact ⟨_, .inl rfl, e4, e5, e6⟩
  · exact ⟨_, .inr rfl, e4, e5, e6⟩

/-- What the client gets from here on: all bytes are payload. -/
theorem drive_payload {k : Kind} : ∀ (ks : List Nat) (last : End) (sts : List Stop) (w : World) (rem : Bytes),
    kindOf w.p.st = some k → rem.length < left w.p.toCore → last = .callback ∨ last = .eos →
    let o := drive h last sts ks w rem
    (o.last = .callback ∨ o.last = .eos) ∧
    ∃ y, rem = y ++ o.rest ∧ flat o.world.log = flat w.log ++ bytesEv k y
  | [], last, sts, w, rem, hk, hl, hlast => ⟨hlast, [], rfl, by simp [drive, bytesEv]⟩
  | n :: ks, last, sts, w, rem, hk, hl, hlast => by
    have ht : (rem.take n).length ≤ rem.length := by rw [List.length_take]; omega
    obtain ⟨w', hr, e1, e2, e3⟩ := resume_payload (h := h) (s := rem.take n) hk (by omega)
    have hd : rem.drop (rem.take n).length = rem.drop n := by
      rw [List.length_take]
      rcases Nat.le_total n rem.length with hn | hn
      · rw [Nat.min_eq_left hn]
      · rw [Nat.min_eq_right hn, List.drop_of_length_le (Nat.le_refl _), List.drop_of_length_le hn]
    have hlen : (rem.drop n).length = rem.length - (rem.take n).length := by
      rw [List.length_drop, List.length_take]; omega
    simp only [drive]
    have key : ∀ (last : End) (sts : List Stop), last = .callback ∨ last = .eos →
        let o := drive h last sts ks w' (rem.drop n)
        (o.last = .callback ∨ o.last = .eos) ∧
        ∃ y, rem = y ++ o.rest ∧ flat o.world.log = flat w.log ++ bytesEv k y := by
      intro last sts hlast
      obtain ⟨g1, y, g2, g3⟩ := drive_payload ks last sts w' (rem.drop n) (by rw [e1]; exact hk) (by omega) hlast
      refine ⟨g1, rem.take n ++ y, ?_, ?_⟩
      · rw [List.append_assoc, ← g2, List.take_append_drop]
      · rw [g3, e3, List.append_assoc]
        simp [bytesEv]
    rcases hr with hr | hr <;> rw [hr] <;> simp only [hd]
    · exact key _ _ (.inr rfl)
    · exact key _ _ (.inl rfl)

/-! ## The frame header and the pad length -/

theorem pk4 {n : Nat} {t : UInt8} (hn : n < 2 ^ 24) :
    ((((0 : UInt32) ||| ((UInt8.ofNat (n / 256 ^ 2)).toUInt32 <<< 24)) |||
      ((UInt8.ofNat (n / 256 ^ 1)).toUInt32 <<< 16)) ||| ((UInt8.ofNat (n / 256 ^ 0)).toUInt32 <<< 8)) |||
      t.toUInt32 = pk n t.toNat := by
  have ht := t.toNat_lt
  apply UInt32.toNat_inj.mp
  rw [val4, pk_toNat hn ht]
  simp only [UInt8.toNat_ofNat']
  omega

/-- The parser after a frame header. -/
def afterHeader (n : Nat) (t fl : UInt8) : Core := ⟨pk n 0, 0, 0, 0, stOf t fl⟩

theorem parse_header {n : Nat} {t fl : UInt8} {r : Bool} {id : UInt32} (hn : n < 2 ^ 24) (hid : id < 0x80000000)
    {s : Core} (hs : s.st = .frameLength1) (y : Bytes) (log : List Ev) (m : Nat) :
    parse h (m + 4) ⟨s, Ctx.new (header n t fl r id ++ y), log⟩ =
      if h.ret (log ++ [.frameFormat (UInt32.ofNat n) t fl id]) = true then
        parse h m ⟨afterHeader n t fl, ⟨header n t fl r id ++ y, 9, 9, 0⟩, log ++ [.frameFormat (UInt32.ofNat n) t fl id]⟩
      else (.ok (.callback 9), ⟨afterHeader n t fl, ⟨header n t fl r id ++ y, 9, 9, 0⟩,
        log ++ [.frameFormat (UInt32.ofNat n) t fl id]⟩) := by
  have hev : header n t fl r id ++ y = UInt8.ofNat (n / 256 ^ 2) :: UInt8.ofNat (n / 256 ^ 1) ::
      UInt8.ofNat (n / 256 ^ 0) :: t :: fl ::
      UInt8.ofNat ((id.toNat + if r then 2 ^ 31 else 0) / 256 ^ 3) ::
      UInt8.ofNat ((id.toNat + if r then 2 ^ 31 else 0) / 256 ^ 2) ::
      UInt8.ofNat ((id.toNat + if r then 2 ^ 31 else 0) / 256 ^ 1) ::
      UInt8.ofNat ((id.toNat + if r then 2 ^ 31 else 0) / 256 ^ 0) :: y := rfl
  have e0 := be4 (word_lt (bit := r) hid)
  have ew := word_and (bit := r) hid
  have e1 := pk4 (t := t) hn
  rw [hev]
  generalize UInt8.ofNat (n / 256 ^ 2) = a1 at e1 ⊢
  generalize UInt8.ofNat (n / 256 ^ 1) = a2 at e1 ⊢
  generalize UInt8.ofNat (n / 256 ^ 0) = a3 at e1 ⊢
  generalize UInt8.ofNat ((id.toNat + if r then 2 ^ 31 else 0) / 256 ^ 3) = i1 at e0 ⊢
  generalize UInt8.ofNat ((id.toNat + if r then 2 ^ 31 else 0) / 256 ^ 2) = i2 at e0 ⊢
  generalize UInt8.ofNat ((id.toNat + if r then 2 ^ 31 else 0) / 256 ^ 1) = i3 at e0 ⊢
  generalize UInt8.ofNat ((id.toNat + if r then 2 ^ 31 else 0) / 256 ^ 0) = i4 at e0 ⊢
  generalize UInt32.ofNat (id.toNat + if r then 2 ^ 31 else 0) = v at e0 ew
  generalize hst : (a1 :: a2 :: a3 :: t :: fl :: i1 :: i2 :: i3 :: i4 :: y : Bytes) = st
  have hlen : st.length = y.length + 9 := by rw [← hst]; rfl
  have s1 : stepFn h ⟨s, Ctx.new st, log⟩ =
      .cont ⟨⟨pk n t.toNat, 0, 0, 0, .frameFlags⟩, ⟨st, 4, 4, 0⟩, log⟩ := by
    rw [show stepFn h ⟨s, Ctx.new st, log⟩ = frame_length1 ⟨s, Ctx.new st, log⟩ by unfold stepFn; simp only [hs]; unfold Http2.stepFn; simp only [hs]]
    unfold frame_length1 exitIfEos
    rw [if_neg (by simp only [Ctx.available, Ctx.new]; omega)]
    simp only
    rw [if_pos (by simp only [Ctx.available, Ctx.new]; omega)]
    rw [← e1, ← hst]
    rfl
  have s2 : stepFn h ⟨⟨pk n t.toNat, 0, 0, 0, .frameFlags⟩, ⟨st, 4, 4, 0⟩, log⟩ =
      .cont ⟨⟨pk n t.toNat, 0, fl.toUInt16, 0, .frameStreamId1⟩, ⟨st, 5, 5, 0⟩, log⟩ := by
    rw [← hst]
    unfold stepFn
    simp only
    unfold Http2.stepFn
    simp only
    unfold frame_flags exitIfEos
    rw [if_neg (by simp only [Ctx.available, List.length_cons]; omega)]
    rfl
  have s3 : stepFn h ⟨⟨pk n t.toNat, 0, fl.toUInt16, 0, .frameStreamId1⟩, ⟨st, 5, 5, 0⟩, log⟩ =
      .cont ⟨⟨pk n t.toNat, v, fl.toUInt16, 0, .frameFormatEnd⟩, ⟨st, 9, 9, 0⟩, log⟩ := by
    rw [← hst, ← e0]
    unfold stepFn
    simp only
    unfold Http2.stepFn
    simp only
    unfold frame_stream_id1 exitIfEos
    rw [if_neg (by simp only [Ctx.available, List.length_cons]; omega)]
    rw [if_pos (by simp only [Ctx.available, List.length_cons]; omega)]
    rfl
  have s4 : stepFn h ⟨⟨pk n t.toNat, v, fl.toUInt16, 0, .frameFormatEnd⟩, ⟨st, 9, 9, 0⟩, log⟩ =
      callback h ⟨afterHeader n t fl, ⟨st, 9, 9, 0⟩, log⟩ (.frameFormat (UInt32.ofNat n) t fl id) := by
    show frame_format_end h _ = _
    have e3 : (Core.mk (pk n t.toNat) v fl.toUInt16 0 .frameFormatEnd).payloadLength = UInt32.ofNat n := by
      apply UInt32.toNat_inj.mp
      rw [payload_toNat, pk_hi hn t.toNat_lt, UInt32.toNat_ofNat', Nat.mod_eq_of_lt (by omega)]
    have e4 : frameState ⟨pk n t.toNat, v, fl.toUInt16, 0, .frameFormatEnd⟩ = stOf t fl := by
      unfold frameState stOf Core.hasFlag
      simp only [pk_and hn, toUInt16_toUInt8]
      rfl
    unfold frame_format_end
    simp only [setState]
    rw [e3, e4]
    simp only [pk_and hn, toUInt16_toUInt8, pk_mask hn, ew]
    rfl
  rw [parse, s1]; simp only
  rw [parse, s2]; simp only
  rw [parse, s3]; simp only
  rw [parse, s4]
  unfold callback
  simp only
  by_cases hr : h.ret (log ++ [.frameFormat (UInt32.ofNat n) t fl id]) = true
  · rw [if_pos hr, if_pos hr]; rfl
  · rw [if_neg hr, if_neg hr]; rfl

/-- The parser at the pad length of a DATA frame. -/
def atPad (L : Nat) : Core := ⟨pk L 0, 0, 0, 0, .dataPadLength⟩

/-- How many bytes are taken for payload after a pad length `q` that is too large. -/
def swallow (L : Nat) (q : UInt8) : Nat := 2 ^ 24 + L - 1 - q.toNat

theorem parse_pad {L : Nat} {q : UInt8} {x : Bytes} {n : Nat} (hp : c.p = atPad L) (hL : L < 1 + q.toNat)
    (hok : Ok c) (hr : c.ctx.rest = q :: x) (hx : x.length < swallow L q) :
    ∃ (r : Success) (c' : Cfg), parse h (n + 2) c = (.ok r, c') ∧
      (r = .eos c.ctx.stream.length ∨ r = .callback c.ctx.stream.length) ∧ c'.ctx.idx = c.ctx.stream.length ∧
      c'.p.st = .dataData ∧ left c'.p = swallow L q - x.length ∧ flat c'.log = flat c.log ++ bytesEv .data x := by
  have hq := q.toNat_lt
  have hlen : c.ctx.available = x.length + 1 := by
    have := congrArg List.length hr
    simpa [Ctx.rest, Ctx.available] using this
  have hget : c.ctx.stream[c.ctx.idx]? = some q := by
    have := congrArg (·[0]?) hr
    simpa [Ctx.rest] using this
  have hor : (atPad L).bit32a ||| q.toUInt32 = pk L q.toNat := by
    have := pk_or (n := L) (p := q.toNat) (by omega) hq
    rwa [UInt8.ofNat_toNat] at this
  obtain ⟨pp, ctx, log⟩ := c
  simp only at hp
  subst hp
  obtain ⟨hd1, hd2⟩ := dec_num ⟨⟨pk L q.toNat, 0, 0, 0, .dataPadLength⟩, ctx.jump 1, log⟩ 1 (by decide)
  rw [pk_hi (by omega) hq] at hd1
  rw [pk_lo (by omega) hq] at hd2
  have hs : stepFn h ⟨atPad L, ctx, log⟩ = transition (decPayload
      ⟨⟨pk L q.toNat, 0, 0, 0, .dataPadLength⟩, ctx.jump 1, log⟩ 1) .dataData := by
    show data_pad_length _ = _
    unfold data_pad_length exitIfEos
    rw [if_neg (by simp only at hlen ⊢; omega)]
    unfold getU8
    simp only at hget
    simp only [hget]
    simp only [set32a, jump, hor]
    rfl
  rw [parse, hs]
  simp only [transition, remark, setState]
  have hle := hok.le
  have hav : ((ctx.jump 1).setMark).available = x.length := by
    simp only [Ctx.available, Ctx.setMark, Ctx.jump] at hlen ⊢; omega
  have hre : ((ctx.jump 1).setMark).rest = x := by
    have := congrArg List.tail hr
    simp only [Ctx.rest, List.tail_drop, List.tail_cons] at this
    simpa [Ctx.rest, Ctx.setMark, Ctx.jump] using this
  have hl : left { (decPayload ⟨⟨pk L q.toNat, 0, 0, 0, .dataPadLength⟩, ctx.jump 1, log⟩ 1).p with st := .dataData } =
      swallow L q := by
    unfold left swallow
    show (if (decPayload _ 1).p.lo ≤ (decPayload _ 1).p.hi then (decPayload _ 1).p.hi - (decPayload _ 1).p.lo
      else 2 ^ 24 + (decPayload _ 1).p.hi - (decPayload _ 1).p.lo) = _
    rw [hd1, hd2]
    show (if _ ≤ (L + 2 ^ 24 - 1) % 2 ^ 24 then (L + 2 ^ 24 - 1) % 2 ^ 24 - _ else 2 ^ 24 + (L + 2 ^ 24 - 1) % 2 ^ 24 - _) = _
    split <;> omega
  obtain ⟨r, c', g1, g2, g3, g4, g5, g6⟩ := parse_payload (h := h) (n := n) (k := .data)
    (c := ⟨{ (decPayload ⟨⟨pk L q.toNat, 0, 0, 0, .dataPadLength⟩, ctx.jump 1, log⟩ 1).p with st := .dataData },
      (ctx.jump 1).setMark, log⟩) rfl ⟨rfl, by
        simp only [Ctx.available, Ctx.setMark, Ctx.jump] at hlen ⊢; omega⟩ (by rw [hl]; simp only; omega)
  refine ⟨r, c', g1, g2, g3, g4, ?_, ?_⟩
  · rw [g5, hl]; simp only; rw [hav]
  · rw [g6]; simp only; rw [hre]

theorem parse_pad_nil {L n : Nat} (hp : c.p = atPad L) (hr : c.ctx.available = 0) :
    parse h (n + 1) c = (.ok (.eos c.ctx.idx), c) := by
  rw [parse]
  have : stepFn h c = .exit (.eos c.ctx.idx) c := by
    have e : stepFn h c = data_pad_length c := by unfold stepFn; rw [hp]; rfl
    rw [e]
    unfold data_pad_length exitIfEos
    rw [if_pos hr]
    rfl
  rw [this]

/-- A call at the pad length. -/
theorem resume_pad {L : Nat} {q : UInt8} {x : Bytes} {w : World} (hp : w.p.toCore = atPad L) (hL : L < 1 + q.toNat)
    (hx : x.length < swallow L q) : ∃ w', (resume h w (q :: x) = (.ok (.eos (x.length + 1)), w') ∨
      resume h w (q :: x) = (.ok (.callback (x.length + 1)), w')) ∧ w'.p.st = .dataData ∧
      left w'.p.toCore = swallow L q - x.length ∧ flat w'.log = flat w.log ++ bytesEv .data x := by
  obtain ⟨r, c', e1, e2, e3, e4, e5, e6⟩ := parse_pad (h := h) (n := 4 * (x.length + 1) + 6)
    (c := ⟨w.p.toCore, Ctx.new (q :: x), w.log⟩) hp hL ⟨rfl, Nat.zero_le _⟩ rfl hx
  unfold resume
  rw [show fuel (q :: x).length = 4 * (x.length + 1) + 6 + 2 from rfl, e1]
  rcases e2 with rfl | rfl
  · exact ⟨_, .inl rfl, e4, e5, e6⟩
  · exact ⟨_, .inr rfl, e4, e5, e6⟩

theorem resume_pad_nil {L : Nat} {w : World} (hp : w.p.toCore = atPad L) :
    resume h w [] = (.ok (.eos 0), w) := by
  unfold resume
  rw [show fuel ([] : Bytes).length = 7 + 1 from rfl, parse_pad_nil (L := L) hp rfl]
  rfl

/-- What the client gets from the pad length on. -/
theorem drive_pad {L : Nat} {q : UInt8} {x : Bytes} (hL : L < 1 + q.toNat) (hx : x.length < swallow L q) :
    ∀ (ks : List Nat) (last : End) (sts : List Stop) (w : World), w.p.toCore = atPad L →
    last = .callback ∨ last = .eos →
    let o := drive h last sts ks w (q :: x)
    (o.last = .callback ∨ o.last = .eos) ∧
    ((o.rest = q :: x ∧ o.world.log = w.log) ∨
      ∃ y, x = y ++ o.rest ∧ flat o.world.log = flat w.log ++ bytesEv .data y)
  | [], last, sts, w, hp, hlast => ⟨hlast, .inl ⟨rfl, rfl⟩⟩
  | 0 :: ks, last, sts, w, hp, hlast => by
    simp only [drive, List.take_zero]
    rw [resume_pad_nil hp]
    exact drive_pad hL hx ks _ _ w hp (.inr rfl)
  | (k + 1) :: ks, last, sts, w, hp, hlast => by
    have ht : (x.take k).length ≤ x.length := by rw [List.length_take]; omega
    obtain ⟨w', hr, e1, e2, e3⟩ := resume_pad (h := h) (x := x.take k) hp hL (by omega)
    have hd : (q :: x).drop ((x.take k).length + 1) = x.drop k := by
      rw [List.drop_succ_cons, List.length_take]
      rcases Nat.le_total k x.length with hn | hn
      · rw [Nat.min_eq_left hn]
      · rw [Nat.min_eq_right hn, List.drop_of_length_le (Nat.le_refl _), List.drop_of_length_le hn]
    have hlen : (x.drop k).length = x.length - (x.take k).length := by
      rw [List.length_drop, List.length_take]; omega
    simp only [drive, List.take_succ_cons]
    have key : ∀ (last : End) (sts : List Stop), last = .callback ∨ last = .eos →
        let o := drive h last sts ks w' (x.drop k)
        (o.last = .callback ∨ o.last = .eos) ∧
        ((o.rest = q :: x ∧ o.world.log = w.log) ∨
          ∃ y, x = y ++ o.rest ∧ flat o.world.log = flat w.log ++ bytesEv .data y) := by
      intro last sts hlast
      obtain ⟨g1, y, g2, g3⟩ := drive_payload (h := h) (k := .data) ks last sts w' (x.drop k) (by rw [e1]; rfl) (by omega) hlast
      refine ⟨g1, .inr ⟨x.take k ++ y, ?_, ?_⟩⟩
      · rw [List.append_assoc, ← g2, List.take_append_drop]
      · rw [g3, e3, List.append_assoc]
        simp [bytesEv]
    rcases hr with hr | hr <;> rw [hr] <;> simp only [hd]
    · exact key _ _ (.inr rfl)
    · exact key _ _ (.inl rfl)

/-- The whole run, when the first call gets the frame header. -/
theorem run_short {L : Nat} {fl q : UInt8} {r : Bool} {id : UInt32} {x : Bytes} {k : Nat} {ks : List Nat}
    (hf : fl &&& 8 = 8) (hid : id < 0x80000000) (hL : L < 1 + q.toNat) (hx : x.length < swallow L q) (hk : 9 ≤ k) :
    let o := run h (k :: ks) (header L 0 fl r id ++ q :: x)
    (o.last = .callback ∨ o.last = .eos) ∧
    ∃ y, (o.rest = q :: x ∧ y = [] ∨ x = y ++ o.rest) ∧
      flat o.world.log = .frameFormat (UInt32.ofNat L) 0 fl id :: bytesEv .data y := by
  have hq := q.toNat_lt
  have hst : afterHeader L 0 fl = atPad L := by simp [afterHeader, atPad, stOf, hf]
  have hlen : (header L 0 fl r id).length = 9 := by simp [header, word, be]
  have htk : (header L 0 fl r id ++ q :: x).take k = header L 0 fl r id ++ (q :: x).take (k - 9) := by
    rw [List.take_append, List.take_of_length_le (by omega), hlen]
  have h9 : (header L 0 fl r id ++ q :: x).drop 9 = q :: x := by
    rw [List.drop_append_of_le_length (by omega), List.drop_of_length_le (by omega), List.nil_append]
  have hpar := parse_header (h := h) (n := L) (t := 0) (fl := fl) (r := r) (id := id) (by omega) hid
    (s := Parser.new.toCore) rfl ((q :: x).take (k - 9)) [] (4 * ((q :: x).take (k - 9)).length + 40)
  rw [hst, List.nil_append] at hpar
  have hfuel : fuel ((header L 0 fl r id ++ q :: x).take k).length = 4 * ((q :: x).take (k - 9)).length + 40 + 4 := by
    rw [htk, List.length_append, hlen]; unfold fuel; omega
  have fin : ∀ (last : End) (sts : List Stop) (w : World), w.p.toCore = atPad L →
      w.log = [.frameFormat (UInt32.ofNat L) 0 fl id] → last = .callback ∨ last = .eos →
      let o := drive h last sts ks w (q :: x)
      (o.last = .callback ∨ o.last = .eos) ∧
      ∃ y, (o.rest = q :: x ∧ y = [] ∨ x = y ++ o.rest) ∧
        flat o.world.log = .frameFormat (UInt32.ofNat L) 0 fl id :: bytesEv .data y := by
    intro last sts w hw hl hlast
    obtain ⟨g1, g2 | ⟨y, g2, g3⟩⟩ := drive_pad (h := h) hL hx ks last sts w hw hlast
    · refine ⟨g1, [], .inl ⟨g2.1, rfl⟩, ?_⟩
      rw [g2.2, hl]; rfl
    · refine ⟨g1, y, .inr g2, ?_⟩
      rw [g3, hl]; rfl
  unfold run
  simp only [drive]
  unfold resume
  rw [hfuel, htk, hpar]
  by_cases hret : h.ret [.frameFormat (UInt32.ofNat L) 0 fl id] = true
  · rw [if_pos hret]
    rcases Nat.eq_or_lt_of_le hk with rfl | hlt
    · rw [parse_pad_nil (L := L) rfl (by simp [Ctx.available, hlen])]
      simp only
      rw [h9]
      exact fin _ _ _ rfl rfl (.inr rfl)
    · obtain ⟨j, rfl⟩ : ∃ j, k = j + 10 := ⟨k - 10, by omega⟩
      rw [show j + 10 - 9 = j + 1 by omega, List.take_succ_cons]
      have hj : (x.take j).length ≤ x.length := by rw [List.length_take]; omega
      obtain ⟨r', c', e1, e2, e3, e4, e5, e6⟩ := parse_pad (h := h) (n := 4 * (q :: x.take j).length + 38)
        (c := ⟨atPad L, ⟨header L 0 fl r id ++ q :: x.take j, 9, 9, 0⟩, [.frameFormat (UInt32.ofNat L) 0 fl id]⟩)
        rfl hL ⟨rfl, by simp [hlen]⟩ (x := x.take j) (by
          simp only [Ctx.rest]
          rw [List.drop_append_of_le_length (by omega), List.drop_of_length_le (by omega), List.nil_append]) (by omega)
      rw [e1]
      have hl2 : (header L 0 fl r id ++ q :: x.take j).length = (x.take j).length + 10 := by
        rw [List.length_append, hlen, List.length_cons]; omega
      have hd : (header L 0 fl r id ++ q :: x).drop (header L 0 fl r id ++ q :: x.take j).length = x.drop j := by
        rw [hl2, show (x.take j).length + 10 = 9 + ((x.take j).length + 1) by omega, ← List.drop_drop, h9,
          List.drop_succ_cons, List.length_take]
        rcases Nat.le_total j x.length with hn | hn
        · rw [Nat.min_eq_left hn]
        · rw [Nat.min_eq_right hn, List.drop_of_length_le (Nat.le_refl _), List.drop_of_length_le hn]
      have hdl : (x.drop j).length = x.length - (x.take j).length := by
        rw [List.length_drop, List.length_take]; omega
      have key : ∀ (last : End) (sts : List Stop) (bc : Nat), last = .callback ∨ last = .eos →
          let o := drive h last sts ks ⟨⟨c'.p, bc⟩, c'.log⟩ (x.drop j)
          (o.last = .callback ∨ o.last = .eos) ∧
          ∃ y, (o.rest = q :: x ∧ y = [] ∨ x = y ++ o.rest) ∧
            flat o.world.log = .frameFormat (UInt32.ofNat L) 0 fl id :: bytesEv .data y := by
        intro last sts bc hlast
        obtain ⟨g1, y, g2, g3⟩ := drive_payload (h := h) (k := .data) ks last sts ⟨⟨c'.p, bc⟩, c'.log⟩ (x.drop j)
          (by simp only [e4]; rfl) (by simp only [e5]; omega) hlast
        refine ⟨g1, x.take j ++ y, .inr ?_, ?_⟩
        · rw [List.append_assoc, ← g2, List.take_append_drop]
        · rw [g3]
          simp only
          rw [e6]
          simp [flat, flatEv, bytesEv, List.map_append]
      rcases e2 with rfl | rfl <;> simp only [hd]
      · exact key _ _ _ (.inr rfl)
      · exact key _ _ _ (.inl rfl)
  · rw [if_neg hret]
    simp only
    rw [h9]
    exact fin _ _ _ rfl rfl (.inl rfl)

end Verif.Http2.Release
