import Verif.Http2.Cuts

/-!
# HTTP/2 frames

C41 (frame headers), C42 (payload data), C43 (sequences of frames), C44 (slicing). The frames are defined in
`Verif.Http2.FrameSpec`, the client in `Verif.Http2.Client`.

All four claims fail in the code when a slice ends within a stream id of a frame header, within the last stream id of
a GOAWAY frame, or within the value of a setting. In the first case only the upper half of this stream id gets lost
(`half_ids` theorems), in the other cases the parser becomes silent (C70). Where the partial theorems exclude cuts they
do so by position: the client knows how many bytes were processed after each call (`marks`), and the writer of the
frames knows where these fields are (`idsAt`, `longAt`). Only C44, where the input is not known to be a sequence of
frames, uses what `state()` was after each call instead.
-/

namespace Verif.Http2

/-- No call of `resume` stopped within a stream id of a frame header. -/
abbrev NoStopInId (o : Outcome) : Prop := ∀ s ∈ o.stops, inStreamId s.state = false

/-- No call of `resume` stopped within the last stream id of a GOAWAY frame or within the value of a setting. -/
abbrev NoStopInField (o : Outcome) : Prop := ∀ s ∈ o.stops, inLongField s.state = false

theorem noCut {m : Bytes} {o : Outcome} (h1 : NoStopInId o) (h2 : NoStopInField o) : ¬ Broke false m o := by
  rintro ⟨st, hs, hc, -⟩
  simp [Cut, h1 st hs, h2 st hs] at hc

theorem noCutS {m : Bytes} {o : Outcome} (h2 : NoStopInField o) : ¬ Broke true m o := by
  rintro ⟨st, hs, hc, -⟩
  simp [Cut, h2 st hs] at hc

/-! ## C41 -/

theorem pred_of_header {n : Nat} {t fl : UInt8} {r : Bool} {id : UInt32} {rest : Bytes} (hn : n < 2 ^ 24)
    (hid : id < 0x80000000) : ∃ x, (predNew (header n t fl r id ++ rest)).1 =
      .frameFormat (UInt32.ofNat n) t fl id :: x := by
  unfold predNew header
  rw [pred_header hn hid Parser.new.toCore rfl]
  exact pred_prefix rest _ _ |>.imp fun x hx => by rw [← hx]; rfl

theorem NoData.half {e : Ev} (he : NoData e) : NoData e.halfId := by cases e <;> first | exact he | trivial

theorem header_log {S : Bool} {l : List Ev} {e : Ev} {K : List Ev} (he : NoData e) (hl : GoodLog l) (hp : SimPre S (flat l) (e :: K)) :
    l = [] ∨ ∃ e' l', Near S e' e ∧ l = e' :: l' := by
  cases hf : flat l with
  | nil => exact .inl (hl.nil_of_flat hf)
  | cons y R =>
    rw [hf] at hp
    obtain ⟨x, hp, hx⟩ := hp
    cases hx with
    | cons h1 h2 =>
      obtain ⟨rfl, -⟩ := List.cons_prefix_cons.mp hp
      have hy : NoData y := by rcases h1 with rfl | ⟨-, rfl⟩ <;> first | exact he | exact he.half
      obtain ⟨l', h, -⟩ := uncons hy hl hf
      exact .inr ⟨y, l', h1, h⟩

theorem header_length (n : Nat) (t fl : UInt8) (r : Bool) (id : UInt32) : (header n t fl r id).length = 9 := by
  simp [header, be_length, word_length]

theorem pred_of_headers {n : Nat} {t fl : UInt8} {r : Bool} {id : UInt32} {rest : Bytes} (hn : n < 2 ^ 24)
    (hid : id < 0x80000000) (w : Bytes) (hw : 9 ≤ w.length) (hp : w <+: header n t fl r id ++ rest) :
    ∃ x, (predNew w).1 = .frameFormat (UInt32.ofNat n) t fl id :: x := by
  obtain ⟨y, rfl⟩ : header n t fl r id <+: w :=
    List.prefix_of_prefix_length_le (List.prefix_append _ _) hp (by rw [header_length]; exact hw)
  exact pred_of_header hn hid

/-- What holds about the first callback when the run was right, or when it broke after the header. -/
theorem first_callback {S : Bool} {h : Handler} {ks : List Nat} {m W : Bytes} {e : Ev} (he : NoData e)
    (hW : W.length = 9) (hm : W <+: m) (hx : ∀ w, 9 ≤ w.length → w <+: m → ∃ x, (predNew w).1 = e :: x)
    (hs : S = false → Apart ((run h ks m).marks m) [5]) :
    ((run h ks m).world.log = [] ∨ ∃ e' l, Near S e' e ∧ (run h ks m).world.log = e' :: l) ∧
      ((run h ks m).last = .eos → (run h ks m).rest = [] → (run h ks m).world.log ≠ []) := by
  obtain ⟨r, rfl⟩ := hm
  obtain ⟨x, hxm⟩ := hx _ (by simp [hW]) (List.prefix_refl _)
  rcases Classical.em (Broke S (W ++ r) (run h ks (W ++ r))) with hb | hb
  · obtain ⟨st, h1, -, l, ⟨l2, h2⟩, h3, -⟩ := hb
    have hlt : ¬ (W ++ r).length - st.left ≤ 8 := by
      intro hle
      have e1 : st.done (W ++ r) = W.take ((W ++ r).length - st.left) :=
        List.take_append_of_le_length (by omega)
      rw [e1] at h3
      obtain ⟨h4, h5⟩ := h3.first hW hle
      exact hs h4 _ (mark_mem h1) 5 (by simp) ⟨h5, by omega⟩
    obtain ⟨x, hx⟩ := hx (st.done (W ++ r)) (by
      rw [Stop.done, List.length_take]; omega) (List.take_prefix _ _)
    have h4 := h3.flat.2
    rw [hx] at h4
    have hg : GoodLog l := fun e he => (run_T (h := h) ks (W ++ r)).2.1 e (by rw [← h2]; exact List.mem_append_left _ he)
    rcases header_log he hg ⟨_, List.prefix_refl _, h4⟩ with rfl | ⟨e', l', h5, rfl⟩
    · cases h4
    refine ⟨.inr ⟨e', l' ++ l2, h5, by rw [← h2]; rfl⟩, fun _ _ h => ?_⟩
    rw [← h2] at h
    cases h
  · have hp := run_prefixX (h := h) (ks := ks) hb
    rw [hxm] at hp
    refine ⟨header_log he (run_T ks _).2.1 hp, fun h1 h2 h3 => ?_⟩
    have := (run_eosX hb h1 h2).2
    rw [hxm, h3] at this
    cases this

/-- **C41**, except for slices that end within the stream id of this header. Whatever 9 byte header is at the
beginning of the input, and whatever follows it: the first callback is `on_frame_format` with the 24-bit length, the
type, the flags and the 31-bit stream id of the header, and when the input was processed it was executed. (Missing: a
slice that ends within the stream id, where the claim is false, see `C41_fails`.) -/
theorem C41_frame_header_partial (h : Handler) (ks : List Nat) (n : Nat) (t fl : UInt8) (r : Bool) (id : UInt32)
    (rest : Bytes) (hn : n < 2 ^ 24) (hid : id < 0x80000000)
    (hs : Apart ((run h ks (header n t fl r id ++ rest)).marks (header n t fl r id ++ rest)) [5]) :
    let o := run h ks (header n t fl r id ++ rest)
    (o.world.log = [] ∨ ∃ l, o.world.log = .frameFormat (UInt32.ofNat n) t fl id :: l) ∧
      (o.last = .eos → o.rest = [] → o.world.log ≠ []) := by
  have := first_callback (S := false) (h := h) (ks := ks) (W := header n t fl r id) (m := header n t fl r id ++ rest)
    (e := .frameFormat (UInt32.ofNat n) t fl id) trivial (header_length ..)
    (List.prefix_append _ _) (pred_of_headers hn hid) fun _ => hs
  exact ⟨this.1.imp_right fun ⟨e', l, h1, h2⟩ => ⟨l, by rw [h2, h1.resolve_right (fun h => absurd h.1 (by decide))]⟩, this.2⟩

/-- **C41** for every slicing, even one that ends within the stream id: length, type and flags are right, and the
stream id is right or lacks its upper half. -/
theorem C41_frame_header_half_id_partial (h : Handler) (ks : List Nat) (n : Nat) (t fl : UInt8) (r : Bool) (id : UInt32)
    (rest : Bytes) (hn : n < 2 ^ 24) (hid : id < 0x80000000) :
    let o := run h ks (header n t fl r id ++ rest)
    (o.world.log = [] ∨ ∃ id' l, (id' = id ∨ id' = id &&& 0xFFFF) ∧
        o.world.log = .frameFormat (UInt32.ofNat n) t fl id' :: l) ∧
      (o.last = .eos → o.rest = [] → o.world.log ≠ []) := by
  have := first_callback (S := true) (h := h) (ks := ks) (W := header n t fl r id) (m := header n t fl r id ++ rest)
    (e := .frameFormat (UInt32.ofNat n) t fl id) trivial (header_length ..)
    (List.prefix_append _ _) (pred_of_headers hn hid) nofun
  refine ⟨this.1.imp_right fun ⟨e', l, h1, h2⟩ => ?_, this.2⟩
  rcases h1 with rfl | ⟨-, rfl⟩
  · exact ⟨id, l, .inl rfl, h2⟩
  · exact ⟨_, l, .inr rfl, h2⟩

theorem half_small {id : UInt32} (hid : id < 0x10000) : id &&& 0xFFFF = id := by
  apply UInt32.toNat_inj.mp
  rw [UInt32.toNat_and]
  have : id.toNat < 65536 := UInt32.lt_iff_toNat_lt.mp hid
  exact (Nat.and_two_pow_sub_one_eq_mod _ 16).trans (Nat.mod_eq_of_lt this)

/-- **C41** for a header with a stream id below 65536: cutting it anywhere is harmless. -/
theorem C41_small_id_partial (h : Handler) (ks : List Nat) (n : Nat) (t fl : UInt8) (r : Bool) (id : UInt32)
    (rest : Bytes) (hn : n < 2 ^ 24) (hid : id < 0x10000) :
    let o := run h ks (header n t fl r id ++ rest)
    (o.world.log = [] ∨ ∃ l, o.world.log = .frameFormat (UInt32.ofNat n) t fl id :: l) ∧
      (o.last = .eos → o.rest = [] → o.world.log ≠ []) := by
  have := C41_frame_header_half_id_partial h ks n t fl r id rest hn (Nat.lt_trans hid (by decide))
  rw [half_small hid] at this
  exact ⟨this.1.imp_right fun ⟨id', l, h1, h2⟩ => ⟨l, by rw [h2, h1.elim _root_.id _root_.id]⟩, this.2⟩

/-- Length 0x010203, DATA, flags 0x81, reserved bit set, stream id 0x01020304. -/
example : let m := header 0x010203 0 0x81 true 0x01020304
    let o := run yes [4, 5] m
    Apart (o.marks m) [5] ∧ o.last = .eos ∧ o.rest = [] ∧
      o.world.log = [.frameFormat 0x010203 0 0x81 0x01020304] := by decide +kernel

/-- The same header, byte by byte: the stream id lacks its upper half. -/
example : let o := run yes [1, 1, 1, 1, 1, 1, 1, 1, 1] (header 0x010203 0 0x81 true 0x01020304)
    o.last = .eos ∧ o.rest = [] ∧ o.world.log = [.frameFormat 0x010203 0 0x81 0x0304] := by decide +kernel

/-- The same with a stream id below 65536, byte by byte. -/
example : let o := run yes [1, 1, 1, 1, 1, 1, 1, 1, 1] (header 0x010203 0 0x81 true 0x0304)
    o.last = .eos ∧ o.rest = [] ∧ o.world.log = [.frameFormat 0x010203 0 0x81 0x0304] := by decide +kernel

/-- **C41 does not hold**: when the header is cut within the stream id, its upper half is lost. -/
theorem C41_fails : ∃ (n : Nat) (t fl : UInt8) (r : Bool) (id : UInt32) (ks : List Nat), n < 2 ^ 24 ∧ id < 0x80000000 ∧
    let o := run yes ks (header n t fl r id)
    o.last = .eos ∧ o.rest = [] ∧ o.world.log = [.frameFormat (UInt32.ofNat n) t fl 0x0304] ∧ id ≠ 0x0304 :=
  ⟨4, 3, 0, false, 0x01020304, [6, 3], by decide +kernel⟩

/-! ## C42 -/

theorem nears_fixed {S : Bool} : ∀ {es l R : List Ev}, (∀ e ∈ es, e.halfId = e) → List.Forall₂ (Near S) l (es ++ R) →
    ∃ R', l = es ++ R' ∧ List.Forall₂ (Near S) R' R
  | [], l, R, _, h => ⟨l, rfl, h⟩
  | e :: es, _, R, he, .cons h1 h2 => by
    obtain ⟨R', rfl, h4⟩ := nears_fixed (fun e h => he e (List.mem_cons_of_mem _ h)) h2
    refine ⟨R', ?_, h4⟩
    rcases h1 with rfl | ⟨-, rfl⟩
    · rfl
    · rw [he e (by simp)]; rfl

/-- `g` is `f`; or, if `S`, `f` without the upper half of the stream id. -/
def NearF (S : Bool) (g f : Frame) : Prop := g = f ∨ (S = true ∧ g = { f with streamId := f.streamId &&& 0xFFFF })

theorem nears_events {S : Bool} {f : Frame} {l R : List Ev} (h : List.Forall₂ (Near S) l (f.events ++ R)) :
    ∃ g R', NearF S g f ∧ l = g.events ++ R' ∧ List.Forall₂ (Near S) R' R := by
  unfold Frame.events at h
  rw [List.cons_append] at h
  cases h with
  | cons h1 h2 =>
    have hx : ∀ e ∈ f.body.fieldEvents ++ f.body.blobEvents, e.halfId = e := by
      intro e he
      rcases List.mem_append.mp he with he | he
      · unfold Body.fieldEvents at he; split at he <;> simp at he <;> rw [he] <;> rfl
      · unfold Body.blobEvents at he
        split at he
        · rcases List.mem_append.mp he with he | he
          · obtain ⟨x, -, rfl⟩ := List.mem_map.mp he; rfl
          · rw [List.mem_singleton.mp he]; rfl
        · cases he
    obtain ⟨R', rfl, h4⟩ := nears_fixed hx h2
    rcases h1 with rfl | ⟨hs, rfl⟩
    · exact ⟨f, R', .inl rfl, rfl, h4⟩
    · exact ⟨_, R', .inr ⟨hs, rfl⟩, rfl, h4⟩

theorem payload_run {S : Bool} (h : Handler) (ks : List Nat) (f : Frame) (hf : f.OK) (k : Kind) (d : Bytes)
    (hd : f.body.blob = some (k, d)) (rest : Bytes) (hw : rest ≠ [] ∨ d ≠ [] ∨ f.body.pad.getD [] ≠ [])
    (hs : S = false → Apart ((run h ks (f.write ++ rest)).marks (f.write ++ rest)) [5])
    (hs' : Apart ((run h ks (f.write ++ rest)).marks (f.write ++ rest)) f.body.longAt) :
    let o := run h ks (f.write ++ rest)
    o.last = .eos → o.rest = [] → ∃ (e : Ev) (ds : List Bytes) (last : Bytes) (more : List Ev), Near S e f.format ∧
      o.world.log = [e] ++ f.body.fieldEvents ++ ds.map (.payload k · false) ++ [.payload k last true] ++ more ∧
      ds.flatten ++ last = d ∧ [] ∉ ds := by
  intro o h1 h2
  -- some beginning of the history is right
  have key : ∃ l R, l <+: o.world.log ∧ List.Forall₂ (Near S) (flat l) (f.events ++ R) := by
    rcases Classical.em (Broke S (f.write ++ rest) o) with hb | hb
    · obtain ⟨st, h3, -, l, h4, h5, -⟩ := hb
      by_cases hp : (f.write ++ rest).length - st.left ≤ f.write.length
      · exfalso
        have e1 : st.done (f.write ++ rest) = f.write.take ((f.write ++ rest).length - st.left) :=
          List.take_append_of_le_length hp
        rw [e1] at h5
        have e2 : [f].flatMap Frame.write = f.write := by simp
        have h6 := Mid.frames (S := S) (tr := flat l) (fs := [f]) (p := (f.write ++ rest).length - st.left)
          (fun g hg => by rw [List.mem_singleton.mp hg]; exact hf) (by rw [e2]; exact hp) (by rw [e2]; exact h5)
        rcases h6 with ⟨hS, a, h7, h8⟩ | ⟨a, h7, h8⟩
        · exact hs hS _ (mark_mem h3) a (by simp [idsAt] at h7; simp [h7]) h8
        · exact hs' _ (mark_mem h3) a (by simp [longAt] at h7; simp [h7]) h8
      · have e1 : st.done (f.write ++ rest) = f.write ++ rest.take ((f.write ++ rest).length - st.left - f.write.length) := by
          rw [Stop.done, List.take_append, List.take_of_length_le (by omega)]
        have hne : rest.take ((f.write ++ rest).length - st.left - f.write.length) ≠ [] := by
          intro h
          have := congrArg List.length h
          simp only [List.length_take, List.length_append, List.length_nil] at this hp
          omega
        have hK := h5.flat.2
        rw [e1] at hK
        unfold predNew at hK
        rw [(pred_frame hf Parser.new.toCore rfl [] _).1 (.inl hne)] at hK
        obtain ⟨R, hR⟩ := pred_prefix (rest.take ((f.write ++ rest).length - st.left - f.write.length)) ([] ++ f.events) s0
        exact ⟨l, R, h4, by rw [← hR] at hK; exact hK⟩
    · have hw' : rest ≠ [] ∨ f.body.waits = false := by
        rcases hw with hw | hw
        · exact .inl hw
        · refine .inr (Bool.eq_false_iff.mpr fun h => ?_)
          have := (waits_iff hd).mp h
          rcases hw with hw | hw
          · exact hw this.1
          · exact hw this.2
      have hp := (pred_frame hf Parser.new.toCore rfl [] rest).1 hw'
      have hK := (run_eosX hb h1 h2).2
      obtain ⟨R, hR⟩ := pred_prefix rest ([] ++ f.events) s0
      refine ⟨o.world.log, R, List.prefix_refl _, ?_⟩
      unfold predNew at hK
      rw [hp, ← hR] at hK
      exact hK
  obtain ⟨l, R, ⟨l2, hl2⟩, hflat⟩ := key
  have hg : GoodLog l := fun e he => (run_T (h := h) ks (f.write ++ rest)).2.1 e
    (by rw [show (run h ks (f.write ++ rest)).world.log = _ from hl2.symm]; exact List.mem_append_left _ he)
  obtain ⟨g, R', hn, hflat, -⟩ := nears_events hflat
  have hd' : g.body = f.body := by rcases hn with rfl | ⟨-, rfl⟩ <;> rfl
  obtain ⟨a, l', hl, hdel, -⟩ := delivered_one hg hflat
  unfold Frame.Delivered at hdel
  rw [hd', hd] at hdel
  obtain ⟨ds, last, rfl, h3, h4⟩ := hdel
  refine ⟨g.format, ds, last, l' ++ l2, ?_, by rw [← hl2, hl]; simp, h3, h4⟩
  rcases hn with rfl | ⟨hS, rfl⟩
  · exact .inl rfl
  · exact .inr ⟨hS, rfl⟩

/-- **C42**, except for slices that end within the stream id or (GOAWAY) the last stream id of this frame. For a frame
with data and whatever follows it, the callbacks are those for header and fields, then the data, in pieces of which the
last and only the last has `finished = true`. Padding, pad length and fields are not part of it. The last callback for
a frame without data and padding is only executed when something follows. -/
theorem C42_payload_partial (h : Handler) (ks : List Nat) (f : Frame) (hf : f.OK) (k : Kind) (d : Bytes)
    (hd : f.body.blob = some (k, d)) (rest : Bytes) (hw : rest ≠ [] ∨ d ≠ [] ∨ f.body.pad.getD [] ≠ [])
    (hs : Apart ((run h ks (f.write ++ rest)).marks (f.write ++ rest)) (5 :: f.body.longAt)) :
    let o := run h ks (f.write ++ rest)
    o.last = .eos → o.rest = [] → ∃ (ds : List Bytes) (last : Bytes) (more : List Ev),
      o.world.log = [f.format] ++ f.body.fieldEvents ++ ds.map (.payload k · false) ++ [.payload k last true] ++ more ∧
      ds.flatten ++ last = d ∧ [] ∉ ds := by
  intro o h1 h2
  obtain ⟨e, ds, last, more, h3, h4⟩ := payload_run (S := false) h ks f hf k d hd rest hw
    (fun _ p hp a ha => hs p hp a (by rw [List.mem_singleton.mp ha]; simp))
    (fun p hp a ha => hs p hp a (List.mem_cons_of_mem _ ha)) h1 h2
  rw [h3.resolve_right (fun h => absurd h.1 (by decide))] at h4
  exact ⟨ds, last, more, h4⟩

/-- **C42** also when slices end within the stream id: the payload is right, the stream id before it is right or lacks
its upper half. -/
theorem C42_payload_half_id_partial (h : Handler) (ks : List Nat) (f : Frame) (hf : f.OK) (k : Kind) (d : Bytes)
    (hd : f.body.blob = some (k, d)) (rest : Bytes) (hw : rest ≠ [] ∨ d ≠ [] ∨ f.body.pad.getD [] ≠ [])
    (hs : Apart ((run h ks (f.write ++ rest)).marks (f.write ++ rest)) f.body.longAt) :
    let o := run h ks (f.write ++ rest)
    o.last = .eos → o.rest = [] → ∃ (e : Ev) (ds : List Bytes) (last : Bytes) (more : List Ev),
      (e = f.format ∨ e = f.format.halfId) ∧
      o.world.log = [e] ++ f.body.fieldEvents ++ ds.map (.payload k · false) ++ [.payload k last true] ++ more ∧
      ds.flatten ++ last = d ∧ [] ∉ ds := by
  intro o h1 h2
  obtain ⟨e, ds, last, more, h3, h4⟩ := payload_run (S := true) h ks f hf k d hd rest hw nofun hs h1 h2
  exact ⟨e, ds, last, more, h3.imp_right And.right, h4⟩

/-- A padded DATA frame. -/
def exData : Frame := ⟨0x9, true, 0x01020304, .data (some [0, 0, 0]) b!"hello"⟩

example : exData.OK ∧ exData.body.blob = some (.data, b!"hello") ∧
    let o := run yes [11, 2, 4, 10] (exData.write ++ [1])
    Apart (o.marks (exData.write ++ [1])) (5 :: exData.body.longAt) ∧ o.last = .eos ∧ o.rest = [] ∧
      o.world.log = [.frameFormat 9 0 0x9 0x01020304, .payload .data b!"h" false, .payload .data b!"el" false,
        .payload .data b!"lo" true] := by decide +kernel

/-- The same frame, byte by byte. -/
example : let o := run yes (List.replicate 19 1) (exData.write ++ [1])
    Apart (o.marks (exData.write ++ [1])) exData.body.longAt ∧ o.last = .eos ∧ o.rest = [] ∧
      o.world.log = [.frameFormat 9 0 0x9 0x0304, .payload .data b!"h" false, .payload .data b!"e" false,
        .payload .data b!"l" false, .payload .data b!"l" false, .payload .data b!"o" true] := by decide +kernel

/-- **C42 does not hold** for a DATA frame without data, at the end of the input: the callback is not executed. -/
theorem C42_fails : ∃ (f : Frame), f.OK ∧ f.body = .data none [] ∧ ∀ n,
    let o := run yes [9 + n] f.write
    o.last = .eos ∧ o.rest = [] ∧ o.world.log = [f.format] := by
  refine ⟨⟨0, false, 1, .data none []⟩, by decide +kernel, rfl, fun n => ?_⟩
  have : (9 + n) = 9 + n := rfl
  have ht : List.take (9 + n) (Frame.write ⟨0, false, 1, .data none []⟩) = Frame.write ⟨0, false, 1, .data none []⟩ :=
    List.take_of_length_le (by simp [Frame.write, be, word, Body.payload, Body.padLength, Body.pad, Body.fields, Body.blob])
  simp only [run, drive, ht]
  decide +kernel

/-! ## C43 -/

theorem nears_frames {S : Bool} : ∀ {fs : List Frame} {l : List Ev}, List.Forall₂ (Near S) l (fs.flatMap Frame.events) →
    ∃ gs, List.Forall₂ (NearF S) gs fs ∧ l = gs.flatMap Frame.events
  | [], _, .nil => ⟨[], .nil, rfl⟩
  | f :: fs, l, h => by
    rw [List.flatMap_cons] at h
    obtain ⟨g, R', h1, rfl, h2⟩ := nears_events h
    obtain ⟨gs, h3, rfl⟩ := nears_frames h2
    exact ⟨g :: gs, .cons h1 h3, by simp⟩

theorem frames_run {S : Bool} {h : Handler} {ks : List Nat} {fs : List Frame} (hf : ∀ f ∈ fs, f.OK)
    (hb : ¬ Broke S (fs.flatMap Frame.write) (run h ks (fs.flatMap Frame.write))) :
    let o := run h ks (fs.flatMap Frame.write)
    o.last ≠ .panic ∧ (o.last = .eos → o.rest = [] →
      ∃ gs ls, List.Forall₂ (NearF S) gs fs ∧ o.world.log ++ late fs = ls.flatten ∧ List.Forall₂ Frame.Delivered gs ls) := by
  intro o
  obtain ⟨x, hx, hl⟩ := pred_frames fs hf Parser.new.toCore [] rfl
  refine ⟨fun h1 => ?_, fun h1 h2 => ?_⟩
  · have := (run_panicX hb h1).1.symm
    unfold predNew at this
    rw [hx] at this
    cases this
  · have hK := (run_eosX hb h1 h2).2
    unfold predNew at hK
    rw [hx, List.nil_append] at hK
    obtain ⟨hg, hfl⟩ := late_good fs
    have hK := nears_append hK (nears_refl (late fs))
    simp only [hl] at hK
    obtain ⟨gs, h3, h4⟩ := nears_frames hK
    obtain ⟨ls, h5, h6⟩ := delivered_all (fs := gs) (l := o.world.log ++ late fs) (by
      intro e he
      rcases List.mem_append.mp he with he | he
      · exact (run_T (h := h) ks (fs.flatMap Frame.write)).2.1 e he
      · exact hg e he) (by rw [flat_add, hfl, h4])
    exact ⟨gs, ls, h3, h5, h6⟩

theorem nearF_eq : ∀ {gs fs : List Frame}, List.Forall₂ (NearF false) gs fs → gs = fs
  | _, _, .nil => rfl
  | _, _, .cons (.inl rfl) h => by rw [nearF_eq h]
  | _, _, .cons (.inr h) _ => absurd h.1 (by decide)

theorem halfId_small : ∀ {gs fs : List Frame}, List.Forall₂ Frame.HalfId gs fs → (∀ f ∈ fs, f.streamId < 0x10000) → gs = fs
  | _, _, .nil, _ => rfl
  | _, _, .cons (a := g) (b := f) h1 h2, hi => by
    rw [halfId_small h2 fun f hf => hi f (List.mem_cons_of_mem _ hf)]
    rcases h1 with rfl | rfl
    · rfl
    · rw [half_small (hi f (by simp))]

/-- **C43**, except for slices that end within a stream id, a last stream id or a settings value, and for SETTINGS
frames that have not exactly one setting. For every sequence of frames (RFC 7540 section 6, with any flags, and
unknown frames): the parser does not panic, and the callbacks are, frame by frame, those for its header, its fields and
its data. If the last frame ends where data is expected, but has none, its last callbacks (`late`) are not executed
before the next byte arrives. -/
theorem C43_frames_partial (h : Handler) (ks : List Nat) (fs : List Frame) (hf : ∀ f ∈ fs, f.OK)
    (hs : Apart ((run h ks (fs.flatMap Frame.write)).marks (fs.flatMap Frame.write)) (idsAt fs))
    (hs' : Apart ((run h ks (fs.flatMap Frame.write)).marks (fs.flatMap Frame.write)) (longAt fs)) :
    let o := run h ks (fs.flatMap Frame.write)
    o.last ≠ .panic ∧ (o.last = .eos → o.rest = [] →
      ∃ ls, o.world.log ++ late fs = ls.flatten ∧ List.Forall₂ Frame.Delivered fs ls) := by
  intro o
  obtain ⟨h1, h2⟩ := frames_run (S := false) hf (not_broke hf (fun _ => hs) hs')
  refine ⟨h1, fun h3 h4 => ?_⟩
  obtain ⟨gs, ls, h5, h6, h7⟩ := h2 h3 h4
  rw [nearF_eq h5] at h7
  exact ⟨ls, h6, h7⟩

/-- **C43** also when slices end within stream ids: the callbacks are those for frames `gs` that are the same as `fs`,
except that the upper half of a stream id may be missing. -/
theorem C43_frames_half_ids_partial (h : Handler) (ks : List Nat) (fs : List Frame) (hf : ∀ f ∈ fs, f.OK)
    (hs' : Apart ((run h ks (fs.flatMap Frame.write)).marks (fs.flatMap Frame.write)) (longAt fs)) :
    let o := run h ks (fs.flatMap Frame.write)
    o.last ≠ .panic ∧ (o.last = .eos → o.rest = [] →
      ∃ gs ls, List.Forall₂ Frame.HalfId gs fs ∧ o.world.log ++ late fs = ls.flatten ∧
        List.Forall₂ Frame.Delivered gs ls) := by
  intro o
  obtain ⟨h1, h2⟩ := frames_run (S := true) hf (not_broke hf nofun hs')
  refine ⟨h1, fun h3 h4 => ?_⟩
  obtain ⟨gs, ls, h5, h6⟩ := h2 h3 h4
  exact ⟨gs, ls, h5.imp fun _ _ h => h.imp_right And.right, h6⟩

/-- **C43** for frames with stream ids below 65536: they may be cut within the stream id, too. -/
theorem C43_frames_small_ids_partial (h : Handler) (ks : List Nat) (fs : List Frame) (hf : ∀ f ∈ fs, f.OK)
    (hi : ∀ f ∈ fs, f.streamId < 0x10000)
    (hs' : Apart ((run h ks (fs.flatMap Frame.write)).marks (fs.flatMap Frame.write)) (longAt fs)) :
    let o := run h ks (fs.flatMap Frame.write)
    o.last ≠ .panic ∧ (o.last = .eos → o.rest = [] →
      ∃ ls, o.world.log ++ late fs = ls.flatten ∧ List.Forall₂ Frame.Delivered fs ls) := by
  intro o
  obtain ⟨h1, h2⟩ := C43_frames_half_ids_partial h ks fs hf hs'
  refine ⟨h1, fun h3 h4 => ?_⟩
  obtain ⟨gs, ls, h5, h6, h7⟩ := h2 h3 h4
  rw [halfId_small h5 hi] at h7
  exact ⟨ls, h6, h7⟩

/-- One frame of every kind. -/
def exFrames : List Frame := [
  ⟨0, false, 0, .settings 4 0x01020304⟩,
  ⟨0, true, 0, .windowUpdate 0x01020304⟩,
  ⟨0x28, false, 3, .headers (some [0, 0]) (some (true, 5, 200)) b!"abc"⟩,
  ⟨0, false, 3, .continuation b!"def"⟩,
  ⟨0x8, false, 3, .data (some []) b!"data"⟩,
  ⟨0, false, 3, .priority true 0x01020304 7⟩,
  ⟨0, false, 3, .rstStream 8⟩,
  ⟨0, false, 3, .pushPromise none 0x0a0b0c0d b!""⟩,
  ⟨1, false, 0, .ping b!"12345678"⟩,
  ⟨0, false, 0, .unknown 0x77 none b!"?"⟩,
  ⟨0, false, 0, .goAway true 3 0x01020304 b!"bye"⟩,
  ⟨1, false, 5, .data none b!""⟩]

example : (∀ f ∈ exFrames, f.OK) ∧ (∀ f ∈ exFrames, f.streamId < 0x10000) := by decide +kernel

example : let o := run yes (20 :: List.replicate 30 8) (exFrames.flatMap Frame.write)
    Apart (o.marks (exFrames.flatMap Frame.write)) (longAt exFrames) ∧ o.last = .eos ∧ o.rest = [] ∧ o.world.log.length = 28 ∧
    late exFrames = [.payload .data [] true] := by decide +kernel

example : let o := run yes [29, 1000] (exFrames.flatMap Frame.write)
    Apart (o.marks (exFrames.flatMap Frame.write)) (idsAt exFrames) ∧
    Apart (o.marks (exFrames.flatMap Frame.write)) (longAt exFrames) ∧ o.last = .eos ∧ o.rest = [] := by decide +kernel

/-- **C43 does not hold** for the frames of RFC 7540: after a SETTINGS frame without settings (an acknowledgement)
the parser takes the first six bytes of the next frame for a setting. -/
theorem C43_fails :
    let ack := header 0 4 1 false 0
    let ping : Frame := ⟨0, false, 0, .ping b!"12345678"⟩
    let o := run yes [1000] (ack ++ ping.write)
    o.last = .eos ∧ o.rest = [] ∧ o.world.log.take 2 = [.frameFormat 0 4 1 0, .settings 0 0x08060000] ∧
      ping.format ∉ o.world.log := by decide +kernel

/-! ## C44 -/

theorem slicing {S : Bool} {h h' : Handler} {ks ks' : List Nat} {m : Bytes} (hn : ¬ Broke S m (run h ks m))
    (hn' : ¬ Broke S m (run h' ks' m)) (hc : (run h ks m).complete) (hc' : (run h' ks' m).complete) :
    (run h ks m).last = (run h' ks' m).last ∧
      List.Forall₂ (Near S) (flat (run h ks m).world.log) (predNew m).1 ∧
        List.Forall₂ (Near S) (flat (run h' ks' m).world.log) (predNew m).1 := by
  have cases2 : ∀ o : Outcome, o.complete → o.last = .panic ∨ (o.last = .eos ∧ o.rest = []) := by
    intro o ho
    unfold Outcome.complete at ho
    split at ho
    · exact .inl (by assumption)
    · exact .inr ⟨by assumption, ho⟩
    · exact ho.elim
  rcases cases2 _ hc with h1 | ⟨h1, h2⟩ <;> rcases cases2 _ hc' with h3 | ⟨h3, h4⟩
  · exact ⟨h1.trans h3.symm, (run_panicX hn h1).2, (run_panicX hn' h3).2⟩
  · have a := (run_panicX hn h1).1.symm
    rw [← (run_eosX hn' h3 h4).1] at a; cases a
  · have a := (run_panicX hn' h3).1.symm
    rw [← (run_eosX hn h1 h2).1] at a; cases a
  · exact ⟨h1.trans h3.symm, (run_eosX hn h1 h2).2, (run_eosX hn' h3 h4).2⟩

theorem nears_half {S : Bool} : ∀ {a b : List Ev}, List.Forall₂ (Near S) a b → a.map Ev.halfId = b.map Ev.halfId
  | _, _, .nil => rfl
  | _, _, .cons h1 h2 => by
    rw [List.map_cons, List.map_cons, nears_half h2]
    rcases h1 with rfl | ⟨-, rfl⟩
    · rfl
    · rw [Ev.halfId_halfId]

theorem nears_small {S : Bool} : ∀ {a b : List Ev}, (∀ l t f id, Ev.frameFormat l t f id ∈ b → id < 0x10000) →
    List.Forall₂ (Near S) a b → a = b
  | _, [], _, .nil => rfl
  | _, e :: _, hi, .cons h1 h2 => by
    rw [nears_small (fun l t f id h => hi l t f id (List.mem_cons_of_mem _ h)) h2]
    rcases h1 with rfl | ⟨-, rfl⟩
    · rfl
    · cases e with
      | frameFormat l t f id => rw [Ev.halfId, half_small (hi l t f id (by simp))]
      | _ => rfl

/-- **C44**, except for slices that end within a stream id, a last stream id or a settings value. Any two runs of
the client over the same input that processed all of it or panicked, with any handlers and schedules, have delivered the
same; only payloads may have been cut differently. If one of them panics, the other one does, too. -/
theorem C44_slicing_partial (h h' : Handler) (ks ks' : List Nat) (m : Bytes)
    (hs : NoStopInId (run h ks m)) (hs' : NoStopInField (run h ks m))
    (ht : NoStopInId (run h' ks' m)) (ht' : NoStopInField (run h' ks' m))
    (hc : (run h ks m).complete) (hc' : (run h' ks' m).complete) :
    (run h ks m).last = (run h' ks' m).last ∧ flat (run h ks m).world.log = flat (run h' ks' m).world.log := by
  obtain ⟨h1, h4, h5⟩ := slicing (S := false) (noCut hs hs') (noCut ht ht') hc hc'
  exact ⟨h1, by rw [nears_eq h4, nears_eq h5]⟩

/-- **C44** also when slices end within stream ids: the two runs have delivered the same, except for the upper halves
of stream ids. -/
theorem C44_slicing_half_ids_partial (h h' : Handler) (ks ks' : List Nat) (m : Bytes)
    (hs : NoStopInField (run h ks m)) (ht : NoStopInField (run h' ks' m))
    (hc : (run h ks m).complete) (hc' : (run h' ks' m).complete) :
    (run h ks m).last = (run h' ks' m).last ∧
      (flat (run h ks m).world.log).map Ev.halfId = (flat (run h' ks' m).world.log).map Ev.halfId := by
  obtain ⟨h1, h4, h5⟩ := slicing (S := true) (noCutS hs) (noCutS ht) hc hc'
  exact ⟨h1, by rw [nears_half h4, nears_half h5]⟩

/-- **C44** for inputs with stream ids below 65536, as reported by one run that was not cut within a stream id: all
other runs may be cut there, too. -/
theorem C44_slicing_small_ids_partial (h h' : Handler) (ks ks' : List Nat) (m : Bytes)
    (hs : NoStopInId (run h ks m)) (hs' : NoStopInField (run h ks m)) (ht' : NoStopInField (run h' ks' m))
    (hi : ∀ l t f id, Ev.frameFormat l t f id ∈ (run h ks m).world.log → id < 0x10000)
    (hc : (run h ks m).complete) (hc' : (run h' ks' m).complete) :
    (run h ks m).last = (run h' ks' m).last ∧ flat (run h ks m).world.log = flat (run h' ks' m).world.log := by
  have hS : ∀ l t f id, Ev.frameFormat l t f id ∈ flat (run h ks m).world.log → id < 0x10000 := by
    intro l t f i hm
    refine hi l t f i ?_
    obtain ⟨e, he, hx⟩ := List.mem_flatMap.mp hm
    cases e with
    | payload k d b =>
      exfalso
      cases b <;> simp [flatEv] at hx
    | _ =>
      simp only [flatEv, List.mem_singleton] at hx
      rw [hx]; exact he
  obtain ⟨h1, h2, -⟩ := slicing (S := false) (noCut hs hs') (noCut hs hs') hc hc
  obtain ⟨h3, -, h5⟩ := slicing (S := true) (noCutS hs') (noCutS ht') hc hc'
  rw [← nears_eq h2] at h5
  exact ⟨h3, (nears_small hS h5).symm⟩

example : let o := run yes [1000] (exFrames.flatMap Frame.write)
    let o' := run ⟨fun l => l.length % 2 == 0⟩ (20 :: List.replicate 60 8) (exFrames.flatMap Frame.write)
    NoStopInId o ∧ NoStopInField o ∧ NoStopInField o' ∧ o.complete ∧ o'.complete ∧ o.world.log ≠ o'.world.log ∧
    o.world.log.all (fun e => match e with | .frameFormat _ _ _ id => decide (id < 0x10000) | _ => true) = true := by decide +kernel

/-- Two frames with large stream ids, byte by byte. -/
def exLarge : List Frame := [⟨0, false, 0x01020304, .data none b!"a"⟩, ⟨0, false, 0x05060708, .data none b!"b"⟩]

example : let o := run yes [1000] (exLarge.flatMap Frame.write)
    let o' := run yes (List.replicate 20 1) (exLarge.flatMap Frame.write)
    (∀ f ∈ exLarge, f.OK) ∧ Apart (o'.marks (exLarge.flatMap Frame.write)) (longAt exLarge) ∧
    NoStopInField o ∧ NoStopInField o' ∧ o.complete ∧ o'.complete ∧ o.world.log ≠ o'.world.log ∧
    o'.world.log = [.frameFormat 1 0 0 0x0304, .payload .data b!"a" true, .frameFormat 1 0 0 0x0708, .payload .data b!"b" true] := by
  decide +kernel

/-- **C44 does not hold**: a GOAWAY frame that is cut within its last stream id is never left, so the frames after it
are not reported. -/
theorem C44_fails : ∃ (fs : List Frame) (ks ks' : List Nat), (∀ f ∈ fs, f.OK) ∧ fs.length = 2 ∧
    (let o := run yes ks (fs.flatMap Frame.write)
     o.last = .eos ∧ o.rest = [] ∧ o.world.log.length = 4) ∧
    (let o := run yes ks' (fs.flatMap Frame.write)
     o.last = .eos ∧ o.rest = [] ∧ o.world.log.length = 1) :=
  ⟨[⟨0, false, 0, .goAway false 3 1 []⟩, ⟨0, false, 0, .ping b!"12345678"⟩], [1000], [10, 1000], by decide +kernel⟩

/-- Nor for the value of a setting. -/
theorem C44_fails_settings : ∃ (fs : List Frame) (ks ks' : List Nat), (∀ f ∈ fs, f.OK) ∧ fs.length = 2 ∧
    (let o := run yes ks (fs.flatMap Frame.write)
     o.last = .eos ∧ o.rest = [] ∧ o.world.log.length = 4) ∧
    (let o := run yes ks' (fs.flatMap Frame.write)
     o.last = .eos ∧ o.rest = [] ∧ o.world.log.length = 1) :=
  ⟨[⟨0, false, 0, .settings 1 1⟩, ⟨0, false, 0, .ping b!"12345678"⟩], [1000], [13, 1000], by decide +kernel⟩

end Verif.Http2
