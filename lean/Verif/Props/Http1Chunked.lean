import Verif.Http1.ChunkInv
import Verif.Props.Http1Slicing

/-!
# Chunked bodies

C32 (round trip), C33 (data never exceeds the announced length), C34 (lengths are exact), C35 (the last
chunk ends the body). The grammar and its meaning are in `Verif.Http1.ChunkSpec`.
-/

namespace Verif.Http1

/-- The environment of chunked bodies. -/
abbrev chunkEnv : Env := ⟨.chunked, none, noCl⟩

theorem chunked_sim (h : Handler) (q : Parser) (l : List Ev) (k : Nat) (ks : List Nat) (msg : Bytes) :
    DriveSim (Inv chunkEnv (pred chunkEnv (flat l) .size1 msg)) (pred chunkEnv (flat l) .size1 msg)
      (drive h .idle (k :: ks) ⟨q.init .chunked, l⟩ msg) := by
  have H := start_chunked (q := q) (l := l) (s := msg.take k) (fut := msg.drop k)
  rw [List.take_append_drop] at H
  exact run_sim bdOK_none (clOK_of (by decide)) k ks H

/-! ## C32 -/

/-- **C32 (partial).** Every complete run over a well-formed chunked body, whatever follows it, ends with
`Finished` directly after the body, with exactly the callbacks that the body means. Missing: extension and
trailer values that are empty or start with a byte above 0x7E, byte 255, and some escapes (marked in
`Verif.Http1.ChunkSpec` and `Verif.Http1.MessageSpec`); extensions of the last chunk (C35). -/
theorem C32_chunked_round_trip_partial (h : Handler) (q : Parser) (l : List Ev) (x : ChunkedBody) (hx : x.OK)
    (rest : Bytes) (k : Nat) (ks : List Nat)
    (hc : (drive h .idle (k :: ks) ⟨q.init .chunked, l⟩ (x.write ++ rest)).complete) :
    let o := drive h .idle (k :: ks) ⟨q.init .chunked, l⟩ (x.write ++ rest)
    o.last = .finished ∧ o.rest = rest ∧ flat o.world.log = flat (l ++ x.events) := by
  intro o
  have H := chunked_sim h q l k ks (x.write ++ rest)
  have hK := (runs_body (env := chunkEnv) hx).finish (es' := [.headersFinished, .bodyFinished]) (fun _ => rfl)
    (flat l) rest
  obtain ⟨h1, h2, h3⟩ := complete_fin H hc hK
  refine ⟨h1, h3, ?_⟩
  rw [h2]
  simp [ChunkedBody.events, flat, flatEv]

/-- Complete runs exist for every schedule of non-empty slices that is long enough. -/
theorem C32_runs_complete (h : Handler) (q : Parser) (l : List Ev) (msg : Bytes) :
    ∃ N, ∀ ks : List Nat, (∀ x ∈ ks, 0 < x) → N ≤ ks.length →
      (drive h .idle ks ⟨q.init .chunked, l⟩ msg).complete := by
  refine ⟨msg.length + (pred chunkEnv (flat l) .size1 msg).1.length + 1, fun ks hk hl => ?_⟩
  cases ks with
  | nil => simp at hl
  | cons k ks =>
    have H := start_chunked (q := q) (l := l) (s := msg.take k) (fut := msg.drop k)
    rw [List.take_append_drop] at H
    refine complete_gen bdOK_none (clOK_of (by decide)) ks k .idle _ msg H hk ?_
    simp only [List.length_cons] at hl
    show msg.length + (pred chunkEnv (flat l) .size1 msg).1.length ≤ _
    omega

/-- Two chunks, with extensions of all kinds, and a trailer. -/
def exBody : ChunkedBody :=
  { chunks := [⟨b!"5", [], b!"hello"⟩,
      ⟨b!"1A", [⟨b!"", b!"Ab", none⟩, ⟨b!" ", b!"c", some ⟨b!"", b!"d e", b!"d e"⟩⟩,
        ⟨b!"", b!"f", some ⟨b!"\t", b!"\"g;\\\"\"h", b!"g;\"h"⟩⟩], b!"abcdefghijklmnopqrstuvwxyz"⟩],
    trailers := [⟨b!"T", b!" ", b!"v", []⟩] }

theorem exBody_ok : exBody.OK where
  chunks := by
    intro y hy
    simp only [exBody, List.mem_cons, List.not_mem_nil, or_false] at hy
    rcases hy with rfl | rfl
    · exact ⟨HexVal.snoc (n := 5) .nil (by decide), ⟨_, _, rfl, by decide⟩, by decide, by simp⟩
    · refine ⟨HexVal.snoc (ds := b!"1") (v := 1) (n := 10) (HexVal.snoc (n := 1) .nil (by decide)) (by decide),
        ⟨_, _, rfl, by decide⟩, by decide, ?_⟩
      intro e he
      simp only [List.mem_cons, List.not_mem_nil, or_false] at he
      rcases he with rfl | rfl | rfl
      · exact ⟨by decide, by decide, nofun⟩
      · refine ⟨by decide, by decide, ?_⟩
        rintro v ⟨⟩
        exact ⟨by decide, by repeat first | exact .nil | refine .byte (by decide) (by decide) (by decide) ?_,
          ⟨_, _, rfl, by decide⟩⟩
      · refine ⟨by decide, by decide, ?_⟩
        rintro v ⟨⟩
        refine ⟨by decide, ?_, ⟨_, _, rfl, by decide⟩⟩
        exact ExtText.quoted (q := b!"g;\\\"") (n := b!"g;\"")
          (.byte (by decide) (by decide) (.byte (by decide) (by decide) (.esc (by decide) (by decide) .nil)))
          (.byte (by decide) (by decide) (by decide) .nil)
  trailers := by
    intro y hy
    simp only [exBody, List.mem_cons, List.not_mem_nil, or_false] at hy
    subst hy
    exact ⟨by decide, by decide, .byte (by decide) (by decide) .nil, ⟨_, _, rfl, by decide⟩, by simp⟩

example : exBody.write =
      b!"5\r\nhello\r\n1A;Ab; c=d e;f=\t\"g;\\\"\"h\r\nabcdefghijklmnopqrstuvwxyz\r\n0\r\nT: v\r\n\r\n" ∧
    exBody.events = [.chunkBegin, .chunkLength 5, .chunkExtensionsFinished, .chunkData b!"hello",
      .chunkBegin, .chunkLength 26, .chunkExtensionName b!"ab", .chunkExtensionFinished, .chunkExtensionName b!"c",
      .chunkExtensionValue b!"d e", .chunkExtensionFinished, .chunkExtensionName b!"f",
      .chunkExtensionValue b!"g;\"h", .chunkExtensionFinished, .chunkExtensionsFinished,
      .chunkData b!"abcdefghijklmnopqrstuvwxyz", .chunkBegin, .chunkLength 0, .headerName b!"t", .headerValue b!"v",
      .headersFinished, .bodyFinished] := by decide +kernel

/-- The full C32 fails: a trailer with an empty value and an extension with an empty value are rejected, and byte 255 in
the name of a trailer makes the parser panic. -/
theorem C32_fails :
    let o (m : Bytes) := drive goOn .idle [100, 100] ⟨Parser.new.init .chunked, []⟩ m
    (o b!"1\r\na\r\n0\r\nT:\r\n\r\n").last = .err (.headerValue 13) ∧
    (o b!"1;x=\r\na\r\n0\r\n\r\n").last = .err (.chunkExtensionValue 13) ∧
    (o (b!"0\r\nT" ++ [255] ++ b!": v\r\n\r\n")).last = .panic := by decide +kernel

/-! ## C33 -/

/-- **C33.** The data after a length, up to the next length, is at most as long as announced; it is
exactly as long as announced when a further chunk begins; and there is no data before the first length. -/
theorem C33_chunk_data (h : Handler) (q : Parser) (k : Nat) (ks : List Nat) (msg : Bytes) (n : Nat)
    (pre mid post : List Ev) (hm : ∀ n, .chunkLength n ∉ mid) :
    let log := (drive h .idle (k :: ks) ⟨q.init .chunked, []⟩ msg).world.log
    (log = pre ++ .chunkLength n :: mid ++ post → dataBytes mid ≤ n) ∧
    (log = pre ++ .chunkLength n :: mid ++ .chunkBegin :: post → dataBytes mid = n) ∧
    (log = mid ++ post → dataBytes mid = 0) := by
  intro log
  have hm' : ∀ e ∈ flat mid, isLength e = false := by
    refine flat_length fun e he => ?_
    cases e <;> first | rfl | exact absurd he (hm _)
  obtain ⟨⟨z, hz, -⟩, -⟩ := chunk_run (env := chunkEnv) rfl msg
  obtain ⟨t, ht⟩ := (chunked_sim h q [] k ks msg).prefix
  rw [show flat [] = ([] : List Ev) from rfl] at ht
  rw [← ht] at hz
  obtain ⟨z1, hz, -⟩ := zrun_some hz
  have key : ∀ post, log = pre ++ .chunkLength n :: mid ++ post → ∃ z2, zrun (.body, 0) (flat pre) = some (.body, 0) ∧
      zrun (if n = 0 then .zero else .body, n) (flat mid) = some z2 ∧ zrun z2 (flat post) = some z1 := by
    intro post e
    have e2 : flat log = flat pre ++ (.chunkLength n :: (flat mid ++ flat post)) := by
      rw [e]; simp [flat, flatEv]
    change zrun _ (flat log) = _ at hz
    rw [e2] at hz
    obtain ⟨z3, h1, h2⟩ := zrun_some hz
    simp only [zrun] at h2
    obtain ⟨z4, h3, h4⟩ := Option.bind_eq_some_iff.1 h2
    obtain ⟨rfl, rfl⟩ := zstep_length h3
    obtain ⟨z5, h5, h6⟩ := zrun_some h4
    exact ⟨z5, h1, h5, h6⟩
  refine ⟨fun e => ?_, fun e => ?_, fun e => ?_⟩
  · obtain ⟨z2, -, h2, -⟩ := key post e
    have := zrun_data h2 hm'
    rw [dataBytes_flat] at this
    simp only at this
    omega
  · obtain ⟨z2, -, h2, h3⟩ := key (.chunkBegin :: post) e
    have := zrun_data h2 hm'
    rw [dataBytes_flat] at this
    simp only [flat, List.flatMap_cons, flatEv, List.cons_append, List.nil_append, zrun] at h3
    obtain ⟨z4, h3, h4⟩ := Option.bind_eq_some_iff.1 h3
    have hz2 : z2.2 = 0 := by
      obtain ⟨z2, r⟩ := z2
      cases z2 <;> simp [zstep, TrailerEv, ExtensionEv] at h3 ⊢
      exact h3.1
    simp only at this
    omega
  · have e2 : flat log = flat mid ++ flat post := by rw [e]; simp [flat]
    change zrun _ (flat log) = _ at hz
    rw [e2] at hz
    obtain ⟨z3, h1, h2⟩ := zrun_some hz
    have := zrun_data h1 hm'
    rw [dataBytes_flat] at this
    simp only at this
    omega

/-- A body that is cut inside its second chunk. -/
example :
    (drive goOn .idle [12, 3] ⟨Parser.new.init .chunked, []⟩ b!"5\r\nhello\r\n4\r\nab").world.log =
      [.chunkBegin, .chunkLength 5] ++ [.chunkExtensionsFinished, .chunkData b!"hello"] ++
      .chunkBegin :: [.chunkLength 4, .chunkExtensionsFinished, .chunkData b!"ab"] := by decide +kernel

/-! ## C34 -/

/-- **C34.** A length that is reported is the value of the one to eight hexadecimal digits of a
chunk-size line of the message. -/
theorem C34_lengths_exact (h : Handler) (q : Parser) (k : Nat) (ks : List Nat) (msg : Bytes) (n : Nat)
    (hn : .chunkLength n ∈ (drive h .idle (k :: ks) ⟨q.init .chunked, []⟩ msg).world.log) : SizeIn msg n := by
  obtain ⟨-, hs⟩ := chunk_run (env := chunkEnv) rfl msg
  refine hs n ((chunked_sim h q [] k ks msg).prefix.subset ?_)
  exact List.mem_flatMap.2 ⟨_, hn, by simp [flatEv]⟩

/-- **C34.** A length that is reported is below 2^32. -/
theorem C34_lengths_fit (h : Handler) (q : Parser) (k : Nat) (ks : List Nat) (msg : Bytes) (n : Nat)
    (hn : .chunkLength n ∈ (drive h .idle (k :: ks) ⟨q.init .chunked, []⟩ msg).world.log) : n < 2 ^ 32 := by
  obtain ⟨y, ds, t, post, -, -, h1, -, h2, -⟩ := C34_lengths_exact h q k ks msg n hn
  have h3 := h1.lt
  have h4 : 16 ^ ds.length ≤ 16 ^ 8 := Nat.pow_le_pow_right (by decide) h2
  omega

theorem run_nine (tr : List Ev) : ∀ (ds : Bytes) (b : UInt8) (j v : Nat) (r : Bytes), (∀ a ∈ ds, isHex a = true) →
    isHex b = true → ds.length = j → pred chunkEnv tr (sizeNext j v) (ds ++ b :: r) = (tr, .err (.chunkLength b) r)
  | [], b, j, v, r, _, hb, hj => by
    subst hj
    have := hex_not_end hb
    simp [sizeNext, pred, norm, bstep, bSizeEnd, this]
  | a :: ds, b, j, v, r, hd, hb, hj => by
    subst hj
    have ih := run_nine tr ds b ds.length (v * 16 + (hexToByte a).toNat) r (fun a ha => hd a (by simp [ha])) hb rfl
    simp only [sizeNext, List.length_eq_zero_iff] at ih
    simp [sizeNext, pred, norm, bstep, hd a (by simp)]
    exact ih

/-- **C34.** After any number of chunks, a size of more than eight digits is rejected: the error names the
ninth digit (or, when the first digit is zero, the second), and no length is reported for it. -/
theorem C34_long_rejected (h : Handler) (q : Parser) (l : List Ev) (cs : List Chunk) (hcs : ∀ c ∈ cs, c.OK)
    (ds rest : Bytes) (hd : ∀ b ∈ ds, ∃ n, Util.HexDigit b n) (hl : 8 < ds.length) (k : Nat) (ks : List Nat)
    (hc : (drive h .idle (k :: ks) ⟨q.init .chunked, l⟩ (cs.flatMap Chunk.write ++ ds ++ rest)).complete) :
    let o := drive h .idle (k :: ks) ⟨q.init .chunked, l⟩ (cs.flatMap Chunk.write ++ ds ++ rest)
    (∃ b ∈ ds, o.last = .err (.chunkLength b)) ∧
    ∃ d, isData d = true ∧ flat o.world.log ++ flatEv d = flat (l ++ cs.flatMap Chunk.events ++ [.chunkBegin]) := by
  intro o
  have H := chunked_sim h q l k ks (cs.flatMap Chunk.write ++ ds ++ rest)
  have hx : ∀ b ∈ ds, isHex b = true := fun b hb => let ⟨n, hn⟩ := hd b hb; (hexDigit_of hn).1
  have hK : ∃ b ∈ ds, ∃ r, pred chunkEnv (flat l) .size1 (cs.flatMap Chunk.write ++ ds ++ rest) =
      (flat (l ++ cs.flatMap Chunk.events ++ [.chunkBegin]), .err (.chunkLength b) r) := by
    have e2 : flat (l ++ cs.flatMap Chunk.events ++ [.chunkBegin]) =
        flat l ++ flat (cs.flatMap Chunk.events) ++ [.chunkBegin] := by simp [flat, flatEv]
    rw [List.append_assoc, runs_chunks cs hcs, e2]
    generalize flat l ++ flat (cs.flatMap Chunk.events) = tr
    match ds, hl, hx with
    | a :: ds, hl, hx =>
      by_cases ha : a = c! '0'
      · subst ha
        match ds, hl, hx with
        | b :: ds, hl, hx =>
          refine ⟨b, by simp, ds ++ rest, ?_⟩
          have h1 := hex_not_end (hx b (by simp))
          simp [pred, norm, bstep, bSizeEnd, h1]
      · simp only [List.length_cons] at hl
        have e : ds ++ rest = ds.take 7 ++ ds[7] :: (ds.drop 8 ++ rest) := by
          rw [← List.cons_append, ← List.drop_eq_getElem_cons, ← List.append_assoc, List.take_append_drop]
        refine ⟨ds[7], by simp, ds.drop 8 ++ rest, ?_⟩
        have h1 := hx a (by simp)
        have h2 : pred chunkEnv tr .size1 (a :: ds ++ rest) = pred chunkEnv (tr ++ [.chunkBegin])
            (sizeNext 7 (hexToByte a).toNat) (ds ++ rest) := by
          simp [pred, norm, bstep, ha, h1, sizeNext]
        rw [h2, e]
        refine run_nine _ _ _ _ _ _ (fun b hb => hx b ?_) (hx _ (by simp)) (by simp; omega)
        simp [List.mem_of_mem_take hb]
  obtain ⟨b, hb, r, hK⟩ := hK
  obtain ⟨h1, h2, d, h3, h4⟩ := complete_err H hc hK
  exact ⟨⟨b, hb, h1⟩, d, h3, h4⟩

/-- The largest length, and a size that is too long. -/
example :
    .chunkLength 4294967295 ∈
      (drive goOn .idle [4, 100] ⟨Parser.new.init .chunked, []⟩ b!"fFfFfFfF\r\n").world.log ∧
    (drive goOn .idle [4, 100] ⟨Parser.new.init .chunked, []⟩ b!"123456789\r\n").last = .err (.chunkLength (c! '9')) ∧
    (drive goOn .idle [4, 100] ⟨Parser.new.init .chunked, []⟩ b!"123456789\r\n").complete := by decide +kernel

/-! ## C35 -/

/-- **C35 (partial).** After a length of zero that is not followed by an extension, there are only
trailers. Missing: extensions of the last chunk, see `C35_fails`. -/
theorem C35_last_chunk_partial (h : Handler) (q : Parser) (k : Nat) (ks : List Nat) (msg : Bytes)
    (pre post : List Ev)
    (he : (drive h .idle (k :: ks) ⟨q.init .chunked, []⟩ msg).world.log = pre ++ .chunkLength 0 :: post)
    (hx : ∀ e, (flat post).head? = some e → ¬ ExtensionEv e) : ∀ e ∈ flat post, TrailerEv e := by
  obtain ⟨⟨z, hz, -⟩, -⟩ := chunk_run (env := chunkEnv) rfl msg
  obtain ⟨t, ht⟩ := (chunked_sim h q [] k ks msg).prefix
  rw [show flat [] = ([] : List Ev) from rfl] at ht
  rw [← ht] at hz
  obtain ⟨z1, hz, -⟩ := zrun_some hz
  rw [he, show flat (pre ++ .chunkLength 0 :: post) = flat pre ++ flat (.chunkLength 0 :: post) by simp [flat]] at hz
  obtain ⟨z2, -, hz⟩ := zrun_some hz
  rw [show flat (.chunkLength 0 :: post) = .chunkLength 0 :: flat post by simp [flat, flatEv]] at hz
  simp only [zrun] at hz
  obtain ⟨z4, h3, h4⟩ := Option.bind_eq_some_iff.1 hz
  obtain ⟨rfl, rfl⟩ := zstep_length h3
  rcases zrun_zero h4 with ⟨e, h5, h6⟩ | h5
  · exact absurd h6 (hx e h5)
  · exact h5

/-- **C35.** A body finishes only after a chunk of size zero, with nothing but trailers after it. -/
theorem C35_finishes_after_last (h : Handler) (q : Parser) (k : Nat) (ks : List Nat) (msg : Bytes)
    (hf : (drive h .idle (k :: ks) ⟨q.init .chunked, []⟩ msg).last = .finished) :
    ∃ pre post, flat (drive h .idle (k :: ks) ⟨q.init .chunked, []⟩ msg).world.log = pre ++ .chunkLength 0 :: post ∧
      ∀ e ∈ post, TrailerEv e := by
  obtain ⟨⟨z, hz, hr⟩, -⟩ := chunk_run (env := chunkEnv) rfl msg
  have H := chunked_sim h q [] k ks msg
  simp only [DriveSim, hf] at H
  rw [show flat [] = ([] : List Ev) from rfl] at H
  rw [H] at hz hr
  obtain rfl := hr _ rfl
  rcases zrun_last hz with h1 | ⟨h1, _⟩ | h1
  · simp at h1
  · simp at h1
  · exact h1

example : (drive goOn .idle [4, 100] ⟨Parser.new.init .chunked, []⟩ b!"1\r\na\r\n0\r\nT: v\r\n\r\n").last = .finished ∧
    (drive goOn .idle [4, 100] ⟨Parser.new.init .chunked, []⟩ b!"1\r\na\r\n0\r\nT: v\r\n\r\n").world.log =
      [.chunkBegin, .chunkLength 1, .chunkExtensionsFinished, .chunkData b!"a", .chunkBegin] ++ .chunkLength 0 ::
      [.headerName b!"t", .headerValue b!"v", .headersFinished, .bodyFinished] := by decide +kernel

/-- The full C35 fails: a chunk of size zero with an extension does not end the body; another chunk is
parsed after it. -/
theorem C35_fails :
    (drive goOn .idle [100] ⟨Parser.new.init .chunked, []⟩ b!"0;a\r\n\r\n").last = .eos ∧
    (drive goOn .idle [100] ⟨Parser.new.init .chunked, []⟩ b!"0;a\r\n\r\n1\r\nx\r\n").world.log =
      [.chunkBegin, .chunkLength 0, .chunkExtensionName b!"a", .chunkExtensionFinished, .chunkExtensionsFinished,
        .chunkBegin, .chunkLength 1, .chunkExtensionsFinished, .chunkData b!"x"] := by decide +kernel

end Verif.Http1
