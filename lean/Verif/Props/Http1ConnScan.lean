import Verif.Http1.ConnScan
import Verif.Props.Http1Conn
import Verif.Props.Http1AcceptUrl

/-!
# C114: the messages of a connection, as seen by others

`scanConn`, `asks` and `Told` are defined in `Verif.Http1.ConnScanSpec`. Also C112 for every slicing.
-/

namespace Verif.Http1

/-- **C112 (partial)**, for every slicing: if a run over a head ends with `Finished`, then others find the same start line
and fields, and the same end; except that letters of `HTTP` may be missing at the start of the method that was reported,
if the method starts with `H` and fewer than nine bytes are passed at once. Missing: as for `C112_same_head_partial`. -/
theorem C112_every_slicing_partial (h : Handler) (p : Parser) (l : List Ev) (msg : Bytes) (ks : List Nat)
    (hp : Begins p msg ks) (hf : (drive h .idle ks ⟨p, l⟩ msg).last = .finished) :
    let o := drive h .idle ks ⟨p, l⟩ msg
    ∃ es t, scanHead splitLine id msg = some (es, o.rest) ∧ scanHead lfLine id msg = some (es, o.rest) ∧
      flat o.world.log = flat l ++ t ∧ Told es t ∧ (¬ Short msg ks → flat es = t) := by
  intro o
  obtain ⟨x, gone, t, h1, h2, h3, h4, h5⟩ := head_told h hp hf
  refine ⟨x.events, t, scan_told takes_crlf h1 h2, scan_told takes_lf h1 h2, h4, ?_, fun hs => ?_⟩
  · rcases h5 with rfl | ⟨-, w, h6, rfl⟩
    · exact .inl h3
    · exact .inr ⟨w, h6, h3⟩
  · rcases h5 with rfl | ⟨h5, -⟩
    · exact h3
    · exact absurd h5 hs

/-! ## Helper lemmas -/

/-- A message: what others find in its head, what was reported of it, and the callbacks of its body. -/
structure Heard where
  found : List Ev
  head : List Ev
  body : List Ev

/-- Others and the client agree about a message. -/
structure Heard.OK (rule : List Ev → BodyKind) (m : Heard) : Prop where
  head : Told m.found m.head
  body : m.body = [] ↔ rule (withoutMethod m.found) = .none

/-- Where a run over a connection has come to, when `told` was reported of the messages before the bytes `r`: the run has
ended there; or it is in the head that begins there; or it is in the body after this head, which begins where others see
it begin. -/
inductive Within (h : Handler) (rule : List Ev → BodyKind) (told : List Ev) (r : Bytes) (o : Outcome) : Prop
  | done : o.last = .finished → o.rest = r → flat o.world.log = told → Within h rule told r o
  | head (q : Parser) (l : List Ev) (ks : List Nat) : o.last ≠ .finished → flat l = told →
      o = drive h .idle ks ⟨q.init .head, l⟩ r → Within h rule told r o
  | body (q : Parser) (l : List Ev) (ks : List Nat) (es t : List Ev) (m : Mode) (r' : Bytes) : o.last ≠ .finished →
      scanHead splitLine id r = some (es, r') → Told es t → (rule (withoutMethod es)).mode = some m →
      flat l = told ++ t → o = drive h .idle ks ⟨m.prepare q, l⟩ r' → Within h rule told r o

theorem asks_after_head {rule : List Ev → BodyKind} {stop : List Ev → Bool} {l : List Ev} {s t t0 es : List Ev} (hl : flat l = s ++ t)
    (hs : s = [] ∨ ∃ s0 e', s = s0 ++ [e'] ∧ isEnd e' = true) (ht : t = t0 ++ [.headersFinished])
    (h0 : ∀ e ∈ t0, isEnd e = false) (he : withoutMethod t = withoutMethod es) :
    asks rule stop l = match (rule (withoutMethod es)).mode with
      | some m => some m
      | none => if stop l = true then none else some .head := by
  have h1 : (flat l).getLast? = some .headersFinished := by rw [hl, ht, ← List.append_assoc, List.getLast?_concat]
  have h2 : lastMessage (flat l) = t := by rw [hl, ht]; exact last_message hs h0
  unfold asks
  rw [h2, he, if_pos h1]
  cases (rule (withoutMethod es)).mode <;> rfl

theorem asks_after_body {rule : List Ev → BodyKind} {stop : List Ev → Bool} {l s : List Ev} (hl : flat l = s ++ [.bodyFinished]) :
    asks rule stop l = if stop l = true then none else some .head := by
  unfold asks
  rw [if_neg]
  intro h
  rw [hl, List.getLast?_concat] at h
  cases h

theorem body_stage (h : Handler) {b : BodyKind} {m : Mode} (hb : b.mode = some m) {q : Parser} {l : List Ev} {msg : Bytes}
    {ks : List Nat} (hf : (drive h .idle ks ⟨m.prepare q, l⟩ msg).last = .finished) :
    b.skip msg = some (drive h .idle ks ⟨m.prepare q, l⟩ msg).rest ∧
    ∃ b0, flat (drive h .idle ks ⟨m.prepare q, l⟩ msg).world.log = flat l ++ (b0 ++ [.bodyFinished]) := by
  obtain ⟨k, ks, rfl⟩ : ∃ k ks', ks = k :: ks' := by
    cases ks with
    | nil => exact absurd hf (by simp [drive])
    | cons k ks4 => exact ⟨_, _, rfl⟩
  cases b with
  | none => cases hb
  | chunked =>
    cases hb
    refine ⟨(C108_same_end h q l msg (k :: ks)
      (by unfold Outcome.complete; dsimp only [Mode.prepare] at hf; rw [hf]; trivial)).1 hf, ?_⟩
    obtain ⟨y, -, -, d1⟩ := C52_only_chunked_accepted_partial h q l msg k ks hf
    refine ⟨flat (y.chunks.flatMap Chunk.events ++ [.chunkBegin, .chunkLength 0] ++ y.trailer.flatMap Line.events ++
        [.headersFinished]), d1.trans ?_⟩
    simp [LooseBody.events, flat, flatEv]
  | length n =>
    cases hb
    obtain ⟨x, -, d1, d2, d3⟩ := C54_accepted_bodies_partial h q l n msg k ks hf
    refine ⟨?_, flat x.events, d3.trans (by simp [flat, flatEv])⟩
    unfold urlRun at d1
    change (if n ≤ msg.length then some (msg.drop n) else none) =
      some (drive h .idle (k :: ks) ⟨(q.init .urlEncoded).setLength n, l⟩ msg).rest
    have hn : n ≤ msg.length := by rw [d1, List.length_append]; omega
    rw [if_pos hn]
    generalize (drive h .idle (k :: ks) ⟨(q.init .urlEncoded).setLength n, l⟩ msg).rest = r at *
    rw [d1, ← d2, List.drop_left]

theorem messages (h : Handler) (rule : List Ev → BodyKind) (stop : List Ev → Bool) : ∀ (n : Nat) (ks : List Nat), ks.length ≤ n →
    ∀ (q : Parser) (l : List Ev) (msg : Bytes), (flat l = [] ∨ ∃ s0 e', flat l = s0 ++ [e'] ∧ isEnd e' = true) →
    ∃ (ms : List Heard) (r : Bytes), scanConn rule ms.length msg = some (ms.map (·.found), r) ∧ (∀ m ∈ ms, m.OK rule) ∧
      Within h rule (flat l ++ ms.flatMap fun m => m.head ++ m.body) r
        (serve h (asks rule stop) .idle ks ⟨q.init .head, l⟩ msg) := by
  intro n
  induction n with
  | zero =>
    intro ks hks q l msg _
    cases ks with
    | nil => exact ⟨[], msg, rfl, by simp, .head q l [] (by simp [serve]) (by simp) rfl⟩
    | cons k ks => exact absurd hks (by simp)
  | succ n ih =>
    intro ks hks q l msg hl
    rcases serve_stage h (asks rule stop) ks .idle ⟨q.init .head, l⟩ msg nofun with ⟨h1, h2⟩ | ⟨h1, us, ks2, h2, h3, h4, h5⟩
    · exact ⟨[], msg, rfl, by simp, .head q l ks (by rw [h2]; exact h1) (by simp) h2⟩
    obtain ⟨x, gone, t, a1, a2, a3, a4, a5⟩ := head_told h (.inl ⟨q, rfl⟩) h1
    have hg : ∀ e ∈ gone, isMethod e = true := by
      rcases a5 with rfl | ⟨-, w, -, rfl⟩
      · simp
      · intro e he
        obtain ⟨c, -, rfl⟩ := List.mem_map.1 he
        rfl
    obtain ⟨t0, b1, b2⟩ := told_ends a3 hg
    have htold : Told x.events t := by
      rcases a5 with rfl | ⟨-, w, h6, rfl⟩
      · exact .inl a3
      · exact .inr ⟨w, h6, a3⟩
    have hft : flat t = t := by
      have := flat_flat x.events
      rw [a3] at this
      unfold flat at this ⊢
      rw [List.flatMap_append] at this
      have hgl : gone.flatMap flatEv = gone := by
        rcases a5 with rfl | ⟨-, w, -, rfl⟩
        · rfl
        · rw [List.flatMap_map]
          exact (List.map_eq_flatMap (f := fun c => Ev.method [c])).symm
      rw [hgl] at this
      exact List.append_cancel_left this
    have hask := asks_after_head (rule := rule) (stop := stop) a4 hl b1 b2 (without_same a3 hg hft)
    have hscan := scan_told takes_crlf a1 a2
    have h5 := h5 ks2
    rw [← h2, hask] at h5
    have hlen : ks2.length ≤ n := by
      have := congrArg List.length h2
      have := List.length_pos_iff.2 h3
      simp only [List.length_append] at *
      omega
    generalize drive h .idle ks ⟨q.init .head, l⟩ msg = o1 at *
    cases hr : (rule (withoutMethod x.events)).mode with
    | some md =>
      rw [hr] at h5
      dsimp only at h5
      rw [h5]
      rcases serve_stage h (asks rule stop) ks2 .idle ⟨md.prepare o1.world.p, o1.world.log⟩ o1.rest nofun with
        ⟨c1, c2⟩ | ⟨c1, us', ks3, c2, c3, c4, c5⟩
      · exact ⟨[], msg, rfl, by simp, .body o1.world.p o1.world.log ks2 x.events t md o1.rest (by rw [c2]; exact c1) hscan htold hr
          (by simpa using a4) c2⟩
      obtain ⟨hend, b0, d1⟩ := body_stage h hr c1
      have c5 := c5 ks3
      rw [← c2] at c5
      have hl3 : ks3.length ≤ n := by
        have := congrArg List.length c2
        simp only [List.length_append] at *
        omega
      generalize drive h .idle ks2 ⟨md.prepare o1.world.p, o1.world.log⟩ o1.rest = o2 at *
      have hlog2 : flat o2.world.log = (flat l ++ t ++ b0) ++ [.bodyFinished] := by
        rw [d1, a4]; simp
      rw [asks_after_body hlog2] at c5
      have hm : Heard.OK rule ⟨x.events, t, b0 ++ [.bodyFinished]⟩ := ⟨htold, by
        constructor
        · intro h; simp at h
        · intro h; dsimp only at h; rw [h] at hr; cases hr⟩
      have step : ∀ ms : List Heard, ∀ r, scanConn rule ms.length o2.rest = some (ms.map (·.found), r) →
          scanConn rule (ms.length + 1) msg = some (x.events :: ms.map (·.found), r) := by
        intro ms r hms
        rw [scanConn, hscan]
        simp only [hend, hms, Option.map_some]
      by_cases hst : stop o2.world.log = true
      · rw [if_pos hst] at c5
        rw [c5]
        refine ⟨[⟨x.events, t, b0 ++ [.bodyFinished]⟩], o2.rest, step [] o2.rest rfl, ?_, .done c1 rfl ?_⟩
        · intro m hmm; rw [List.mem_singleton.1 hmm]; exact hm
        · rw [d1, a4]; simp
      · rw [if_neg hst] at c5
        have c5 : _ = serve h (asks rule stop) .idle ks3 ⟨o2.world.p.init .head, o2.world.log⟩ o2.rest := c5
        rw [c5]
        obtain ⟨ms, r, e1, e3, e2⟩ := ih ks3 hl3 o2.world.p o2.world.log o2.rest (.inr ⟨_, _, hlog2, rfl⟩)
        refine ⟨⟨x.events, t, b0 ++ [.bodyFinished]⟩ :: ms, r, step ms _ e1, ?_, ?_⟩
        · intro m hmm
          rcases List.mem_cons.1 hmm with rfl | hmm
          · exact hm
          · exact e3 m hmm
        · rw [d1, a4] at e2; simpa using e2
    | none =>
      rw [hr] at h5
      dsimp only at h5
      have hr' : rule (withoutMethod x.events) = .none := by
        cases hq : rule (withoutMethod x.events) <;> rw [hq] at hr <;> first | rfl | cases hr
      have hm : Heard.OK rule ⟨x.events, t, []⟩ := ⟨htold, by simp [hr']⟩
      have step : ∀ ms : List Heard, ∀ r, scanConn rule ms.length o1.rest = some (ms.map (·.found), r) →
          scanConn rule (ms.length + 1) msg = some (x.events :: ms.map (·.found), r) := by
        intro ms r hms
        rw [scanConn, hscan]
        simp only [hr', BodyKind.skip, hms, Option.map_some]
      by_cases hst : stop o1.world.log = true
      · rw [if_pos hst] at h5
        dsimp only at h5
        rw [h5]
        refine ⟨[⟨x.events, t, []⟩], o1.rest, step [] o1.rest rfl, ?_, .done h1 rfl ?_⟩
        · intro m hmm; rw [List.mem_singleton.1 hmm]; exact hm
        · rw [a4]; simp
      · rw [if_neg hst] at h5
        dsimp only [Mode.prepare] at h5
        rw [h5]
        obtain ⟨ms, r, e1, e3, e2⟩ := ih ks2 hlen o1.world.p o1.world.log o1.rest
          (.inr ⟨flat l ++ t0, .headersFinished, by rw [a4, b1, List.append_assoc], rfl⟩)
        refine ⟨⟨x.events, t, []⟩ :: ms, r, step ms _ e1, ?_, ?_⟩
        · intro m hmm
          rcases List.mem_cons.1 hmm with rfl | hmm
          · exact hm
          · exact e3 m hmm
        · rw [a4] at e2; simpa using e2

/-! ## C114 -/

/-- **C114 (partial).** A client reads a connection with heads, chunked bodies and URL-encoded bodies, whatever bytes come, in
whatever slices, with any handler: after each head `rule` says from its start line and fields which body follows, and
`stop` says when to stop. If it stops after some messages, then other programs with the same rule, which take the same
bytes apart by line ends, colons, chunk sizes and lengths, find the same number of messages, with the same start lines
and fields, the same of them with a body, and the same end. So no bytes can be hidden from others as part of a message,
or from the client. Missing: letters of `HTTP` at the start of a method may not be reported (in `Told`, see `C114_fails`); and the
programs of C108 and C112 that read sizes or values in another way. -/
theorem C114_same_messages_partial (h : Handler) (rule : List Ev → BodyKind) (stop : List Ev → Bool) (q : Parser)
    (msg : Bytes) (ks : List Nat)
    (hf : (serve h (asks rule stop) .idle ks ⟨q.init .head, []⟩ msg).last = .finished) :
    let o := serve h (asks rule stop) .idle ks ⟨q.init .head, []⟩ msg
    ∃ ms : List Heard, scanConn rule ms.length msg = some (ms.map (·.found), o.rest) ∧
      flat o.world.log = ms.flatMap (fun m => m.head ++ m.body) ∧
      ∀ m ∈ ms, Told m.found m.head ∧ (m.body = [] ↔ rule (withoutMethod m.found) = .none) := by
  intro o
  obtain ⟨ms, r, h1, h3, h2⟩ := messages h rule stop ks.length ks (Nat.le_refl _) q [] msg (.inl rfl)
  cases h2 with
  | done _ h4 h5 => exact ⟨ms, h4 ▸ h1, h5, fun m hm => ⟨(h3 m hm).head, (h3 m hm).body⟩⟩
  | head _ _ _ h4 => exact absurd hf h4
  | body _ _ _ _ _ _ _ h4 => exact absurd hf h4

/-- **C114 (partial)**, for every run, also one that was rejected or lacks bytes: the messages that were read are those that
others find first; and the head or body that the run is in begins where others see it begin (`Within`). So a message that
is rejected cannot shift the borders of those before. Missing: as before. -/
theorem C114_every_run_partial (h : Handler) (rule : List Ev → BodyKind) (stop : List Ev → Bool) (q : Parser) (msg : Bytes)
    (ks : List Nat) :
    ∃ (ms : List Heard) (r : Bytes), scanConn rule ms.length msg = some (ms.map (·.found), r) ∧
      (∀ m ∈ ms, Told m.found m.head ∧ (m.body = [] ↔ rule (withoutMethod m.found) = .none)) ∧
      Within h rule (ms.flatMap fun m => m.head ++ m.body) r
        (serve h (asks rule stop) .idle ks ⟨q.init .head, []⟩ msg) := by
  obtain ⟨ms, r, h1, h3, h2⟩ := messages h rule stop ks.length ks (Nat.le_refl _) q [] msg (.inl rfl)
  exact ⟨ms, r, h1, fun m hm => ⟨(h3 m hm).head, (h3 m hm).body⟩, h2⟩

/-- A field `t` tells that a chunked body follows, a field `l` with a digit that a body of this length does. -/
def twoFields (l : List Ev) : BodyKind :=
  if .headerName [c! 't'] ∈ l then .chunked
  else match l.dropWhile (· != .headerName [c! 'l']) with
    | _ :: .headerValue [b] :: _ => .length (b.toNat - 48)
    | _ => .none

/-- Four heads and three bodies, byte by byte, with a handler that pauses. The chunk data looks like a head. -/
example : let x := b!"\r\nPOST /a HTTP/1.1\r\nT: c\r\n\r\n12\r\nGET / HTTP/1.1\r\n\r\n\r\n0\r\n\r\n" ++
      b!"GET /b HTTP/1.1\r\nA: b\r\n c\r\n\r\nPUT /c HTTP/1.1\r\nt:c\r\n\r\n0\r\nT: u\r\n\r\n" ++
      b!"POST /d HTTP/1.1\r\nL: 3\r\n\r\na=bGET"
    let o := serve pauses (asks twoFields fun l => (flat l).count .initialFinished = 4) .idle (List.replicate 400 1)
      ⟨Parser.new.init .head, []⟩ x
    o.last = .finished ∧ o.rest = b!"GET" ∧
    scanConn twoFields 4 x = some ([[.method b!"POST", .url b!"/a", .version 1 1, .initialFinished, .headerName b!"t",
        .headerValue b!"c", .headersFinished],
      [.method b!"GET", .url b!"/b", .version 1 1, .initialFinished, .headerName b!"a", .headerValue b!"b", .headerValue b!"c",
        .headersFinished],
      [.method b!"PUT", .url b!"/c", .version 1 1, .initialFinished, .headerName b!"t", .headerValue b!"c", .headersFinished],
      [.method b!"POST", .url b!"/d", .version 1 1, .initialFinished, .headerName b!"l", .headerValue b!"3", .headersFinished]],
      b!"GET") := by
  refine ⟨?_, ?_, ?_⟩ <;> decide +kernel

/-- A rejected connection: the second chunk size is not a number. -/
example : let x := b!"GET / HTTP/1.1\r\n\r\nPUT /c HTTP/1.1\r\nt:c\r\n\r\n1\r\na\r\nx"
    (serve pauses (asks twoFields fun _ => false) .idle (List.replicate 400 1) ⟨Parser.new.init .head, []⟩ x).last =
      .err (.chunkLength (c! 'x')) ∧
    scanConn twoFields 1 x = some ([[.method b!"GET", .url b!"/", .version 1 1, .initialFinished, .headersFinished]],
      b!"PUT /c HTTP/1.1\r\nt:c\r\n\r\n1\r\na\r\nx") ∧ scanConn twoFields 2 x = none := by
  refine ⟨?_, ?_, ?_⟩ <;> decide +kernel

/-- The full claim is false: `HEAD` is reported as `EAD` when it comes in short slices. -/
theorem C114_fails : let x := b!"HEAD / HTTP/1.1\r\n\r\n"
    let o := serve goOn (asks twoFields fun _ => true) .idle (List.replicate 40 1) ⟨Parser.new.init .head, []⟩ x
    o.last = .finished ∧ flat o.world.log = flat [.method b!"EAD", .url b!"/", .version 1 1, .initialFinished, .headersFinished] ∧
    scanConn twoFields 1 x = some ([[.method b!"HEAD", .url b!"/", .version 1 1, .initialFinished, .headersFinished]], []) := by
  refine ⟨?_, ?_, ?_⟩ <;> decide +kernel

end Verif.Http1
