import Verif.Http1.Runs
import Verif.Props.Http1Slicing

/-!
# Heads are parsed to what was written

C24 (leading blanks), C25 (requests), C26 (responses). The message grammar and its meaning are in
`Verif.Http1.MessageSpec`.
-/

namespace Verif.Http1

/-- The environment of heads. -/
abbrev headEnv : Env := ⟨.head, none, noCl⟩

/-- A parser ready for the head `msg`, of which the first `k` bytes are passed first: initialised or
reset for heads, or made with `new`. -/
def Ready (p : Parser) (msg : Bytes) (k : Nat) : Prop :=
  (∃ q : Parser, p = q.init .head) ∧ Detectable msg k ∨ p = .new ∧ Detectable' msg k

theorem Ready.start {p : Parser} {msg : Bytes} {k : Nat} (h : Ready p msg k) (l : List Ev) :
    Start headEnv (startK headEnv ⟨p, l⟩ msg) ⟨p, l⟩ (msg.take k) (msg.drop k) := by
  rcases h with ⟨⟨q, rfl⟩, h⟩ | ⟨rfl, h⟩
  · have := start_head (q := q) (l := l) h.hok
    rwa [List.take_append_drop] at this
  · have := start_new (l := l) h.hok
    rwa [List.take_append_drop] at this

theorem strip_eq {b : UInt8} {r : Bytes} {env : Env} {tr : List Ev} (hb : isBlank b = false) :
    pred env tr .stripDetect (b :: r) = pred env tr .detect1 (b :: r) := by
  simp [pred, norm, bstep, hb]

theorem Ready.K {p : Parser} {msg : Bytes} {k : Nat} (h : Ready p msg k) (l : List Ev) {b : UInt8} {r : Bytes}
    (hm : msg = b :: r) (hb : isBlank b = false) :
    startK headEnv ⟨p, l⟩ msg = pred headEnv (flat l) .detect1 msg := by
  subst hm
  rcases h with ⟨⟨q, rfl⟩, h⟩ | ⟨rfl, h⟩
  · show pred headEnv (flat l) .stripDetect _ = _
    exact strip_eq hb
  · rfl

/-! ## C24 -/

/-- **C24 (partial).** For a parser that was initialised or reset for heads, blanks before the message
change nothing. Missing: parsers made with `new`, see `C24_fails`; and messages that start with `H` but
not with `HTTP/` when fewer than nine bytes are passed first (C18). -/
theorem C24_leading_blanks_partial (h1 h2 : Handler) (q : Parser) (l : List Ev) (bl msg : Bytes)
    (hb : ∀ b ∈ bl, b ∈ b!" \t\r\n")
    (k1 k2 : Nat) (ks1 ks2 : List Nat) (d1 : Detectable (bl ++ msg) k1) (d2 : Detectable msg k2)
    (c1 : (drive h1 .idle (k1 :: ks1) ⟨q.init .head, l⟩ (bl ++ msg)).complete)
    (c2 : (drive h2 .idle (k2 :: ks2) ⟨q.init .head, l⟩ msg).complete) :
    Agree (drive h1 .idle (k1 :: ks1) ⟨q.init .head, l⟩ (bl ++ msg))
      (drive h2 .idle (k2 :: ks2) ⟨q.init .head, l⟩ msg) := by
  have H1 := start_head (q := q) (l := l) d1.hok
  have H2 := start_head (q := q) (l := l) d2.hok
  rw [List.take_append_drop] at H1 H2
  have e : startK headEnv ⟨q.init .head, l⟩ (bl ++ msg) = startK headEnv ⟨q.init .head, l⟩ msg := by
    show pred headEnv (flat l) .stripDetect _ = pred headEnv (flat l) .stripDetect _
    have hl := pred_loop (env := headEnv) (s := .stripDetect) (ev := fun _ => []) (fun _ => rfl) nofun bl (flat l) msg
      (by
        intro b hb'
        have hbl : b ∈ ([32, 9, 13, 10] : Bytes) := hb b hb'
        simp only [List.mem_cons, List.not_mem_nil, or_false] at hbl
        rcases hbl with rfl | rfl | rfl | rfl <;> rfl)
    rw [hl, show bl.flatMap (fun _ => ([] : List Ev)) = [] by simp, List.append_nil]
  rw [e] at H1
  exact agree_of_sim (run_sim bdOK_none (clOK_of (by decide)) k1 ks1 H1)
    (run_sim bdOK_none (clOK_of (by decide)) k2 ks2 H2) c1 c2

/-- Blanks of every kind before a request. -/
example :
    let msg := b!"GET / HTTP/1.1\r\n\r\n"
    let w : World := ⟨Parser.new.init .head, []⟩
    Detectable (b!"\r\n \t" ++ msg) 3 ∧ Detectable msg 5 ∧
    (drive goOn .idle [3, 100] w (b!"\r\n \t" ++ msg)).complete ∧
    (drive goOn .idle [5, 100] w msg).complete ∧ (drive goOn .idle [5, 100] w msg).last = .finished :=
  ⟨.inr (.inl (by decide +kernel)), .inr (.inl (by decide +kernel)), by decide +kernel, by decide +kernel,
    by decide +kernel⟩

/-- The full C24 fails: a parser made with `new` rejects a message that starts with a blank. -/
theorem C24_fails :
    (drive goOn .idle [100] ⟨.new, []⟩ b!"\r\nGET / HTTP/1.1\r\n\r\n").last = .err (.method (c! '\r')) ∧
    (drive goOn .idle [100] ⟨Parser.new.init .head, []⟩ b!"\r\nGET / HTTP/1.1\r\n\r\n").last = .finished := by
  decide +kernel

/-! ## C25 -/

theorem not_http {m r : Bytes} (hm : ∀ b ∈ m, UpperByte b) : ¬ b!"TTP/" <+: m ++ c! ' ' :: r := by
  rintro ⟨t, ht⟩
  have hs : ∀ b, UpperByte b → b ≠ c! '/' := by rintro b hb rfl; exact absurd hb (by decide)
  match m, hm, ht with
  | [], _, ht => simp at ht
  | [a], _, ht => simp at ht
  | [a, b], _, ht => simp at ht
  | [a, b, c], _, ht => simp at ht
  | a :: b :: c :: d :: m, hm, ht =>
    simp only [List.cons_append, List.cons.injEq] at ht
    exact hs d (hm d (by simp)) ht.2.2.2.1.symm

theorem upper_not_blank {b : UInt8} (h : UpperByte b) : isBlank b = false := by
  have key : ∀ b : UInt8, UpperByte b → isBlank b = false := by
    apply Util.forall_u8
    decide +kernel
  exact key b h

theorem pred_request {x : Request} (h : x.OK) (tr : List Ev) (r : Bytes) :
    pred headEnv tr .detect1 (x.write ++ r) = (tr ++ flat x.events, .finished r) := by
  obtain ⟨hn, hm⟩ := h.method
  obtain ⟨b, m, e⟩ := List.exists_cons_of_ne_nil hn
  rw [e] at hm
  have e2 : x.write ++ r = (b :: m) ++ c! ' ' :: ((x.url ++ b!" HTTP/" ++ x.major ++ b!"." ++ x.minor ++ b!"\r\n" ++
      x.headers.flatMap Header.write ++ b!"\r\n") ++ r) := by simp [Request.write, e]
  rw [e2, pred_detect1_word b m tr _ (fun a ha => upper_of (hm a ha))
    (.inr ⟨by simp; omega, not_http fun a ha => hm a (by simp [ha])⟩),
    (runs_request_tail h).finish (es' := [.headersFinished]) (fun _ => rfl)]
  simp [Request.events, flat, e, flatEv]

/-- **C25 (partial).** Every complete run over a well-formed request head, whatever follows it, ends with
`Finished` directly after the head, with exactly the callbacks that the head means. Missing: headers
with an empty value, with a value that starts with a byte above 0x7E, or with a byte 255; escapes other
than of 0x20 to 0x7A; methods that start with `H` when fewer than nine bytes are passed first (part of
`Ready`, see C18); leading blanks for parsers made with `new` (C24). See `C25_fails`. -/
theorem C25_request_round_trip_partial (h : Handler) (p : Parser) (l : List Ev) (x : Request) (hx : x.OK)
    (rest : Bytes) (k : Nat) (ks : List Nat) (hr : Ready p (x.write ++ rest) k)
    (hc : (drive h .idle (k :: ks) ⟨p, l⟩ (x.write ++ rest)).complete) :
    let o := drive h .idle (k :: ks) ⟨p, l⟩ (x.write ++ rest)
    o.last = .finished ∧ o.rest = rest ∧ flat o.world.log = flat (l ++ x.events) := by
  intro o
  have H := run_sim bdOK_none (clOK_of (by decide)) (h := h) k ks (hr.start l)
  obtain ⟨hn, hm⟩ := hx.method
  obtain ⟨b, m, e⟩ := List.exists_cons_of_ne_nil hn
  have hb := upper_not_blank (hm b (by simp [e]))
  have e2 : ∃ t, x.write ++ rest = b :: t := ⟨_, by simp [Request.write, e]; rfl⟩
  obtain ⟨t, e2⟩ := e2
  have hK := (hr.K l e2 hb).trans (pred_request hx (flat l) rest)
  obtain ⟨h1, h2, h3⟩ := complete_fin H hc hK
  exact ⟨h1, h3, by rw [h2]; simp [flat]⟩

/-- Complete runs exist for every schedule of non-empty slices that is long enough. -/
theorem C25_runs_complete (h : Handler) (p : Parser) (l : List Ev) (msg : Bytes) :
    ∃ N, ∀ k ks, Ready p msg k → (∀ x ∈ k :: ks, 0 < x) → N ≤ ks.length →
      (drive h .idle (k :: ks) ⟨p, l⟩ msg).complete :=
  ⟨msg.length + (startK headEnv ⟨p, l⟩ msg).1.length, fun k ks hr hk hl =>
    complete_gen bdOK_none (clOK_of (by decide)) ks k .idle _ msg (hr.start l) hk (by omega)⟩

/-- A request with a folded header and a quoted string. -/
def exRequest : Request :=
  { method := b!"POST", url := b!"/a?b=c", major := b!"1", minor := b!"1",
    headers := [⟨b!"Host", b!" ", b!"x", []⟩, ⟨b!"X-Y", b!"", b!"a \"q\\\"\" b", [(c! '\t', b!"more")]⟩] }

theorem exRequest_ok : exRequest.OK where
  method := by decide
  url := by decide
  major := ⟨1, by unfold Digits; decide⟩
  minor := ⟨1, by unfold Digits; decide⟩
  headers := by
    intro y hy
    simp only [exRequest, List.mem_cons, List.not_mem_nil, or_false] at hy
    rcases hy with rfl | rfl
    · exact ⟨by decide, by decide, .byte (by decide) (by decide) .nil, ⟨_, _, rfl, by decide⟩, by simp⟩
    · refine ⟨by decide, by decide, ?_, ⟨_, _, rfl, by decide⟩, ?_⟩
      · exact .byte (by decide) (by decide) (.byte (by decide) (by decide)
          (.quoted (q := b!"q\\\"") (.byte (by decide) (by decide) (.esc (by decide) (by decide) .nil))
            (.byte (by decide) (by decide) (.byte (by decide) (by decide) .nil))))
      · intro f hf
        simp only [List.mem_cons, List.not_mem_nil, or_false] at hf
        subst hf
        exact ⟨by decide, .byte (by decide) (by decide) (.byte (by decide) (by decide)
          (.byte (by decide) (by decide) (.byte (by decide) (by decide) .nil)))⟩

example : exRequest.write = b!"POST /a?b=c HTTP/1.1\r\nHost: x\r\nX-Y:a \"q\\\"\" b\r\n\tmore\r\n\r\n" ∧
    exRequest.events = [.method b!"POST", .url b!"/a?b=c", .version 1 1, .initialFinished,
      .headerName b!"host", .headerValue b!"x", .headerName b!"x-y", .headerValue b!"a \"q\\\"\" bmore",
      .headersFinished] ∧
    (drive goOn .idle [3, 5, 100] ⟨.new, []⟩ (exRequest.write ++ b!"body")).complete := by decide +kernel

example : Ready .new (exRequest.write ++ b!"body") 3 := .inr ⟨rfl, by decide +kernel, .inr (.inl (by decide +kernel))⟩

/-- The full C25 fails: requests with an empty header value, or one that starts with a byte above 0x7E,
are rejected; a header value with byte 255 makes the parser panic. -/
theorem C25_fails :
    (drive goOn .idle [100] ⟨.new, []⟩ b!"GET / HTTP/1.1\r\nA: \r\n\r\n").last = .err (.headerValue 13) ∧
    (drive goOn .idle [100] ⟨.new, []⟩ b!"GET / HTTP/1.1\r\nA: \xE4\r\n\r\n").last = .err (.headerValue 0xE4) ∧
    (drive goOn .idle [100] ⟨.new, []⟩ b!"GET / HTTP/1.1\r\nA: b\xFF\r\n\r\n").last = .panic := by decide +kernel

/-! ## C26 -/

theorem pred_response {x : Response} (h : x.OK) (tr : List Ev) (r : Bytes) :
    pred headEnv tr .detect1 (x.write ++ r) = (tr ++ flat x.events, .finished r) := by
  have h0 : Runs headEnv .detect1 b!"HTTP/" [] (.maj1 true) := by
    intro tr r
    simp [pred, norm, bstep, bDetect1, bDet]
  have h1 := (h0.trans (runs_response h)).finish (es' := [.headersFinished]) (fun _ => rfl) tr r
  have e : x.write = b!"HTTP/" ++ (x.major ++ b!"." ++ x.minor ++ b!" " ++ x.code ++ b!" " ++ x.reason ++ b!"\r\n" ++
      x.headers.flatMap Header.write ++ b!"\r\n") := by simp [Response.write]
  rw [e, h1]
  simp [Response.events, flat, flatEv]

/-- **C26 (partial).** Every complete run over a well-formed response head ends with `Finished` directly
after the head, with exactly the callbacks that the head means. Missing: an empty reason, and the header
values of C25. See `C26_fails`. -/
theorem C26_response_round_trip_partial (h : Handler) (p : Parser) (l : List Ev) (x : Response) (hx : x.OK)
    (rest : Bytes) (k : Nat) (ks : List Nat)
    (hp : (∃ q : Parser, p = q.init .head) ∨ p = .new ∧ 0 < k)
    (hc : (drive h .idle (k :: ks) ⟨p, l⟩ (x.write ++ rest)).complete) :
    let o := drive h .idle (k :: ks) ⟨p, l⟩ (x.write ++ rest)
    o.last = .finished ∧ o.rest = rest ∧ flat o.world.log = flat (l ++ x.events) := by
  intro o
  have e2 : ∃ t, x.write ++ rest = b!"HTTP/" ++ t := ⟨_, by simp [Response.write]; rfl⟩
  obtain ⟨t, e2⟩ := e2
  have hr : Ready p (x.write ++ rest) k := by
    rcases hp with hp | ⟨rfl, hk⟩
    · left
      refine ⟨hp, .inr (.inr (.inl ?_))⟩
      rw [e2]
      have : ((b!"HTTP/" ++ t).dropWhile isBlank) = b!"HTTP/" ++ t := rfl
      rw [this]; exact List.prefix_append _ _
    · right
      refine ⟨rfl, ?_, .inr (.inr (.inl ⟨t, e2.symm⟩))⟩
      rw [e2]
      cases k with
      | zero => omega
      | succ k => simp
  have H := run_sim bdOK_none (clOK_of (by decide)) (h := h) k ks (hr.start l)
  have hK := (hr.K l e2 (by decide)).trans (pred_response hx (flat l) rest)
  obtain ⟨h1, h2, h3⟩ := complete_fin H hc hK
  exact ⟨h1, h3, by rw [h2]; simp [flat]⟩

/-- A response for the examples. -/
def exResponse : Response :=
  { major := b!"1", minor := b!"0", code := b!"404", reason := b!"Not Found",
    headers := [⟨b!"Content-Type", b!" ", b!"text/plain", []⟩] }

example : exResponse.OK where
  major := ⟨1, by unfold Digits; decide⟩
  minor := ⟨0, by unfold Digits; decide⟩
  code := ⟨rfl, 404, by unfold Digits; decide⟩
  reason := by decide
  headers := by
    intro y hy
    simp only [exResponse, List.mem_cons, List.not_mem_nil, or_false] at hy
    subst hy
    refine ⟨by decide, by decide, ?_, ⟨_, _, rfl, by decide⟩, by simp⟩
    repeat first | exact .nil | refine .byte (by decide) (by decide) ?_

example : exResponse.write = b!"HTTP/1.0 404 Not Found\r\nContent-Type: text/plain\r\n\r\n" ∧
    exResponse.events = [.version 1 0, .statusCode 404, .status b!"Not Found", .initialFinished,
      .headerName b!"content-type", .headerValue b!"text/plain", .headersFinished] ∧
    (drive pauses .idle (List.replicate 60 2) ⟨.new, []⟩ (exResponse.write ++ b!"body")).complete := by
  decide +kernel

/-- The full C26 fails: an empty reason is rejected. -/
theorem C26_fails :
    (drive goOn .idle [100] ⟨.new, []⟩ b!"HTTP/1.1 200 \r\n\r\n").last = .err (.status 13) := by decide +kernel

end Verif.Http1
