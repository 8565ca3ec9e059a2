import Verif.Http1.Start
import Verif.Props.Http1Calls

/-!
# Properties about cutting a message into slices

C18 (heads), C19 (chunked bodies), C20 (URL-encoded bodies), C21 (multipart bodies), C31 (fast
paths).

`drive h .idle ks w msg` is the run of a client that owns the unread bytes of `msg` and passes the
first `ks[i]` of them to the `i`-th call of `resume`; callbacks may also pause at will. The run is
`complete` when the message is finished, rejected, or used up. `Agree` says when two runs over the
same message came to the same end.
-/

namespace Verif.Http1

/-! ## C18 -/

/-- The first token can be recognised: the first slice of `k` bytes contains at least nine bytes
besides leading blanks, or the message does not start with `H`, or it starts like `HTTP/`. -/
def Detectable (msg : Bytes) (k : Nat) : Prop :=
  9 ≤ ((msg.take k).dropWhile isBlank).length ∨
  (msg.dropWhile isBlank).head? ≠ some (c! 'H') ∨
  b!"HTTP/" <+: msg.dropWhile isBlank ∨ msg.dropWhile isBlank <+: b!"HTTP/"

theorem Detectable.hok {msg : Bytes} {k : Nat} (h : Detectable msg k) :
    HOK .stripDetect (msg.take k) (msg.drop k) := by
  refine ⟨?_, nofun⟩
  rcases h with h | h
  · exact .inr (.inl ⟨rfl, h⟩)
  · left
    show HStart ((msg.take k ++ msg.drop k).dropWhile isBlank)
    rw [List.take_append_drop]
    exact h

/-- **C18 (partial).** Two client runs over the same head, with any slices and any pauses, come to
the same end: the same callbacks with the same data, the same result, the same unprocessed bytes.
Missing: messages that start with `H` but not with `HTTP/` (for example the method HEAD), when fewer
than nine bytes are passed first, see `C18_fails`; and, when the head is rejected or the parser panics, the data of the token
in which that happens. -/
theorem C18_head_slicing_partial (h1 h2 : Handler) (q : Parser) (l : List Ev) (msg : Bytes)
    (k1 k2 : Nat) (ks1 ks2 : List Nat) (d1 : Detectable msg k1) (d2 : Detectable msg k2)
    (c1 : (drive h1 .idle (k1 :: ks1) ⟨q.init .head, l⟩ msg).complete)
    (c2 : (drive h2 .idle (k2 :: ks2) ⟨q.init .head, l⟩ msg).complete) :
    Agree (drive h1 .idle (k1 :: ks1) ⟨q.init .head, l⟩ msg)
      (drive h2 .idle (k2 :: ks2) ⟨q.init .head, l⟩ msg) := by
  have H1 := start_head (q := q) (l := l) d1.hok
  have H2 := start_head (q := q) (l := l) d2.hok
  rw [List.take_append_drop] at H1 H2
  exact run_agree bdOK_none (clOK_of (by decide)) (clOK_of (by decide)) H1 H2 c1 c2

/-- The same for a new parser, which does not skip leading blanks and needs a first slice that is
not empty. -/
def Detectable' (msg : Bytes) (k : Nat) : Prop :=
  msg.take k ≠ [] ∧ (9 ≤ (msg.take k).length ∨ msg.head? ≠ some (c! 'H') ∨
    b!"HTTP/" <+: msg ∨ msg <+: b!"HTTP/")

theorem Detectable'.hok {msg : Bytes} {k : Nat} (h : Detectable' msg k) :
    HOK .detect1 (msg.take k) (msg.drop k) := by
  refine ⟨?_, fun _ => h.1⟩
  rcases h.2 with h | h
  · exact .inr (.inr ⟨rfl, h⟩)
  · left
    show HStart (msg.take k ++ msg.drop k)
    rw [List.take_append_drop]
    exact h

/-- **C18 (partial)** for a parser that was just made with `new`. -/
theorem C18_new_slicing_partial (h1 h2 : Handler) (l : List Ev) (msg : Bytes)
    (k1 k2 : Nat) (ks1 ks2 : List Nat) (d1 : Detectable' msg k1) (d2 : Detectable' msg k2)
    (c1 : (drive h1 .idle (k1 :: ks1) ⟨.new, l⟩ msg).complete)
    (c2 : (drive h2 .idle (k2 :: ks2) ⟨.new, l⟩ msg).complete) :
    Agree (drive h1 .idle (k1 :: ks1) ⟨.new, l⟩ msg) (drive h2 .idle (k2 :: ks2) ⟨.new, l⟩ msg) := by
  have H1 := start_new (l := l) d1.hok
  have H2 := start_new (l := l) d2.hok
  rw [List.take_append_drop] at H1 H2
  exact run_agree bdOK_none (clOK_of (by decide)) (clOK_of (by decide)) H1 H2 c1 c2

/-- Every schedule of non-empty slices that is long enough gives a complete run. -/
theorem C18_runs_complete (h : Handler) (q : Parser) (l : List Ev) (msg : Bytes) :
    ∃ N, ∀ k ks, Detectable msg k → (∀ x ∈ k :: ks, 0 < x) → N ≤ ks.length →
      (drive h .idle (k :: ks) ⟨q.init .head, l⟩ msg).complete := by
  refine ⟨msg.length + (startK ⟨.head, none, noCl⟩ ⟨q.init .head, l⟩ msg).1.length,
    fun k ks d hk hl => ?_⟩
  have H1 := start_head (q := q) (l := l) d.hok
  rw [List.take_append_drop] at H1
  exact complete_gen bdOK_none (clOK_of (by decide)) ks k .idle _ msg H1 hk (by omega)

/-- A head for the examples, with bytes after it. -/
def exHead : Bytes := b!"\r\nGET /a HTTP/1.1\r\nHost: x\r\nAccept: \"y\"\r\n\r\nrest"

/-- One slice, pausing at every callback; and slices of two bytes without pauses. -/
example : Detectable exHead 100 ∧ Detectable exHead 2 ∧
    (drive pauses .idle (List.replicate 11 100) ⟨Parser.new.init .head, []⟩ exHead).complete ∧
    (drive goOn .idle (List.replicate 30 2) ⟨Parser.new.init .head, []⟩ exHead).complete ∧
    (drive goOn .idle (List.replicate 30 2) ⟨Parser.new.init .head, []⟩ exHead).rest = b!"rest" :=
  ⟨.inl (by decide +kernel), .inr (.inl (by decide +kernel)), by decide +kernel, by decide +kernel, by decide +kernel⟩

/-- A new parser: nine bytes of a request that begins with `H` are enough. -/
example : let msg := b!"HEAD /a HTTP/1.1\r\n\r\nrest"
    Detectable' msg 9 ∧ Detectable' msg 100 ∧ (drive goOn .idle [9, 1, 2, 3, 50] ⟨.new, []⟩ msg).complete ∧
    (drive pauses .idle (List.replicate 11 100) ⟨.new, []⟩ msg).complete :=
  ⟨⟨by decide, .inl (by decide)⟩, ⟨by decide, .inl (by decide)⟩, by decide +kernel, by decide +kernel⟩

/-- The full C18 fails: cut after one byte, HEAD is parsed as the method EAD. -/
theorem C18_fails :
    let msg := b!"HEAD / HTTP/1.1\r\n\r\n"
    let w : World := ⟨Parser.new.init .head, []⟩
    (drive goOn .idle [100] w msg).world.log.head? = some (.method b!"HEAD") ∧
    (drive goOn .idle [1, 100] w msg).world.log.head? = some (.method b!"EAD") ∧
    (drive goOn .idle [100] w msg).last = .finished ∧
    (drive goOn .idle [1, 100] w msg).last = .finished := by decide +kernel

/-! ## C19 -/

/-- **C19 (partial).** Two client runs over the same chunked body come to the same end. Missing: when the body is rejected or the parser
panics, the data of the token in which that happens may be delivered in one run only, see
`C19_fails`. -/
theorem C19_chunked_slicing_partial (h1 h2 : Handler) (q : Parser) (l : List Ev) (msg : Bytes)
    (k1 k2 : Nat) (ks1 ks2 : List Nat)
    (c1 : (drive h1 .idle (k1 :: ks1) ⟨q.init .chunked, l⟩ msg).complete)
    (c2 : (drive h2 .idle (k2 :: ks2) ⟨q.init .chunked, l⟩ msg).complete) :
    Agree (drive h1 .idle (k1 :: ks1) ⟨q.init .chunked, l⟩ msg)
      (drive h2 .idle (k2 :: ks2) ⟨q.init .chunked, l⟩ msg) := by
  have H1 := start_chunked (q := q) (l := l) (s := msg.take k1) (fut := msg.drop k1)
  have H2 := start_chunked (q := q) (l := l) (s := msg.take k2) (fut := msg.drop k2)
  rw [List.take_append_drop] at H1 H2
  exact run_agree bdOK_none (clOK_of (by decide)) (clOK_of (by decide)) H1 H2 c1 c2

/-- Every schedule of non-empty slices that is long enough gives a complete run. -/
theorem C19_runs_complete (h : Handler) (q : Parser) (l : List Ev) (msg : Bytes) :
    ∃ N, ∀ k ks, (∀ x ∈ k :: ks, 0 < x) → N ≤ ks.length →
      (drive h .idle (k :: ks) ⟨q.init .chunked, l⟩ msg).complete := by
  refine ⟨msg.length + (startK ⟨.chunked, none, noCl⟩ ⟨q.init .chunked, l⟩ msg).1.length,
    fun k ks hk hl => ?_⟩
  have H1 := start_chunked (q := q) (l := l) (s := msg.take k) (fut := msg.drop k)
  rw [List.take_append_drop] at H1
  exact complete_gen bdOK_none (clOK_of (by decide)) ks k .idle _ msg H1 hk (by omega)

/-- A chunked body for the examples, with bytes after it. -/
def exChunked : Bytes := b!"B;ext=\"v\"\r\nhello world\r\n0\r\nTrailer: t\r\n\r\nrest"

example : (drive pauses .idle (List.replicate 20 100) ⟨Parser.new.init .chunked, []⟩ exChunked).complete ∧
    (drive goOn .idle (List.replicate 50 1) ⟨Parser.new.init .chunked, []⟩ exChunked).complete ∧
    (drive goOn .idle (List.replicate 50 1) ⟨Parser.new.init .chunked, []⟩ exChunked).rest = b!"rest" :=
  ⟨by decide +kernel, by decide +kernel, by decide +kernel⟩

/-- The full claim of C19 is false: the letters of a rejected extension name are
delivered when they come one by one, and not when they come together. -/
theorem C19_fails :
    let msg := b!"5;ab\x00"
    let w : World := ⟨Parser.new.init .chunked, []⟩
    (drive goOn .idle [100] w msg).complete ∧ (drive goOn .idle (List.replicate 100 1) w msg).complete ∧
    flat (drive goOn .idle [100] w msg).world.log ≠
      flat (drive goOn .idle (List.replicate 100 1) w msg).world.log := by decide +kernel

/-! ## C20 -/

/-- **C20 (partial).** Two client runs over the same URL-encoded body of declared length `n` come to the same
end. Missing: when the body is rejected or the parser
panics, the data of the token in which that happens may be delivered in one run only, see
`C20_fails`. -/
theorem C20_url_encoded_slicing_partial (h1 h2 : Handler) (q : Parser) (l : List Ev) (n : Nat) (msg : Bytes)
    (k1 k2 : Nat) (ks1 ks2 : List Nat)
    (c1 : (drive h1 .idle (k1 :: ks1) ⟨(q.init .urlEncoded).setLength n, l⟩ msg).complete)
    (c2 : (drive h2 .idle (k2 :: ks2) ⟨(q.init .urlEncoded).setLength n, l⟩ msg).complete) :
    Agree (drive h1 .idle (k1 :: ks1) ⟨(q.init .urlEncoded).setLength n, l⟩ msg)
      (drive h2 .idle (k2 :: ks2) ⟨(q.init .urlEncoded).setLength n, l⟩ msg) := by
  have H1 := start_url (q := q) (l := l) (n := n) (s := msg.take k1) (fut := msg.drop k1)
  have H2 := start_url (q := q) (l := l) (n := n) (s := msg.take k2) (fut := msg.drop k2)
  rw [List.take_append_drop] at H1 H2
  exact run_agree bdOK_none (clOK_of (by decide)) (clOK_of (by decide)) H1 H2 c1 c2

/-- Every schedule of non-empty slices that is long enough gives a complete run. -/
theorem C20_runs_complete (h : Handler) (q : Parser) (l : List Ev) (n : Nat) (msg : Bytes) :
    ∃ N, ∀ k ks, (∀ x ∈ k :: ks, 0 < x) → N ≤ ks.length →
      (drive h .idle (k :: ks) ⟨(q.init .urlEncoded).setLength n, l⟩ msg).complete := by
  refine ⟨msg.length + (startK ⟨.urlEncoded, none, noCl⟩ ⟨(q.init .urlEncoded).setLength n, l⟩ msg).1.length,
    fun k ks hk hl => ?_⟩
  have H1 := start_url (q := q) (l := l) (n := n) (s := msg.take k) (fut := msg.drop k)
  rw [List.take_append_drop] at H1
  exact complete_gen bdOK_none (clOK_of (by decide)) ks k .idle _ msg H1 hk (by omega)

/-- A URL-encoded body for the examples, with bytes after it. -/
def exUrl : Bytes := b!"a%20b=c+d&e;=f rest"

example : (drive pauses .idle (List.replicate 20 100) ⟨(Parser.new.init .urlEncoded).setLength 14, []⟩ exUrl).complete ∧
    (drive goOn .idle (List.replicate 50 1) ⟨(Parser.new.init .urlEncoded).setLength 14, []⟩ exUrl).complete ∧
    (drive goOn .idle (List.replicate 50 1) ⟨(Parser.new.init .urlEncoded).setLength 14, []⟩ exUrl).rest = b!" rest" :=
  ⟨by decide +kernel, by decide +kernel, by decide +kernel⟩

/-- The full claim of C20 is false: the letters of a rejected name are delivered when
they come one by one, and not when they come together. -/
theorem C20_fails :
    let msg := b!"ab\x00"
    let w : World := ⟨(Parser.new.init .urlEncoded).setLength 14, []⟩
    (drive goOn .idle [100] w msg).complete ∧ (drive goOn .idle (List.replicate 100 1) w msg).complete ∧
    flat (drive goOn .idle [100] w msg).world.log ≠
      flat (drive goOn .idle (List.replicate 100 1) w msg).world.log := by decide +kernel

/-! ## C21 -/

/-- The handlers tell the same content lengths of parts, and these depend only on the data that they
were given, not on how it was cut. -/
def SameLengths (h1 h2 : Handler) : Prop :=
  ∀ l l', flat l = flat l' → h1.contentLength l = h2.contentLength l'

theorem clOK_same {h1 h2 : Handler} {bd : Option Bytes} (hc : SameLengths h1 h2) :
    ClOK ⟨.multipart, bd, h1.contentLength⟩ h1 ∧ ClOK ⟨.multipart, bd, h1.contentLength⟩ h2 :=
  ⟨fun _ l => (hc l l rfl).trans (hc (flat l) l (flat_flat l)).symm, fun _ l => (hc (flat l) l (flat_flat l)).symm⟩

/-- **C21 (partial).** Two client runs over the same multipart body come to the same end. Missing: boundaries with CR,
for which it is false (`C21_cr_in_boundary`), or of 2^14 bytes or more; handlers whose part lengths depend on how data was
cut; the data of a token in which an error or panic occurs; and which byte is named when a boundary differs. -/
theorem C21_multipart_slicing_partial (h1 h2 : Handler) (hc : SameLengths h1 h2)
    (q : Parser) (l : List Ev) (bd : Bytes) (hb : bd.length < 16384) (hb' : c! '\r' ∉ bd)
    (msg : Bytes) (k1 k2 : Nat) (ks1 ks2 : List Nat)
    (c1 : (drive h1 .idle (k1 :: ks1) ⟨(q.init .multipart).setBoundary bd, l⟩ msg).complete)
    (c2 : (drive h2 .idle (k2 :: ks2) ⟨(q.init .multipart).setBoundary bd, l⟩ msg).complete) :
    Agree (drive h1 .idle (k1 :: ks1) ⟨(q.init .multipart).setBoundary bd, l⟩ msg)
      (drive h2 .idle (k2 :: ks2) ⟨(q.init .multipart).setBoundary bd, l⟩ msg) := by
  have H1 := start_multipart (q := q) (l := l) (bd := bd) (cl := h1.contentLength)
    (s := msg.take k1) (fut := msg.drop k1)
  have H2 := start_multipart (q := q) (l := l) (bd := bd) (cl := h1.contentLength)
    (s := msg.take k2) (fut := msg.drop k2)
  rw [List.take_append_drop] at H1 H2
  have hB : BdOK ⟨.multipart, some bd, h1.contentLength⟩ := by
    intro b hb2; cases hb2; exact ⟨hb, hb'⟩
  exact run_agree hB (clOK_same hc).1 (clOK_same hc).2 H1 H2 c1 c2

/-- Every schedule of non-empty slices that is long enough gives a complete run. -/
theorem C21_runs_complete (h : Handler) (hc : SameLengths h h) (q : Parser) (l : List Ev) (bd : Bytes)
    (hb : bd.length < 16384) (hb' : c! '\r' ∉ bd) (msg : Bytes) :
    ∃ N, ∀ k ks, (∀ x ∈ k :: ks, 0 < x) → N ≤ ks.length →
      (drive h .idle (k :: ks) ⟨(q.init .multipart).setBoundary bd, l⟩ msg).complete := by
  refine ⟨msg.length + (startK ⟨.multipart, some bd, h.contentLength⟩
    ⟨(q.init .multipart).setBoundary bd, l⟩ msg).1.length, fun k ks hk hl => ?_⟩
  have H1 := start_multipart (q := q) (l := l) (bd := bd) (cl := h.contentLength)
    (s := msg.take k) (fut := msg.drop k)
  rw [List.take_append_drop] at H1
  have hB : BdOK ⟨.multipart, some bd, h.contentLength⟩ := by
    intro b hb2; cases hb2; exact ⟨hb, hb'⟩
  exact complete_gen hB (clOK_same hc).1 ks k .idle _ msg H1 hk (by omega)

/-- A multipart body for the examples, with bytes after it. -/
def exMultipart : Bytes :=
  b!"--XyZ\r\nA: b\r\n\r\nda\r\n--Xta\r\n--XyZ\r\n\r\nmore\r\n--XyZ--\r\nrest"

example : SameLengths goOn pauses ∧ (b!"XyZ").length < 16384 ∧ c! '\r' ∉ b!"XyZ" ∧
    (drive pauses .idle (List.replicate 30 100) ⟨(Parser.new.init .multipart).setBoundary b!"XyZ", []⟩ exMultipart).complete ∧
    (drive goOn .idle (List.replicate 70 1) ⟨(Parser.new.init .multipart).setBoundary b!"XyZ", []⟩ exMultipart).complete ∧
    (drive goOn .idle (List.replicate 70 1) ⟨(Parser.new.init .multipart).setBoundary b!"XyZ", []⟩ exMultipart).rest = b!"\r\nrest" :=
  ⟨fun _ _ _ => rfl, by decide, by decide, by decide +kernel, by decide +kernel, by decide +kernel⟩

/-- The condition on the boundary is needed: with CR in the boundary the result depends on the
slices. -/
theorem C21_cr_in_boundary :
    let msg := b!"--X\rZ\r\na: b\r\n\r\nxx\r\n--X\r\n--X\rZ--\r\n"
    let w : World := ⟨(Parser.new.init .multipart).setBoundary b!"X\rZ", []⟩
    (drive goOn .idle [100] w msg).complete ∧ (drive goOn .idle (List.replicate 100 1) w msg).complete ∧
    ¬ ((drive goOn .idle [100] w msg).last = (drive goOn .idle (List.replicate 100 1) w msg).last ∧
      flat (drive goOn .idle [100] w msg).world.log =
        flat (drive goOn .idle (List.replicate 100 1) w msg).world.log) := by decide +kernel

/-! ## C31 -/

/-- **C31 (partial).** When a head is passed byte by byte, no fast path can be taken (all of them look
at two or more bytes at once). A run with slices of any size comes to the same end. Missing: messages
that start with `H` but not with `HTTP/`. -/
theorem C31_head_fast_paths_partial (h1 h2 : Handler) (q : Parser) (l : List Ev) (msg : Bytes)
    (k1 : Nat) (ks1 : List Nat) (n : Nat)
    (d : (msg.dropWhile isBlank).head? ≠ some (c! 'H') ∨ b!"HTTP/" <+: msg.dropWhile isBlank ∨
      msg.dropWhile isBlank <+: b!"HTTP/")
    (c1 : (drive h1 .idle (k1 :: ks1) ⟨q.init .head, l⟩ msg).complete)
    (c2 : (drive h2 .idle (List.replicate (n + 1) 1) ⟨q.init .head, l⟩ msg).complete) :
    Agree (drive h1 .idle (k1 :: ks1) ⟨q.init .head, l⟩ msg)
      (drive h2 .idle (List.replicate (n + 1) 1) ⟨q.init .head, l⟩ msg) :=
  C18_head_slicing_partial h1 h2 q l msg k1 1 ks1 (List.replicate n 1) (.inr d) (.inr d) c1 c2

/-- **C31.** The same for the trailers of a chunked body. -/
theorem C31_trailer_fast_paths (h1 h2 : Handler) (q : Parser) (l : List Ev) (msg : Bytes)
    (k1 : Nat) (ks1 : List Nat) (n : Nat)
    (c1 : (drive h1 .idle (k1 :: ks1) ⟨q.init .chunked, l⟩ msg).complete)
    (c2 : (drive h2 .idle (List.replicate (n + 1) 1) ⟨q.init .chunked, l⟩ msg).complete) :
    Agree (drive h1 .idle (k1 :: ks1) ⟨q.init .chunked, l⟩ msg)
      (drive h2 .idle (List.replicate (n + 1) 1) ⟨q.init .chunked, l⟩ msg) :=
  C19_chunked_slicing_partial h1 h2 q l msg k1 1 ks1 (List.replicate n 1) c1 c2

/-- A head with known method, version and header names, where all fast paths are taken in the first
run. -/
example :
    let msg := b!"GET / HTTP/1.1\r\nAccept-Encoding: gzip\r\nContent-Length: 5\r\n\r\n"
    let w : World := ⟨Parser.new.init .head, []⟩
    (drive goOn .idle [100] w msg).complete ∧ (drive goOn .idle (List.replicate 100 1) w msg).complete ∧
    (drive goOn .idle [100] w msg).world.log ≠ (drive goOn .idle (List.replicate 100 1) w msg).world.log :=
  ⟨by decide +kernel, by decide +kernel, by decide +kernel⟩

/-- Trailers with known names. -/
example :
    let msg := b!"0\r\nAccept-Encoding: gzip\r\nContent-Length: 5\r\n\r\n"
    let w : World := ⟨Parser.new.init .chunked, []⟩
    (drive goOn .idle [100] w msg).complete ∧ (drive goOn .idle (List.replicate 100 1) w msg).complete ∧
    (drive goOn .idle [100] w msg).world.log ≠ (drive goOn .idle (List.replicate 100 1) w msg).world.log :=
  ⟨by decide +kernel, by decide +kernel, by decide +kernel⟩

end Verif.Http1
