import Verif.Http1.Cost
import Verif.Props.Http1Read

/-!
# A peer cannot make the parser do more than it pays for

C98: the handler never gets more bytes of data than the peer has sent, and hardly more callbacks. `drive h .idle ks w
msg` is the run of a client over `msg` with slices of the lengths `ks`; the run need not be complete, so that the
bounds hold at every moment of a connection. `Frugal` is defined in `Verif.Http1.CostSpec`.
-/

namespace Verif.Http1

/-- **C98.** Heads: at most one callback and one byte of data for each byte received, for every handler and every
way of cutting and pausing, after any number of calls. -/
theorem C98_heads (h : Handler) {st : Stage} (p : Parser) (hr : Reach anyBoundary st p) (l : List Ev) (msg : Bytes)
    (ks : List Nat) (hp : Begins p msg ks) : Frugal l msg.length 0 (drive h .idle ks ⟨p, l⟩ msg) := by
  have hf : st = .fresh → ∃ k, ks.head? = some k ∧ msg.take k ≠ [] := by
    rintro rfl
    rcases hp with ⟨q, rfl⟩ | ⟨_, k, b, h1, h2, _⟩
    · exact absurd ((reach_mode hr).2.2 rfl) (mode_reset _).2.1
    · exact ⟨k, h1, by rintro h0; simp [h0] at h2⟩
  refine frugal_of (w := ⟨p, l⟩) hr hf fun ks' hc => ?_
  have hp' : Begins p msg (ks ++ ks') := by
    rcases hp with ⟨q, rfl⟩ | ⟨rfl, k, b, h1, h2, h3⟩
    · exact .inl ⟨q, rfl⟩
    · exact .inr ⟨rfl, k, b, by simp [h1], h2, h3⟩
  exact ⟨_, C74_heads_partial h p l msg _ hp' hc, Read.g_head (by omega) _ _, Read.g_head (by omega) _ _⟩

/-- A run that is not complete: after 24 calls with one byte each, 8 bytes are handed over in 10 callbacks. -/
example : Begins ((Parser.new).init .head) b!"GET / HTTP/1.1\r\nAbc: d\r\n\r\n" (List.replicate 24 1) ∧
    (let o := drive goOn .idle (List.replicate 24 1) ⟨(Parser.new).init .head, []⟩ b!"GET / HTTP/1.1\r\nAbc: d\r\n\r\n"
     ¬ o.complete ∧ handed o.world.log = 8 ∧ o.world.log.length = 10 ∧ o.rest = b!"\r\n") :=
  ⟨.inl ⟨_, rfl⟩, by decide +kernel⟩

/-- **C98.** The same for a parser made with `new` whose first slice is not empty. -/
theorem C98_new (h : Handler) (l : List Ev) (msg : Bytes) (k : Nat) (ks : List Nat) (hk : msg.take k ≠ []) :
    Frugal l msg.length 0 (drive h .idle (k :: ks) ⟨.new, l⟩ msg) :=
  frugal_of (w := ⟨.new, l⟩) (st := .fresh) .new (fun _ => ⟨k, rfl, hk⟩) fun ks' hc =>
    ⟨_, C74_new_partial h l msg k (ks ++ ks') hk hc, Read.g_start (by omega) _ _, Read.g_start (by omega) _ _⟩

/-- Byte by byte: three callbacks with one byte each after four bytes. -/
example : b!"GET / HTTP/1.1\r\n".take 1 ≠ [] ∧
    (let o := drive goOn .idle [1, 1, 1, 1] ⟨.new, []⟩ b!"GET / HTTP/1.1\r\n"
     o.world.log = [.method b!"G", .method b!"E", .method b!"T"] ∧ handed o.world.log = 3) := by decide +kernel

/-- **C98.** Chunked bodies: one callback more, because the end of a line of a chunk is told before its last byte
comes. -/
theorem C98_chunked (h : Handler) {st : Stage} (q : Parser) (hq : Reach anyBoundary st q) (l : List Ev) (msg : Bytes)
    (ks : List Nat) : Frugal l msg.length 1 (drive h .idle ks ⟨q.init .chunked, l⟩ msg) :=
  frugal_of (w := ⟨q.init .chunked, l⟩) (hq.init .chunked) nofun fun ks' hc =>
    ⟨_, C75_chunked_partial h q l msg _ hc, Read.g_chunks (by omega) _ _, Read.g_chunks (by omega) _ _⟩

/-- Two bytes, three callbacks. -/
example : (drive goOn .idle [2] ⟨(Parser.new).init .chunked, []⟩ b!"5\r").world.log =
    [.chunkBegin, .chunkLength 5, .chunkExtensionsFinished] := by decide +kernel

/-- **C98.** URL-encoded bodies of any declared length: two callbacks more, for the start and for the end. -/
theorem C98_url (h : Handler) {st : Stage} (q : Parser) (hq : Reach anyBoundary st q) (l : List Ev) (n : Nat)
    (msg : Bytes) (ks : List Nat) : Frugal l msg.length 2 (urlRun h q l n ks msg) :=
  frugal_of (w := ⟨(q.init .urlEncoded).setLength n, l⟩) ((hq.init .urlEncoded).setLength n) nofun fun ks' hc =>
    ⟨_, C76_url_partial h q l n msg _ hc, Read.b_form (by omega) _ _, Read.b_form (by omega) _ _⟩

/-- One byte, three callbacks; the bytes after the body do not count. -/
example : let o := urlRun goOn Parser.new [] 1 [9] b!"amore"
    o.last = .finished ∧ o.world.log = [.urlEncodedBegin, .urlEncodedName b!"a", .bodyFinished] ∧
      o.rest = b!"more" := by decide +kernel

/-- **C98.** Multipart bodies, with a boundary shorter than 2^14 and without CR: at most one callback and one byte
of data for each byte received, although bytes that may be a boundary are read twice.
Missing: after a boundary error, the bytes left over are not counted off. -/
theorem C98_multipart_partial (h : Handler) {st : Stage} (q : Parser) (hq : Reach anyBoundary st q) (l : List Ev) (bd : Bytes)
    (hb : bd.length < 16384) (hb' : c! '\r' ∉ bd) (msg : Bytes) (ks : List Nat) :
    Frugal l msg.length 0 (mpRun h q l bd ks msg) :=
  frugal_of (w := ⟨(q.init .multipart).setBoundary bd, l⟩) ((hq.init .multipart).setBoundary bd trivial) nofun
    fun ks' hc => by
      obtain ⟨cl, _, hf⟩ := C77_multipart_partial h q l bd hb hb' msg _ hc
      exact ⟨_, hf, Read.g_multipart (by omega) _ _ _, Read.g_multipart (by omega) _ _ _⟩

/-- Bytes that are nearly a boundary are handed over once. -/
example : let o := mpRun goOn Parser.new [] b!"XY" (List.replicate 40 1) b!"--XY\r\n\r\n\r\n--XZ\r\n--XY--more"
    o.last = .finished ∧ handed o.world.log = 6 ∧ o.rest = b!"more" := by decide +kernel

end Verif.Http1
