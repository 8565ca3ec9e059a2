import Verif.Http1.HeadProgramRun
import Verif.Props.Http1RoundTrip

/-!
# C85: the documented program that reads a head

The program of examples/http1_head_parsing.md, on every head, however it is cut into slices.
-/

namespace Verif.Http1

open Util (UTF8)

/-- **C85 (partial), requests.** The documented handler, driven over any well-formed request head in slices of any
sizes: it either panics, because the value of some header field is not UTF-8, or ends up with the method, the URL, the
version and the header fields of the request as written, a name given several times with its last value. Missing: the
heads of C25; a peer can make the program panic, see `C85_fails`. -/
theorem C85_request_partial (p : Parser) (x : Request) (hx : x.OK) (rest : Bytes) (k : Nat) (ks : List Nat)
    (hr : Ready p (x.write ++ rest) k) (hc : (drive goOn .idle (k :: ks) ⟨p, []⟩ (x.write ++ rest)).complete) :
    match Doc.Handler.new.onAll (drive goOn .idle (k :: ks) ⟨p, []⟩ (x.write ++ rest)).world.log with
    | none => ∃ y ∈ x.headers, ¬ UTF8 y.text
    | some s =>
      (∀ y ∈ x.headers, UTF8 y.text) ∧ s.isRequest = true ∧ s.initialFinished = true ∧ s.headersFinished = true ∧
      s.method = x.method ∧ s.url = x.url ∧ s.versionMajor = decVal x.major ∧ s.versionMinor = decVal x.minor ∧
      s.status = [] ∧ s.statusCode = 0 ∧ ∀ n, s.headers.get n = lastText x.headers n := by
  obtain ⟨h1, -, h3⟩ := C25_request_round_trip_partial goOn p [] x hx rest k ks hr hc
  have hd := drive_data (h := goOn) (k :: ks) .idle ⟨p, []⟩ (x.write ++ rest) (by simp) h1
  have hx2 : ∀ e ∈ x.events, flatEv e ≠ [] := by
    intro e he
    simp only [Request.events, List.mem_append, List.mem_cons, List.not_mem_nil, or_false] at he
    rcases he with ((rfl | rfl | rfl | rfl) | he) | rfl
    · simpa [flatEv] using hx.method.1
    · simpa [flatEv] using hx.url.1
    · simp [flatEv]
    · simp [flatEv]
    · exact Doc.headers_data hx.headers e he
    · simp [flatEv]
  rw [← Doc.onAll_flat _ _ hd, h3, List.nil_append, Doc.onAll_flat _ _ hx2, Request.events, List.append_assoc,
    Doc.onAll_append]
  simp only [Doc.Handler.onAll, Doc.Handler.on, Option.bind_some]
  rw [Doc.on_headers _ _ hx.headers (fun _ => ⟨rfl, rfl⟩)]
  by_cases ha : ∀ y ∈ x.headers, UTF8 y.text
  · simp only [Doc.Handler.new, Doc.Handler.flush, List.length_nil, gt_iff_lt, lt_irrefl, and_self, if_false,
      Option.bind_some, if_pos ha, List.nil_append, Doc.Handler.isRequest]
    refine ⟨ha, by simpa using List.length_pos_iff.2 hx.method.1, by trivial, by trivial, by trivial, by trivial, by trivial, by trivial, by trivial, by trivial, fun n => ?_⟩
    rw [Doc.get_store]
    cases lastText x.headers n <;> rfl
  · simp only [Doc.Handler.new, Doc.Handler.flush, List.length_nil, gt_iff_lt, lt_irrefl, and_self, if_false,
      Option.bind_some, if_neg ha]
    push Not at ha
    exact ha

/-- The request of C25, in slices of three, five and one hundred bytes. -/
example : Ready .new (exRequest.write ++ b!"body") 3 ∧
    (drive goOn .idle [3, 5, 100] ⟨.new, []⟩ (exRequest.write ++ b!"body")).complete ∧
    ∃ s, Doc.Handler.new.onAll (drive goOn .idle [3, 5, 100] ⟨.new, []⟩ (exRequest.write ++ b!"body")).world.log = some s ∧
      s.method = b!"POST" ∧ s.headers.get b!"host" = some b!"x" ∧ s.headers.get b!"x-y" = some b!"a \"q\\\"\" bmore" :=
  ⟨.inr ⟨rfl, by decide +kernel, .inr (.inl (by decide +kernel))⟩, by decide +kernel,
    (Doc.Handler.new.onAll (drive goOn .idle [3, 5, 100] ⟨.new, []⟩ (exRequest.write ++ b!"body")).world.log).getD .new,
    by decide +kernel, by decide +kernel, by decide +kernel, by decide +kernel⟩

/-- **C85 (partial), responses.** The same for well-formed response heads. Missing: the heads of C26. -/
theorem C85_response_partial (p : Parser) (x : Response) (hx : x.OK) (rest : Bytes) (k : Nat) (ks : List Nat)
    (hp : (∃ q : Parser, p = q.init .head) ∨ p = .new ∧ 0 < k)
    (hc : (drive goOn .idle (k :: ks) ⟨p, []⟩ (x.write ++ rest)).complete) :
    match Doc.Handler.new.onAll (drive goOn .idle (k :: ks) ⟨p, []⟩ (x.write ++ rest)).world.log with
    | none => ∃ y ∈ x.headers, ¬ UTF8 y.text
    | some s =>
      (∀ y ∈ x.headers, UTF8 y.text) ∧ s.isRequest = false ∧ s.initialFinished = true ∧ s.headersFinished = true ∧
      s.versionMajor = decVal x.major ∧ s.versionMinor = decVal x.minor ∧ s.status = x.reason ∧
      s.statusCode = decVal x.code ∧ s.method = [] ∧ s.url = [] ∧ ∀ n, s.headers.get n = lastText x.headers n := by
  obtain ⟨h1, -, h3⟩ := C26_response_round_trip_partial goOn p [] x hx rest k ks hp hc
  have hd := drive_data (h := goOn) (k :: ks) .idle ⟨p, []⟩ (x.write ++ rest) (by simp) h1
  have hx2 : ∀ e ∈ x.events, flatEv e ≠ [] := by
    intro e he
    simp only [Response.events, List.mem_append, List.mem_cons, List.not_mem_nil, or_false] at he
    rcases he with ((rfl | rfl | rfl | rfl) | he) | rfl
    · simp [flatEv]
    · simp [flatEv]
    · simpa [flatEv] using hx.reason.1
    · simp [flatEv]
    · exact Doc.headers_data hx.headers e he
    · simp [flatEv]
  rw [← Doc.onAll_flat _ _ hd, h3, List.nil_append, Doc.onAll_flat _ _ hx2, Response.events, List.append_assoc,
    Doc.onAll_append]
  simp only [Doc.Handler.onAll, Doc.Handler.on, Option.bind_some]
  rw [Doc.on_headers _ _ hx.headers (fun _ => ⟨rfl, rfl⟩)]
  by_cases ha : ∀ y ∈ x.headers, UTF8 y.text
  · simp only [Doc.Handler.new, Doc.Handler.flush, List.length_nil, gt_iff_lt, lt_irrefl, and_self, if_false,
      Option.bind_some, if_pos ha, List.nil_append, Doc.Handler.isRequest]
    refine ⟨ha, by trivial, by trivial, by trivial, by trivial, by trivial, by trivial, by trivial, by trivial, by trivial, fun n => ?_⟩
    rw [Doc.get_store]
    cases lastText x.headers n <;> rfl
  · simp only [Doc.Handler.new, Doc.Handler.flush, List.length_nil, gt_iff_lt, lt_irrefl, and_self, if_false,
      Option.bind_some, if_neg ha]
    push Not at ha
    exact ha

/-- What the documented program has stored after these bytes in one slice. -/
def docRun (msg : Bytes) : Option Doc.Handler :=
  Doc.Handler.new.onAll (drive goOn .idle [msg.length] ⟨.new, []⟩ msg).world.log

/-- A response with a header field given twice. -/
example : ∃ s, docRun b!"HTTP/1.1 404 Not Found\r\nA: b\r\na: c\r\n\r\n" = some s ∧ s.statusCode = 404 ∧
    s.status = b!"Not Found" ∧ s.headers.get b!"a" = some b!"c" ∧ s.headers.get b!"b" = none :=
  ⟨(docRun b!"HTTP/1.1 404 Not Found\r\nA: b\r\na: c\r\n\r\n").getD .new, by decide +kernel⟩

/-- The program of the documentation with its assertions, examples/http1_head_parsing.md lines 208-257. -/
example : ∃ s, docRun (b!"GET /resource?query HTTP/1.1\r\nHost: github.com\r\nConnection: close\r\n" ++
      b!"Accept-Encoding: gzip, deflate, sdch, br\r\nAccept-Language: en-US,en;q=0.8\r\n\r\n") = some s ∧
    s.headersFinished = true ∧ s.initialFinished = true ∧ s.isRequest = true ∧ s.method = b!"GET" ∧
    s.url = b!"/resource?query" ∧ s.headers.get b!"host" = some b!"github.com" ∧
    s.headers.get b!"connection" = some b!"close" ∧
    s.headers.get b!"accept-encoding" = some b!"gzip, deflate, sdch, br" ∧
    s.headers.get b!"accept-language" = some b!"en-US,en;q=0.8" :=
  ⟨(docRun (b!"GET /resource?query HTTP/1.1\r\nHost: github.com\r\nConnection: close\r\n" ++
      b!"Accept-Encoding: gzip, deflate, sdch, br\r\nAccept-Language: en-US,en;q=0.8\r\n\r\n")).getD .new, by decide +kernel⟩

/-- The full C85 fails: a peer makes the documented program panic with a byte above 0x7F in a header value; and because
the parser accepts header fields without a name, a peer can extend the value of the header field before. -/
theorem C85_fails :
    docRun b!"GET / HTTP/1.1\r\nA: b\xE9\r\n\r\n" = none ∧
    (docRun b!"GET / HTTP/1.1\r\nA: b\r\n: c\r\n\r\n").map (fun s => s.headers.get b!"a") = some (some b!"bc") := by
  decide +kernel

end Verif.Http1
