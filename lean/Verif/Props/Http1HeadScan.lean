import Verif.Http1.HeadScan
import Verif.Props.Http1Accept

/-!
# C112: the start line and the header fields, as seen by others

`scanHead`, `splitLine`, `lfLine`, `trimEnd` and `NoTrailingBlanks` are defined in `Verif.Http1.HeadScanSpec` and
`Verif.Http1.FramingSpec`.
-/

namespace Verif.Http1

/-- **C112 (partial).** A program that takes the bytes of an accepted head apart at line ends, blanks and colons finds
the method, URL, version, status, names and values that were reported, and the same end of the head; whether or not it
takes a bare LF for a line end. Missing: programs that drop blanks at the end of values, see `C112_fails` and the next
theorem; and methods that start with `H` when fewer than nine bytes are passed first (part of `Ready`, see C18). -/
theorem C112_same_head_partial (h : Handler) (p : Parser) (l : List Ev) (msg : Bytes) (k : Nat) (ks : List Nat)
    (hr : Ready p msg k) (hc : (drive h .idle (k :: ks) ⟨p, l⟩ msg).last = .finished) :
    let o := drive h .idle (k :: ks) ⟨p, l⟩ msg
    ∃ es, scanHead splitLine id msg = some (es, o.rest) ∧ scanHead lfLine id msg = some (es, o.rest) ∧
      flat o.world.log = flat (l ++ es) := by
  intro o
  obtain ⟨bl, x, h1, -, h2, h3, h4⟩ := C50_only_heads_accepted_partial h p l msg k ks hr hc
  have hv : ∀ y ∈ x.lines, y.Kept id := fun y _ => by cases y <;> rfl
  refine ⟨x.events, ?_, ?_, h4⟩
  · rw [h3]; exact scan_head takes_crlf h1 h2 hv _
  · rw [h3]; exact scan_head takes_lf h1 h2 hv _

/-- **C112 (partial)**, for programs that follow the standard and drop blanks at the end of values: the same, if no line
of the head ends with a blank. -/
theorem C112_trimmed_partial (h : Handler) (p : Parser) (l : List Ev) (msg : Bytes) (k : Nat) (ks : List Nat)
    (hr : Ready p msg k) (hc : (drive h .idle (k :: ks) ⟨p, l⟩ msg).last = .finished) (hb : NoTrailingBlanks msg) :
    let o := drive h .idle (k :: ks) ⟨p, l⟩ msg
    ∃ es, scanHead splitLine trimEnd msg = some (es, o.rest) ∧ scanHead lfLine trimEnd msg = some (es, o.rest) ∧
      flat o.world.log = flat (l ++ es) := by
  intro o
  obtain ⟨bl, x, h1, -, h2, h3, h4⟩ := C50_only_heads_accepted_partial h p l msg k ks hr hc
  have hv : ∀ y ∈ x.lines, y.Kept trimEnd := by
    intro y hy
    refine kept_trim (h2.lines y hy) (hb (x.start.text :: x.lines.map Line.text) o.rest ?_ y.text ?_)
    · rw [h3, skip_lead_head h1 h2]
      exact lines_of_head takes_crlf h2 _
    · exact List.mem_cons_of_mem _ (List.mem_map_of_mem hy)
  refine ⟨x.events, ?_, ?_, h4⟩
  · rw [h3]; exact scan_head takes_crlf h1 h2 hv _
  · rw [h3]; exact scan_head takes_lf h1 h2 hv _

/-- A request with a folded line, cut into small slices by a client whose handler pauses; and a response. -/
example : let m := b!"\r\nGET /a:b HTTP/1.10\r\nHost: a:b\r\nX:\t c \r\n\td\r\n\r\nE: f\r\n\r\n"
    let o := drive pauses .idle (9 :: List.replicate 90 3) ⟨Parser.new.init .head, []⟩ m
    o.last = .finished ∧ o.rest = b!"E: f\r\n\r\n" ∧
    scanHead splitLine id m = some ([.method b!"GET", .url b!"/a:b", .version 1 10, .initialFinished,
      .headerName b!"host", .headerValue b!"a:b", .headerName b!"x", .headerValue b!"c ", .headerValue b!"d",
      .headersFinished], b!"E: f\r\n\r\n") := by
  refine ⟨?_, ?_, ?_⟩ <;> decide +kernel

example : Ready (Parser.new.init .head) b!"\r\nGET /a:b HTTP/1.10\r\nHost: a:b\r\nX:\t c \r\n\td\r\n\r\nE: f\r\n\r\n" 9 :=
  .inl ⟨⟨_, rfl⟩, .inr (.inl (by decide +kernel))⟩

example : let m := b!"HTTP/1.1 404 Not Found\r\nA: b  c\r\n\r\n"
    (drive goOn .idle [9, 9, 30] ⟨.new, []⟩ m).last = .finished ∧ Ready .new m 9 ∧ NoTrailingBlanks m ∧
    scanHead splitLine trimEnd m = some ([.version 1 1, .statusCode 404, .status b!"Not Found", .initialFinished,
      .headerName b!"a", .headerValue b!"b  c", .headersFinished], []) := by
  refine ⟨by decide +kernel, .inr ⟨rfl, by decide +kernel, by decide +kernel⟩, ?_, by decide +kernel⟩
  intro ls r e
  have e' : headLines splitLine 35 b!"HTTP/1.1 404 Not Found\r\nA: b  c\r\n\r\n" = some ([b!"HTTP/1.1 404 Not Found", b!"A: b  c"], []) := by decide +kernel
  replace e := e'.symm.trans e
  injection e with e
  injection e with e1 e2
  subst e1
  decide

/-- The full C112 fails: blanks at the end of a value are reported, others drop them. -/
theorem C112_fails : let m := b!"GET / HTTP/1.1\r\nTransfer-Encoding: chunked \r\n\r\n"
    let o := drive goOn .idle [100] ⟨.new, []⟩ m
    o.last = .finished ∧ Ev.headerValue b!"chunked " ∈ o.world.log ∧
    scanHead splitLine trimEnd m = some ([.method b!"GET", .url b!"/", .version 1 1, .initialFinished,
      .headerName b!"transfer-encoding", .headerValue b!"chunked", .headersFinished], []) := by
  refine ⟨?_, ?_, ?_⟩ <;> decide +kernel

end Verif.Http1
