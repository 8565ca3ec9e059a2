import Verif.Http1.RunsReadBody
import Verif.Props.Http1Detect
import Verif.Props.Http1AcceptMultipart

/-!
# What any byte string means

C74 (heads), C75 (chunked bodies), C76 (URL-encoded bodies), C77 (multipart bodies): for every byte string, every
handler and every way of cutting and pausing, the callbacks and the end of a complete run are those of the
recursive-descent description in `Verif.Http1.ReadSpec`. `drive h .idle ks w msg` is the run of a client over
`msg` with slices of the lengths `ks`.
-/

namespace Verif.Http1

instance (msg : Bytes) (ks : List Nat) : Decidable (Short msg ks) := by
  unfold Short HWord; infer_instance

/-! ## Helper lemmas -/

/-- Nothing is lost of a word that has nothing in common with `HTTP/`. -/
theorem start_blank {b : UInt8} (hb : lead b = true) (lossy : Bool) (r : Bytes) :
    Read.start lossy (b :: r) = Read.start false (b :: r) := by
  have : b ≠ c! 'H' := by rintro rfl; exact absurd hb (by decide)
  cases lossy
  · rfl
  · simp [Read.start, Read.common, this]

/-- The end of a run is the end of the tale. -/
theorem ends_as {l : List Ev} {t : Read.Tale} {o : Outcome} (H : Read.Follows l t o) :
    (o.last = .panic ↔ t.ending = .crash) ∧ (o.last = .eos ↔ t.ending = .more) ∧
      (o.last = .finished ↔ ∃ r, t.ending = .done r) := by
  unfold Read.Follows at H
  split at H <;> simp_all
  obtain ⟨⟨b, hb⟩, _⟩ := H
  simp [hb]

theorem fields_safe {stop : Read.Tale} (hs : stop.ending ≠ .crash) (rest : Bytes) :
    ∀ (r : Bytes) (val : Bool), (Read.fields stop rest val r).ending ≠ .crash
  | [], val => by unfold Read.fields; exact hs
  | [b], val => by
    unfold Read.fields
    split_ifs <;> simp [Read.say, Read.wrong, Read.fields, hs]
  | [b, a], val => by
    have h1 := fields_safe hs rest [a]
    unfold Read.fields
    dsimp only
    split_ifs <;> simp [Read.say, Read.wrong, h1, hs]
  | b :: a :: c :: s, val => by
    have h1 := fields_safe hs rest (a :: c :: s)
    have h2 := fields_safe hs rest s
    unfold Read.fields
    dsimp only
    split_ifs
    · split <;> simp [Read.say, Read.wrong, h2]
    all_goals simp [Read.say, Read.wrong, h1]

theorem form_safe (n : Nat) (msg : Bytes) : (Read.form n msg).ending ≠ .crash := by
  unfold Read.form
  refine fields_safe ?_ _ _ _
  split_ifs <;> simp [Read.say, Read.done, Read.more]

/-! ## C74 -/

/-- **C74.** A complete run over any byte string by a parser at the start of a head does what the description of
heads says.
Missing: after an error, data of the token in which it occurred need not have been delivered (`Read.Follows`). -/
theorem C74_heads_partial (h : Handler) (p : Parser) (l : List Ev) (msg : Bytes) (ks : List Nat) (hp : Begins p msg ks)
    (hc : (drive h .idle ks ⟨p, l⟩ msg).complete) :
    Read.Follows l (Read.head (decide (Short msg ks)) msg) (drive h .idle ks ⟨p, l⟩ msg) := by
  obtain ⟨H1, H2⟩ := begins_exact h hp hc
  by_cases hs : Short msg ks
  · have H := H1 hs
    obtain ⟨⟨a, b, c⟩, _⟩ := id hs
    have e : msg.dropWhile lead = c! 'H' :: (msg.dropWhile lead).tail := by
      revert a; cases msg.dropWhile lead <;> simp
    rw [is_lossy rfl _ _ (by rw [← e]; exact b) (by rw [← e]; exact c), ← e] at H
    rw [decide_eq_true hs]
    exact follows_of_sim H hc
  · have H := H2 hs
    rw [is_head rfl] at H
    rw [decide_eq_false hs]
    exact follows_of_sim H hc

/-- **C74.** A parser made with `new` does not skip blanks: a run whose first slice is not empty does what the
description of heads says, but nothing is skipped.
Missing: as for `C74_heads_partial`. -/
theorem C74_new_partial (h : Handler) (l : List Ev) (msg : Bytes) (k : Nat) (ks : List Nat) (hk : msg.take k ≠ [])
    (hc : (drive h .idle (k :: ks) ⟨.new, l⟩ msg).complete) :
    Read.Follows l (Read.start (decide (Short msg (k :: ks))) msg) (drive h .idle (k :: ks) ⟨.new, l⟩ msg) := by
  cases msg with
  | nil => simp at hk
  | cons b r =>
    have hb : ((b :: r).take k).head? = some b := by cases k <;> simp_all
    by_cases hl : lead b = true
    · rw [start_blank hl]
      have hn : b ≠ c! 'H' := by rintro rfl; exact absurd hl (by decide)
      have H := start_new (l := l) (s := (b :: r).take k) (fut := (b :: r).drop k)
        (by
          refine ⟨.inl (.inl ?_), fun _ => hk⟩
          rw [List.take_append_drop]
          simpa using hn)
      rw [List.take_append_drop] at H
      have H := run_sim (h := h) bdOK_none (clOK_of (by decide)) k ks H
      rw [show startK ⟨.head, none, noCl⟩ ⟨.new, l⟩ (b :: r) = pred headEnv (flat l) .detect1 (b :: r) from rfl,
        is_start rfl] at H
      exact follows_of_sim H hc
    · have := C74_heads_partial h .new l (b :: r) (k :: ks) (.inr ⟨rfl, k, b, rfl, hb, by simpa using hl⟩) hc
      rwa [Read.head, show (b :: r).dropWhile lead = b :: r by simp [List.dropWhile, hl]] at this

/-- **C74.** A run over a head panics exactly when the description says so. -/
theorem C74_panics_exactly (h : Handler) (p : Parser) (l : List Ev) (msg : Bytes) (ks : List Nat)
    (hp : Begins p msg ks) (hc : (drive h .idle ks ⟨p, l⟩ msg).complete) :
    (drive h .idle ks ⟨p, l⟩ msg).last = .panic ↔ (Read.head (decide (Short msg ks)) msg).ending = .crash :=
  (ends_as (C74_heads_partial h p l msg ks hp hc)).1

/-- A folded header field after a response line; the bytes after the head are left over. -/
example : Begins ((Parser.new).init .head) b!" HTTP/1.1 200 OK\r\nA: b\r\n c\r\n\r\nrest" (List.replicate 60 1) ∧
    (drive pauses .idle (List.replicate 90 1) ⟨(Parser.new).init .head, []⟩
      b!" HTTP/1.1 200 OK\r\nA: b\r\n c\r\n\r\nrest").complete ∧
    ¬ Short b!" HTTP/1.1 200 OK\r\nA: b\r\n c\r\n\r\nrest" (List.replicate 90 1) ∧
    Read.head false b!" HTTP/1.1 200 OK\r\nA: b\r\n c\r\n\r\nrest" =
      ⟨[.version 1 1, .statusCode 200, .status b!"OK", .initialFinished, .headerName b!"a", .headerValue b!"b",
        .headerValue b!"c", .headersFinished], .done b!"rest"⟩ :=
  ⟨.inl ⟨_, rfl⟩, by decide +kernel, by decide +kernel, by decide +kernel⟩

/-- Byte 255 in a header value is a panic; in the first line it is an error. -/
example : Read.head false (b!"GET / HTTP/1.1\r\nA: b" ++ [255]) =
      ⟨[.method b!"GET", .url b!"/", .version 1 1, .initialFinished, .headerName b!"a", .headerValue b!"b"], .crash⟩ ∧
    Read.head false (b!"GET /" ++ 255 :: b!" HTTP/1.1\r\n") =
      ⟨[.method b!"GET", .url b!"/"], .wrong (.url 255) b!" HTTP/1.1\r\n"⟩ := by decide +kernel

/-- A word in `H` that comes byte by byte: its start is lost. A number of four digits is an error. -/
example : Short b!"HEAD / HTTP/1.0123" [1, 1, 1] ∧
    Read.head true b!"HEAD / HTTP/1.0123" =
      ⟨[.method b!"EAD", .url b!"/"], .wrong (.version (c! '3')) []⟩ ∧
    (drive goOn .idle (List.replicate 20 1) ⟨(Parser.new).init .head, []⟩ b!"HEAD / HTTP/1.0123").complete := by
  decide +kernel

/-- A new parser takes a blank for the method. -/
example : Read.start false b!"\r\nGET / HTTP/1.1\r\n\r\n" =
    ⟨[], .wrong (.method (c! '\r')) b!"\nGET / HTTP/1.1\r\n\r\n"⟩ ∧
    (drive goOn .idle [9] ⟨.new, []⟩ b!"\r\nGET / HTTP/1.1\r\n\r\n").complete := by decide +kernel

/-! ## C75 -/

/-- **C75.** A complete run over any byte string as a chunked body does what the description says.
Missing: as for `C74_heads_partial`. -/
theorem C75_chunked_partial (h : Handler) (q : Parser) (l : List Ev) (msg : Bytes) (ks : List Nat)
    (hc : (drive h .idle ks ⟨q.init .chunked, l⟩ msg).complete) :
    Read.Follows l (Read.chunked msg) (drive h .idle ks ⟨q.init .chunked, l⟩ msg) := by
  cases ks with
  | nil => exact absurd hc (by simp [drive, Outcome.complete])
  | cons k ks =>
    have H := chunked_sim h q l k ks msg
    generalize Inv chunkEnv (pred chunkEnv (flat l) .size1 msg) = I at H
    rw [is_chunked rfl] at H
    exact follows_of_sim H hc

/-- **C75.** A run over a chunked body panics exactly when the description says so. -/
theorem C75_panics_exactly (h : Handler) (q : Parser) (l : List Ev) (msg : Bytes) (ks : List Nat)
    (hc : (drive h .idle ks ⟨q.init .chunked, l⟩ msg).complete) :
    (drive h .idle ks ⟨q.init .chunked, l⟩ msg).last = .panic ↔ (Read.chunked msg).ending = .crash :=
  (ends_as (C75_chunked_partial h q l msg ks hc)).1

/-- A chunk with an extension, the last chunk, and a trailer. -/
example : Read.chunked b!"a;n=\"v\"\r\n0123456789\r\n0\r\nT: x\r\n\r\nmore" =
      ⟨[.chunkBegin, .chunkLength 10, .chunkExtensionName b!"n", .chunkExtensionValue b!"v", .chunkExtensionFinished,
        .chunkExtensionsFinished, .chunkData b!"0123456789", .chunkBegin, .chunkLength 0, .headerName b!"t",
        .headerValue b!"x", .headersFinished, .bodyFinished], .done b!"more"⟩ ∧
    (drive pauses .idle (List.replicate 70 2) ⟨(Parser.new).init .chunked, []⟩
      b!"a;n=\"v\"\r\n0123456789\r\n0\r\nT: x\r\n\r\nmore").complete := by decide +kernel

/-- A chunk that is longer than announced is an error; a size with a leading zero is an error; byte 255 after an
extension name is a panic. -/
example : Read.chunked b!"2\r\nabc\r\n" =
      ⟨[.chunkBegin, .chunkLength 2, .chunkExtensionsFinished, .chunkData b!"ab"], .wrong (.crlfSequence (c! 'c')) b!"\r\n"⟩ ∧
    Read.chunked b!"02\r\nab\r\n" = ⟨[.chunkBegin], .wrong (.chunkLength (c! '2')) b!"\r\nab\r\n"⟩ ∧
    Read.chunked (b!"2;a" ++ 255 :: b!"\r\n") =
      ⟨[.chunkBegin, .chunkLength 2, .chunkExtensionName b!"a"], .crash⟩ := by decide +kernel

/-! ## C76 -/

/-- **C76.** A complete run over any byte string as a URL-encoded body of any declared length does what the
description says.
Missing: as for `C74_heads_partial`. -/
theorem C76_url_partial (h : Handler) (q : Parser) (l : List Ev) (n : Nat) (msg : Bytes) (ks : List Nat)
    (hc : (urlRun h q l n ks msg).complete) :
    Read.Follows l (Read.form n msg) (urlRun h q l n ks msg) := by
  cases ks with
  | nil => exact absurd hc (by simp [urlRun, drive, Outcome.complete])
  | cons k ks =>
    obtain ⟨I, H⟩ := url_sim h q l n k ks msg
    rw [is_form] at H
    exact follows_of_sim H hc

/-- **C76.** Reading a URL-encoded body never panics. -/
theorem C76_never_panics (h : Handler) (q : Parser) (l : List Ev) (n : Nat) (msg : Bytes) (ks : List Nat)
    (hc : (urlRun h q l n ks msg).complete) : (urlRun h q l n ks msg).last ≠ .panic := by
  rw [Ne, (ends_as (C76_url_partial h q l n msg ks hc)).1]
  exact form_safe n msg

/-- Two fields with escapes; a broken escape; an escape that is cut by the end of the body. -/
example : Read.form 9 b!"a=%41+&b=more" =
      ⟨[.urlEncodedBegin, .urlEncodedName b!"a", .urlEncodedValue b!"A", .urlEncodedValue b!" ", .urlEncodedBegin,
        .urlEncodedName b!"b", .bodyFinished], .done b!"more"⟩ := by decide +kernel

example : Read.form 9 b!"a%4x=1&b=more" = ⟨[.urlEncodedBegin, .urlEncodedName b!"a"],
      .wrong (.urlEncodedName (c! 'x')) b!"=1&b=more"⟩ ∧
    Read.form 3 b!"a%41" = ⟨[.urlEncodedBegin, .urlEncodedName b!"a", .bodyFinished], .done b!"1"⟩ ∧
    (urlRun pauses Parser.new [] 3 (List.replicate 9 1) b!"a%41").complete := by decide +kernel

/-! ## C77 -/

/-- **C77 (partial).** Missing: where a boundary differs, the byte that is named may be any one up to the first differing
one, not only a differing one. A complete run over any byte string as a multipart body, with a boundary shorter than 2^14 and without
CR, does what the description says, with the lengths that the handler has told. -/
theorem C77_multipart_partial (h : Handler) (q : Parser) (l : List Ev) (bd : Bytes) (hb : bd.length < 16384)
    (hb' : c! '\r' ∉ bd) (msg : Bytes) (ks : List Nat) (hc : (mpRun h q l bd ks msg).complete) :
    ∃ cl, Tells h l (mpRun h q l bd ks msg).world.log cl ∧
      Read.Follows l (Read.multipart cl bd msg) (mpRun h q l bd ks msg) := by
  cases ks with
  | nil => exact absurd hc (by simp [mpRun, drive, Outcome.complete])
  | cons k ks =>
    obtain ⟨cl, cl', h1, h2, _, H⟩ := multipart_sim h q l bd hb hb' k ks msg
    refine ⟨cl, h1, ?_⟩
    generalize Inv (mpEnv cl' bd) (pred (mpEnv cl' bd) (flat l) (.hyphen1 true) msg) = I at H
    rw [is_multipart (cl := cl) rfl rfl (fun es => (h2 _).symm)] at H
    exact follows_of_sim H hc

/-- Two parts of unknown length, with bytes that look like a delimiter; a part of known length; a boundary that
differs. -/
example : Read.multipart (fun _ => none) b!"XY" b!"--XY\r\nA: b\r\n\r\n1\r\n--XZ\r\n--XY\r\n\r\n\r\n--XY--more" =
      ⟨[.multipartBegin, .headerName b!"a", .headerValue b!"b", .headersFinished, .multipartData b!"1",
        .multipartData b!"\r\n--X", .multipartData b!"Z", .multipartBegin, .headersFinished, .bodyFinished],
        .done b!"more"⟩ ∧
    Read.multipart (fun _ => some 3) b!"XY" b!"--XY\r\n\r\n123\r\n--XZ" =
      ⟨[.multipartBegin, .headersFinished, .multipartData b!"123"], .boundary []⟩ ∧
    (mpRun pauses Parser.new [] b!"XY" (List.replicate 90 2)
      b!"--XY\r\nA: b\r\n\r\n1\r\n--XZ\r\n--XY\r\n\r\n\r\n--XY--more").complete := by decide +kernel

end Verif.Http1
