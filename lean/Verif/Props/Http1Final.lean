import Verif.Http1.More
import Verif.Props.Http1Slicing

/-!
# What has been read is final

C82 (more bytes change nothing that was already reported), C83 (no accepted message continues
another one).
-/

namespace Verif.Http1

/-! ## C82 -/

/-- What a client sees of `msg ++ x`, in the outcome `o'`, when it has already seen all of `msg`, in
the outcome `o`:

* `msg` was finished or rejected: `msg ++ x` comes to the same end, and `x` stays unprocessed.
* `msg` was used up: everything that was reported is reported again, in the same order, before
  anything else. If the parser rejects what follows or panics over it, the data of the token in which that
  happened may be withheld. -/
def Continues (x : Bytes) (o o' : Outcome) : Prop :=
  match o.last with
  | .eos =>
    flat o.world.log <+: flat o'.world.log ∨
    ((∃ e, o'.last = .err e) ∨ o'.last = .panic) ∧
      ∃ d, isData d = true ∧ flat o.world.log <+: flat o'.world.log ++ flatEv d
  | _ => Agree { o with rest := o.rest ++ x } o'

theorem continues_of_sim {I I' : World → Bytes → Prop} {K K' : List Ev × Fin} {x : Bytes}
    {a b : Outcome} (hK : KMore x K K') (ha : DriveSim I K a) (hb : DriveSim I' K' b)
    (ca : a.complete) (cb : b.complete) : Continues x a b := by
  obtain ⟨la, wa, ra⟩ := a
  obtain ⟨lb, wb, rb⟩ := b
  cases la <;> simp only [Outcome.complete] at ca
  case eos =>
    simp only [DriveSim] at ha
    have ha := ha.2 ca
    subst ha
    have hK : flat wa.log <+: K'.1 := hK
    simp only [Continues]
    cases lb <;> simp only [Outcome.complete] at cb <;> simp only [DriveSim] at hb
    case eos => have hb := hb.2 cb; subst hb; exact .inl hK
    case finished => subst hb; exact .inl hK
    case err e =>
      rcases hb with ⟨d, hd, hb⟩ | ⟨⟨_, -, hb⟩, -⟩ <;> subst hb
      · exact .inr ⟨.inl ⟨e, rfl⟩, d, hd, hK⟩
      · exact .inl hK
    case panic =>
      obtain ⟨d, hd, hb⟩ := hb
      rw [hb] at hK
      exact .inr ⟨.inr rfl, d, hd, hK⟩
  case finished =>
    simp only [DriveSim] at ha
    subst ha
    have hK : K' = (flat wa.log, .finished (ra ++ x)) := hK
    subst hK
    exact agree_of_sim (I := I') (a := ⟨.finished, wa, ra ++ x⟩) rfl hb trivial cb
  case err e =>
    simp only [DriveSim] at ha
    rcases ha with ⟨d, hd, ha⟩ | ⟨⟨r, hr, ha⟩, hx⟩ <;> subst ha
    · have hK : K' = (flat wa.log ++ flatEv d, .err e (ra ++ x)) := hK
      subst hK
      exact agree_of_sim (I := I') (a := ⟨.err e, wa, ra ++ x⟩) (.inl ⟨d, hd, rfl⟩) hb trivial cb
    · have hK : K' = (flat wa.log, .errB (r ++ x)) := hK
      subst hK
      exact agree_of_sim (I := I') (a := ⟨.err e, wa, ra ++ x⟩) (.inr ⟨⟨_, hr.elim fun y hy => ⟨y, by rw [← hy, List.append_assoc]⟩, rfl⟩, hx⟩) hb trivial cb
  case panic =>
    simp only [DriveSim] at ha
    obtain ⟨d, hd, rfl⟩ := ha
    have hK : K' = (flat wa.log ++ flatEv d, .panic) := hK
    subst hK
    exact agree_of_sim (I := I') (a := ⟨.panic, wa, ra ++ x⟩) ⟨d, hd, rfl⟩ hb trivial cb

/-- **C82 (partial).** Heads. Missing: messages that start with `H` but not with `HTTP/`, when fewer
than nine bytes are passed first, see `C18_fails`. -/
theorem C82_head_partial (h1 h2 : Handler) (q : Parser) (l : List Ev) (msg x : Bytes)
    (k1 k2 : Nat) (ks1 ks2 : List Nat) (d1 : Detectable msg k1) (d2 : Detectable (msg ++ x) k2)
    (c1 : (drive h1 .idle (k1 :: ks1) ⟨q.init .head, l⟩ msg).complete)
    (c2 : (drive h2 .idle (k2 :: ks2) ⟨q.init .head, l⟩ (msg ++ x)).complete) :
    Continues x (drive h1 .idle (k1 :: ks1) ⟨q.init .head, l⟩ msg)
      (drive h2 .idle (k2 :: ks2) ⟨q.init .head, l⟩ (msg ++ x)) := by
  have H1 := start_head (q := q) (l := l) d1.hok
  have H2 := start_head (q := q) (l := l) d2.hok
  rw [List.take_append_drop] at H1 H2
  exact continues_of_sim (startK_more _ _ _ _) (run_sim bdOK_none (clOK_of (by decide)) _ _ H1)
    (run_sim bdOK_none (clOK_of (by decide)) _ _ H2) c1 c2

/-- **C82.** Chunked bodies. -/
theorem C82_chunked (h1 h2 : Handler) (q : Parser) (l : List Ev) (msg x : Bytes)
    (k1 k2 : Nat) (ks1 ks2 : List Nat)
    (c1 : (drive h1 .idle (k1 :: ks1) ⟨q.init .chunked, l⟩ msg).complete)
    (c2 : (drive h2 .idle (k2 :: ks2) ⟨q.init .chunked, l⟩ (msg ++ x)).complete) :
    Continues x (drive h1 .idle (k1 :: ks1) ⟨q.init .chunked, l⟩ msg)
      (drive h2 .idle (k2 :: ks2) ⟨q.init .chunked, l⟩ (msg ++ x)) := by
  have H1 := start_chunked (q := q) (l := l) (s := msg.take k1) (fut := msg.drop k1)
  have H2 := start_chunked (q := q) (l := l) (s := (msg ++ x).take k2) (fut := (msg ++ x).drop k2)
  rw [List.take_append_drop] at H1 H2
  exact continues_of_sim (startK_more _ _ _ _) (run_sim bdOK_none (clOK_of (by decide)) _ _ H1)
    (run_sim bdOK_none (clOK_of (by decide)) _ _ H2) c1 c2

/-- **C82.** URL-encoded bodies of declared length `n`. -/
theorem C82_url_encoded (h1 h2 : Handler) (q : Parser) (l : List Ev) (n : Nat) (msg x : Bytes)
    (k1 k2 : Nat) (ks1 ks2 : List Nat)
    (c1 : (drive h1 .idle (k1 :: ks1) ⟨(q.init .urlEncoded).setLength n, l⟩ msg).complete)
    (c2 : (drive h2 .idle (k2 :: ks2) ⟨(q.init .urlEncoded).setLength n, l⟩ (msg ++ x)).complete) :
    Continues x (drive h1 .idle (k1 :: ks1) ⟨(q.init .urlEncoded).setLength n, l⟩ msg)
      (drive h2 .idle (k2 :: ks2) ⟨(q.init .urlEncoded).setLength n, l⟩ (msg ++ x)) := by
  have H1 := start_url (q := q) (l := l) (n := n) (s := msg.take k1) (fut := msg.drop k1)
  have H2 := start_url (q := q) (l := l) (n := n) (s := (msg ++ x).take k2) (fut := (msg ++ x).drop k2)
  rw [List.take_append_drop] at H1 H2
  exact continues_of_sim (startK_more _ _ _ _) (run_sim bdOK_none (clOK_of (by decide)) _ _ H1)
    (run_sim bdOK_none (clOK_of (by decide)) _ _ H2) c1 c2

/-- **C82.** Multipart bodies. -/
theorem C82_multipart (h1 h2 : Handler) (hc : SameLengths h1 h2)
    (q : Parser) (l : List Ev) (bd : Bytes) (hb : bd.length < 16384) (hb' : c! '\r' ∉ bd)
    (msg x : Bytes) (k1 k2 : Nat) (ks1 ks2 : List Nat)
    (c1 : (drive h1 .idle (k1 :: ks1) ⟨(q.init .multipart).setBoundary bd, l⟩ msg).complete)
    (c2 : (drive h2 .idle (k2 :: ks2) ⟨(q.init .multipart).setBoundary bd, l⟩ (msg ++ x)).complete) :
    Continues x (drive h1 .idle (k1 :: ks1) ⟨(q.init .multipart).setBoundary bd, l⟩ msg)
      (drive h2 .idle (k2 :: ks2) ⟨(q.init .multipart).setBoundary bd, l⟩ (msg ++ x)) := by
  have H1 := start_multipart (q := q) (l := l) (bd := bd) (cl := h1.contentLength)
    (s := msg.take k1) (fut := msg.drop k1)
  have H2 := start_multipart (q := q) (l := l) (bd := bd) (cl := h1.contentLength)
    (s := (msg ++ x).take k2) (fut := (msg ++ x).drop k2)
  rw [List.take_append_drop] at H1 H2
  have hB : BdOK ⟨.multipart, some bd, h1.contentLength⟩ := by
    intro b hb2; cases hb2; exact ⟨hb, hb'⟩
  exact continues_of_sim (startK_more _ _ _ _) (run_sim hB (clOK_same hc).1 _ _ H1)
    (run_sim hB (clOK_same hc).2 _ _ H2) c1 c2

/-- A head of which the first 30 bytes were read, then all of it, then all of it and a second one. -/
example :
    let m := b!"\r\nGET /a HTTP/1.1\r\nHost: x\r\nAccept: \"y\"\r\n\r\n"
    let w : World := ⟨Parser.new.init .head, []⟩
    let o (k : Nat) (m : Bytes) := drive goOn .idle (List.replicate 50 k) w m
    Detectable (m.take 30) 2 ∧ Detectable m 3 ∧ Detectable (m ++ m) 3 ∧
    (o 2 (m.take 30)).last = .eos ∧ (o 3 m).last = .finished ∧ (o 3 m).rest = [] ∧
    (o 3 (m ++ m)).last = .finished ∧ (o 3 (m ++ m)).rest = m :=
  ⟨.inr (.inl (by decide +kernel)), .inr (.inl (by decide +kernel)), .inr (.inl (by decide +kernel)),
    by decide +kernel, by decide +kernel, by decide +kernel, by decide +kernel, by decide +kernel⟩

/-- A chunked body: used up, finished, and rejected with bytes left. -/
example :
    let m := b!"B;ext=\"v\"\r\nhello world\r\n0\r\nTrailer: t\r\n\r\n"
    let w : World := ⟨Parser.new.init .chunked, []⟩
    let o (k : Nat) (m : Bytes) := drive goOn .idle (List.replicate 50 k) w m
    (o 2 (m.take 15)).last = .eos ∧ (o 1 m).last = .finished ∧ (o 1 (m ++ b!"GET")).rest = b!"GET" ∧
    (o 9 b!"B?").last = .err (.chunkLength (c! '?')) ∧ (o 1 b!"B?ab").last = .err (.chunkLength (c! '?')) ∧
    (o 1 b!"B?ab").rest = b!"ab" :=
  ⟨by decide +kernel, by decide +kernel, by decide +kernel, by decide +kernel, by decide +kernel, by decide +kernel⟩

/-- A URL-encoded body of 9 bytes: used up after 5, finished after 9. -/
example :
    let w : World := ⟨(Parser.new.init .urlEncoded).setLength 9, []⟩
    let o (k : Nat) (m : Bytes) := drive goOn .idle (List.replicate 20 k) w m
    (o 2 b!"a=%41").last = .eos ∧ (o 1 b!"a=%41&b=crest").last = .finished ∧
    (o 1 b!"a=%41&b=crest").rest = b!"rest" ∧ (o 9 b!"a=%4z").last = .err (.urlEncodedValue (c! 'z')) ∧
    (o 1 b!"a=%4zab").rest = b!"ab" :=
  ⟨by decide +kernel, by decide +kernel, by decide +kernel, by decide +kernel, by decide +kernel⟩

/-- A multipart body: used up within a delimiter, then finished. -/
example :
    let m := b!"--XyZ\r\nA: b\r\n\r\nda\r\n--Xta\r\n--XyZ--"
    let w : World := ⟨(Parser.new.init .multipart).setBoundary b!"XyZ", []⟩
    let o (k : Nat) (m : Bytes) := drive goOn .idle (List.replicate 50 k) w m
    SameLengths goOn goOn ∧ (o 2 (m.take 24)).last = .eos ∧ (o 1 m).last = .finished ∧
    (o 3 (m ++ b!"\r\nrest")).rest = b!"\r\nrest" :=
  ⟨fun _ _ _ => rfl, by decide +kernel, by decide +kernel, by decide +kernel⟩

/-- The data of the token with the error may be withheld: the URL `/a` is reported when the slice
ends there, not when an error follows in the same slice. -/
theorem C82_withheld :
    let w : World := ⟨Parser.new.init .head, []⟩
    (drive goOn .idle [99] w b!"GET /a").world.log = [.method b!"GET", .url b!"/a"] ∧
    (drive goOn .idle [99] w b!"GET /a\t").world.log = [.method b!"GET"] ∧
    (drive goOn .idle [99] w b!"GET /a\t").last = .err (.url (c! '\t')) := by decide +kernel

/-! ## C83 -/

/-- The run finished its message at the last byte. -/
def Outcome.whole (o : Outcome) : Prop := o.last = .finished ∧ o.rest = []

theorem Outcome.whole.complete {o : Outcome} (h : o.whole) : o.complete := by
  unfold Outcome.complete; rw [h.1]; trivial

theorem whole_of_continues {m1 m2 x : Bytes} {a b : Outcome} (e : m2 = m1 ++ x)
    (h : Continues x a b) (ha : a.whole) (hb : b.whole) :
    m1 = m2 ∧ flat a.world.log = flat b.world.log := by
  unfold Continues at h
  rw [ha.1] at h
  dsimp only at h
  unfold Agree at h
  dsimp only at h
  rw [hb.1] at h
  obtain ⟨h1, h2⟩ := h
  rw [ha.2, hb.2, List.nil_append] at h2
  subst h2
  exact ⟨by rw [e, List.append_nil], h1⟩

theorem unambiguous {m1 m2 x1 x2 : Bytes} {a b : Outcome} (e : m1 ++ x1 = m2 ++ x2)
    (h1 : ∀ x, m2 = m1 ++ x → Continues x a b) (h2 : ∀ x, m1 = m2 ++ x → Continues x b a)
    (ha : a.whole) (hb : b.whole) :
    m1 = m2 ∧ x1 = x2 ∧ flat a.world.log = flat b.world.log := by
  have : m1 = m2 ∧ flat a.world.log = flat b.world.log := by
    rcases List.append_eq_append_iff.mp e with ⟨x, hx, -⟩ | ⟨x, hx, -⟩
    · exact whole_of_continues hx (h1 x hx) ha hb
    · have := whole_of_continues hx (h2 x hx) hb ha
      exact ⟨this.1.symm, this.2.symm⟩
  obtain ⟨rfl, h⟩ := this
  exact ⟨rfl, List.append_cancel_left e, h⟩

/-- **C83 (partial).** Heads: a stream of bytes has at most one beginning that is an accepted head,
and it has one meaning. Missing: as in C82. -/
theorem C83_head_partial (h1 h2 : Handler) (q : Parser) (l : List Ev) (m1 m2 x1 x2 : Bytes)
    (e : m1 ++ x1 = m2 ++ x2) (k1 k2 : Nat) (ks1 ks2 : List Nat)
    (d1 : Detectable m1 k1) (d2 : Detectable m2 k2)
    (c1 : (drive h1 .idle (k1 :: ks1) ⟨q.init .head, l⟩ m1).whole)
    (c2 : (drive h2 .idle (k2 :: ks2) ⟨q.init .head, l⟩ m2).whole) :
    m1 = m2 ∧ x1 = x2 ∧ flat (drive h1 .idle (k1 :: ks1) ⟨q.init .head, l⟩ m1).world.log =
      flat (drive h2 .idle (k2 :: ks2) ⟨q.init .head, l⟩ m2).world.log := by
  refine unambiguous e ?_ ?_ c1 c2
  · rintro x rfl; exact C82_head_partial h1 h2 q l m1 x k1 k2 ks1 ks2 d1 d2 c1.complete c2.complete
  · rintro x rfl; exact C82_head_partial h2 h1 q l m2 x k2 k1 ks2 ks1 d2 d1 c2.complete c1.complete

/-- **C83.** Chunked bodies. -/
theorem C83_chunked (h1 h2 : Handler) (q : Parser) (l : List Ev) (m1 m2 x1 x2 : Bytes)
    (e : m1 ++ x1 = m2 ++ x2) (k1 k2 : Nat) (ks1 ks2 : List Nat)
    (c1 : (drive h1 .idle (k1 :: ks1) ⟨q.init .chunked, l⟩ m1).whole)
    (c2 : (drive h2 .idle (k2 :: ks2) ⟨q.init .chunked, l⟩ m2).whole) :
    m1 = m2 ∧ x1 = x2 ∧ flat (drive h1 .idle (k1 :: ks1) ⟨q.init .chunked, l⟩ m1).world.log =
      flat (drive h2 .idle (k2 :: ks2) ⟨q.init .chunked, l⟩ m2).world.log := by
  refine unambiguous e ?_ ?_ c1 c2
  · rintro x rfl; exact C82_chunked h1 h2 q l m1 x k1 k2 ks1 ks2 c1.complete c2.complete
  · rintro x rfl; exact C82_chunked h2 h1 q l m2 x k2 k1 ks2 ks1 c2.complete c1.complete

/-- **C83.** Multipart bodies. -/
theorem C83_multipart (h1 h2 : Handler) (hc : SameLengths h1 h2)
    (q : Parser) (l : List Ev) (bd : Bytes) (hb : bd.length < 16384) (hb' : c! '\r' ∉ bd)
    (m1 m2 x1 x2 : Bytes) (e : m1 ++ x1 = m2 ++ x2) (k1 k2 : Nat) (ks1 ks2 : List Nat)
    (c1 : (drive h1 .idle (k1 :: ks1) ⟨(q.init .multipart).setBoundary bd, l⟩ m1).whole)
    (c2 : (drive h2 .idle (k2 :: ks2) ⟨(q.init .multipart).setBoundary bd, l⟩ m2).whole) :
    m1 = m2 ∧ x1 = x2 ∧
      flat (drive h1 .idle (k1 :: ks1) ⟨(q.init .multipart).setBoundary bd, l⟩ m1).world.log =
      flat (drive h2 .idle (k2 :: ks2) ⟨(q.init .multipart).setBoundary bd, l⟩ m2).world.log := by
  refine unambiguous e ?_ ?_ c1 c2
  · rintro x rfl
    exact C82_multipart h1 h2 hc q l bd hb hb' m1 x k1 k2 ks1 ks2 c1.complete c2.complete
  · rintro x rfl
    exact C82_multipart h2 h1 (fun l l' h => (hc l' l h.symm).symm) q l bd hb hb' m2 x k2 k1 ks2 ks1
      c2.complete c1.complete

/-- Messages that are accepted as a whole. -/
example :
    (drive goOn .idle (List.replicate 30 2) ⟨Parser.new.init .head, []⟩
      b!"GET /a HTTP/1.1\r\nHost: x\r\n\r\n").whole ∧
    (drive goOn .idle (List.replicate 30 2) ⟨Parser.new.init .chunked, []⟩
      b!"3\r\nabc\r\n0\r\n\r\n").whole ∧
    (drive goOn .idle (List.replicate 30 2) ⟨(Parser.new.init .multipart).setBoundary b!"XyZ", []⟩
      b!"--XyZ\r\nA: b\r\n\r\ndata\r\n--XyZ--").whole :=
  ⟨⟨by decide +kernel, by decide +kernel⟩, ⟨by decide +kernel, by decide +kernel⟩,
    ⟨by decide +kernel, by decide +kernel⟩⟩

end Verif.Http1
