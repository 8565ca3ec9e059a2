import Verif.Http1.RunsUrl
import Verif.Http1.ChunkInv
import Verif.Props.Http1Slicing

/-!
# URL-encoded bodies

C38 (round trip), C39 (the declared length), C40 (escapes that are no escapes). The grammar and its meaning
are in `Verif.Http1.UrlSpec`.
-/

namespace Verif.Http1

/-- The environment of URL-encoded bodies. -/
abbrev urlEnv : Env := ⟨.urlEncoded, none, noCl⟩

/-- A client that declares the length `n`, and then runs over `msg`. -/
abbrev urlRun (h : Handler) (q : Parser) (l : List Ev) (n : Nat) (ks : List Nat) (msg : Bytes) : Outcome :=
  drive h .idle ks ⟨(q.init .urlEncoded).setLength n, l⟩ msg

theorem url_sim (h : Handler) (q : Parser) (l : List Ev) (n k : Nat) (ks : List Nat) (msg : Bytes) :
    ∃ I, DriveSim I (endU n msg (pred urlEnv (flat l) .uFirst (msg.take n))) (urlRun h q l n (k :: ks) msg) := by
  have H := start_url (q := q) (l := l) (n := n) (s := msg.take k) (fut := msg.drop k)
  rw [List.take_append_drop] at H
  exact ⟨_, run_sim bdOK_none (clOK_of (by decide)) k ks H⟩

/-! ## C38 -/

/-- **C38.** Every complete run over a well-formed URL-encoded body whose length was declared, whatever
follows it, ends with `Finished` directly after the body, with exactly the callbacks that the body means. -/
theorem C38_url_encoded_round_trip (h : Handler) (q : Parser) (l : List Ev) (x : UrlBody) (hx : x.OK)
    (rest : Bytes) (k : Nat) (ks : List Nat)
    (hc : (urlRun h q l x.write.length (k :: ks) (x.write ++ rest)).complete) :
    let o := urlRun h q l x.write.length (k :: ks) (x.write ++ rest)
    o.last = .finished ∧ o.rest = rest ∧ flat o.world.log = flat (l ++ x.events ++ [.bodyFinished]) := by
  intro o
  obtain ⟨I, H⟩ := url_sim h q l x.write.length k ks (x.write ++ rest)
  have hK := runs_urlBody (env := urlEnv) hx (flat l) []
  rw [pred_uOpen, List.append_nil] at hK
  obtain ⟨h1, h2, h3⟩ := complete_fin (tr := flat l ++ flat x.events ++ [.bodyFinished]) (r := rest) H hc
    (by rw [List.take_left' rfl, hK]; simp [endU])
  refine ⟨h1, h3, ?_⟩
  rw [h2]
  simp [flat, flatEv]

/-- **C38**, the empty body. -/
theorem C38_empty (h : Handler) (q : Parser) (l : List Ev) (rest : Bytes) (k : Nat) (ks : List Nat)
    (hc : (urlRun h q l 0 (k :: ks) rest).complete) :
    let o := urlRun h q l 0 (k :: ks) rest
    o.last = .finished ∧ o.rest = rest ∧ flat o.world.log = flat (l ++ [.bodyFinished]) := by
  intro o
  obtain ⟨I, H⟩ := url_sim h q l 0 k ks rest
  obtain ⟨h1, h2, h3⟩ := complete_fin (tr := flat l ++ [.bodyFinished]) (r := rest) H hc
    (by simp [pred, norm, endU])
  exact ⟨h1, h3, by rw [h2]; simp [flat, flatEv]⟩

/-- Complete runs exist for every schedule of non-empty slices that is long enough. -/
theorem C38_runs_complete (h : Handler) (q : Parser) (l : List Ev) (n : Nat) (msg : Bytes) :
    ∃ N, ∀ k ks, (∀ x ∈ k :: ks, 0 < x) → N ≤ ks.length → (urlRun h q l n (k :: ks) msg).complete :=
  C20_runs_complete h q l n msg

/-- `a%20b=c+d;=e=f&g` -/
def exUrlBody : UrlBody :=
  { first := ⟨b!"a%20b", b!"a b", some (b!"c+d", b!"c d")⟩,
    more := [(c! ';', ⟨b!"", b!"", some (b!"e=f", b!"e=f")⟩), (c! '&', ⟨b!"g", b!"g", none⟩)] }

theorem exUrlBody_ok : exUrlBody.OK where
  first := by
    refine ⟨⟨?_, by decide⟩, ?_, .inl (by decide)⟩
    · exact .literal (by decide) (Util.Decodes.escape (h := c! '2') (l := c! '0') (m := 2) (n := 0) (by decide)
        (by decide) (.literal (by decide) .nil))
    · rintro v ⟨⟩
      exact ⟨.literal (by decide) (.plus (.literal (by decide) .nil)), by decide⟩
  more := by
    intro y hy
    simp only [exUrlBody, List.mem_cons, List.not_mem_nil, or_false] at hy
    rcases hy with rfl | rfl
    · refine ⟨.inr rfl, ⟨.nil, by decide⟩, ?_, .inr (by decide)⟩
      rintro v ⟨⟩
      exact ⟨.literal (by decide) (.literal (by decide) (.literal (by decide) .nil)), by decide⟩
    · exact ⟨.inl rfl, ⟨.literal (by decide) .nil, by decide⟩, nofun, .inl (by decide)⟩

example : exUrlBody.write = b!"a%20b=c+d;=e=f&g" ∧
    exUrlBody.events = [.urlEncodedBegin, .urlEncodedName b!"a b", .urlEncodedValue b!"c d", .urlEncodedBegin,
      .urlEncodedName b!"", .urlEncodedValue b!"e=f", .urlEncodedBegin, .urlEncodedName b!"g"] ∧
    (urlRun pauses .new [] 16 (List.replicate 40 3) (exUrlBody.write ++ b!"&more")).complete := by decide +kernel

/-! ## C39 -/

/-- **C39.** However the bytes are cut, and whatever the callbacks return, the calls together consume some
number `m` of bytes that is at most the declared length; when it is smaller, the parser does not return
`Finished`; as soon as it is reached, the parser does not ask for more. -/
theorem C39_stops_at_length (h : Handler) (q : Parser) (l : List Ev) (n : Nat) (k : Nat) (ks : List Nat)
    (msg : Bytes) :
    let o := urlRun h q l n (k :: ks) msg
    ∃ m ≤ n, m ≤ msg.length ∧ o.rest = msg.drop m ∧ (o.last = .eos → m < n) ∧ (o.last = .finished → m = n) := by
  intro o
  obtain ⟨m, h1, h2, h3, h4⟩ := len_drive (h := h) (k :: ks) .idle ⟨(q.init .urlEncoded).setLength n, l⟩ msg n rfl
    trivial (fun _ => rfl) nofun
  refine ⟨m, h1, h2, h3, h4, fun hf => ?_⟩
  obtain ⟨I, H⟩ := url_sim h q l n k ks msg
  have hf' : (urlRun h q l n (k :: ks) msg).last = .finished := hf
  simp only [DriveSim, hf'] at H
  have h5 := url_not_finished (env := urlEnv) (msg.take n) (flat l)
  revert H h5
  generalize pred urlEnv (flat l) .uFirst (msg.take n) = K0
  obtain ⟨tr, f⟩ := K0
  intro H h5
  cases f with
  | finished r => exact absurd rfl (h5 r)
  | eos =>
    simp only [endU] at H
    split at H
    · simp only [Prod.mk.injEq, Fin.finished.injEq] at H
      have e : msg.drop n = msg.drop m := H.2.trans h3
      have := congrArg List.length e
      simp only [List.length_drop] at this
      omega
    · simp at H
  | err e r => simp [endU] at H
  | errB => simp [endU] at H
  | panic => simp [endU] at H

/-- **C39.** A complete run over enough bytes that is not rejected does return `Finished`. -/
theorem C39_finishes (h : Handler) (q : Parser) (l : List Ev) (n : Nat) (k : Nat) (ks : List Nat)
    (msg : Bytes) (hn : n ≤ msg.length) (hc : (urlRun h q l n (k :: ks) msg).complete)
    (he : ∀ e, (urlRun h q l n (k :: ks) msg).last ≠ .err e) :
    (urlRun h q l n (k :: ks) msg).last = .finished := by
  obtain ⟨m, h1, h2, h3, h4, h5⟩ := C39_stops_at_length h q l n k ks msg
  obtain ⟨I, H⟩ := url_sim h q l n k ks msg
  have hp : (endU n msg (pred urlEnv (flat l) .uFirst (msg.take n))).2 ≠ .panic := by
    have := (url_pred (env := urlEnv) (msg.take n) (flat l) .uFirst rfl).1
    revert this
    generalize pred urlEnv (flat l) .uFirst (msg.take n) = K0
    obtain ⟨tr, f⟩ := K0
    cases f <;> simp [endU, hn]
  revert hc he h3 h4 H
  generalize urlRun h q l n (k :: ks) msg = o
  obtain ⟨la, wo, re⟩ := o
  intro hc he h3 h4 H
  cases la <;> simp only [Outcome.complete] at hc
  · have h6 := h4 rfl
    have := congrArg List.length ((show [] = re from hc.symm).trans h3)
    simp only [List.length_drop, List.length_nil] at this
    omega
  · rfl
  · exact absurd rfl (he _)
  · obtain ⟨d, -, H⟩ := H
    rw [H] at hp
    exact absurd rfl hp

example : (urlRun pauses .new [] 14 (List.replicate 20 5) exUrl).last = .finished ∧
    (urlRun pauses .new [] 14 (List.replicate 20 5) exUrl).rest = exUrl.drop 14 ∧
    (urlRun goOn .new [] 19 [5, 5] exUrl).last = .eos ∧ (urlRun goOn .new [] 14 [100] exUrl).complete := by
  decide +kernel

/-! ## C40 -/

/-- **C40 (partial).** A body with an escape that is no escape is rejected with the byte that is to blame,
after the callbacks of the part before it (the last bytes of data may not have been delivered). Missing:
bodies that end inside an escape, see `C40_fails`. -/
theorem C40_bad_escape_partial (h : Handler) (q : Parser) (l : List Ev) (x : UrlBody) (hx : x.OK)
    (y : Bytes) (b : UInt8) (hy : BadEscape y b) (rest : Bytes) (n : Nat) (hn : (x.write ++ y).length ≤ n)
    (k : Nat) (ks : List Nat) (hc : (urlRun h q l n (k :: ks) (x.write ++ y ++ rest)).complete) :
    let o := urlRun h q l n (k :: ks) (x.write ++ y ++ rest)
    o.last = .err (if x.last.value = none then .urlEncodedName b else .urlEncodedValue b) ∧ o.rest = rest ∧
      ∃ d, isData d = true ∧ flat (o.world.log ++ [d]) = flat (l ++ x.events) := by
  intro o
  obtain ⟨I, H⟩ := url_sim h q l n k ks (x.write ++ y ++ rest)
  have hK := runs_urlBody (env := urlEnv) hx (flat l) (y ++ rest.take (n - (x.write ++ y).length))
  rw [pred_bad hy, ← List.append_assoc] at hK
  have e : (x.write ++ y ++ rest).take n = x.write ++ y ++ rest.take (n - (x.write ++ y).length) := by
    rw [List.take_append, List.take_of_length_le hn]
  have e2 : (x.write ++ y ++ rest).drop n = rest.drop (n - (x.write ++ y).length) := by
    rw [List.drop_append, List.drop_of_length_le hn, List.nil_append]
  obtain ⟨h1, h2, d, h3, h4⟩ := complete_err (tr := flat l ++ flat x.events) (r := rest)
    (e := if x.last.value = none then .urlEncodedName b else .urlEncodedValue b) H hc
    (by rw [e, hK]; simp only [endU]; rw [e2, List.take_append_drop])
  refine ⟨h1, h2, d, h3, ?_⟩
  rw [show flat (l ++ x.events) = flat l ++ flat x.events by simp [flat], ← h4]
  simp [flat, o]

example : BadEscape b!"%G" (c! 'G') ∧ BadEscape b!"%4 " (c! ' ') := by
  refine ⟨⟨fun n hn => ?_, .inl rfl⟩, ⟨fun n hn => ?_, .inr ⟨c! '4', 4, by decide, rfl⟩⟩⟩
  · have : ∀ n < 16, ¬ Util.HexDigit (c! 'G') n := by decide
    exact this n (Util.hexDigit_lt hn) hn
  · have : ∀ n < 16, ¬ Util.HexDigit (c! ' ') n := by decide
    exact this n (Util.hexDigit_lt hn) hn

example : (urlRun goOn .new [] 20 [100] (exUrlBody.write ++ b!"%G" ++ b!"x")).complete := by decide +kernel

/-- The full C40 fails: every body that ends inside an escape finishes like a complete body, without the
bytes of that escape. -/
theorem C40_fails (h : Handler) (q : Parser) (l : List Ev) (x : UrlBody) (hx : x.OK)
    (y : Bytes) (hy : CutEscape y) (rest : Bytes) (k : Nat) (ks : List Nat)
    (hc : (urlRun h q l (x.write ++ y).length (k :: ks) (x.write ++ y ++ rest)).complete) :
    let o := urlRun h q l (x.write ++ y).length (k :: ks) (x.write ++ y ++ rest)
    o.last = .finished ∧ o.rest = rest ∧ flat o.world.log = flat (l ++ x.events ++ [.bodyFinished]) := by
  intro o
  obtain ⟨I, H⟩ := url_sim h q l (x.write ++ y).length k ks (x.write ++ y ++ rest)
  have hK := runs_urlBody (env := urlEnv) hx (flat l) y
  rw [pred_cut hy] at hK
  obtain ⟨h1, h2, h3⟩ := complete_fin (tr := flat l ++ flat x.events ++ [.bodyFinished]) (r := rest) H hc
    (by rw [List.take_left' rfl, hK]; simp [endU])
  refine ⟨h1, h3, ?_⟩
  rw [h2]
  simp [flat, flatEv]

example : CutEscape b!"%" ∧ CutEscape b!"%4" := ⟨.inl rfl, .inr ⟨c! '4', 4, by decide, rfl⟩⟩

example : (urlRun goOn .new [] 4 [100] b!"a=%4").last = .finished ∧
    (urlRun goOn .new [] 4 [100] b!"a=%4").world.log =
      [.urlEncodedBegin, .urlEncodedName b!"a", .bodyFinished] := by decide +kernel

end Verif.Http1
