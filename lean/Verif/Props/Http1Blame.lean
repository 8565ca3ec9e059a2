import Verif.Http1.Blame
import Verif.Props.Http1Calls

/-!
# Errors of the HTTP/1 parser name the byte at which it stopped

C96, for every parser that a program can get hold of.
-/

namespace Verif.Http1

/-! ## C96 -/

/-- What a call of `resume` that fails says, for any parser: the last byte that was processed; or that the parser is dead. -/
theorem err_last {h : Handler} {w w' : World} {s : Bytes} {e : PErr} (hr : resume h w s = (.err e, w')) :
    (e = .dead ∧ w.p.fn = .dead) ∨
    ∃ y b z, s = y ++ b :: z ∧ e.byte = some b ∧ w'.p.byteCount = w.p.byteCount + (y.length + 1) := by
  have key : ∀ (st : Bytes) c, parse h (fuel st.length) ⟨w.p, Ctx.new st, w.log⟩ = (.err e, c) →
      (e = .dead ∧ w.p.fn = .dead) ∨
      ∃ y b z, st = y ++ b :: z ∧ e.byte = some b ∧ c.p.byteCount = w.p.byteCount + (y.length + 1) := by
    intro st c hc
    have h1 := parse_new_ok h w.p st w.log
    have h2 := parse_bl (h := h) (fuel st.length) ⟨w.p, Ctx.new st, w.log⟩ (ctxOK_new st)
    rw [hc] at h1 h2
    rcases h2 with ⟨h2, h3, h4⟩ | h2
    · right
      have h5 : c.ctx.stream = st := h1.1.stream
      have h6 := h1.1.ok.idx_le
      have h7 : c.p.byteCount = w.p.byteCount + c.ctx.idx := h1.1.byteCount
      rw [h5] at h4 h6
      obtain ⟨h8, h9⟩ := List.getElem?_eq_some_iff.mp h4
      refine ⟨st.take (c.ctx.idx - 1), c.ctx.byte, st.drop c.ctx.idx, ?_, h2, ?_⟩
      · have h10 := List.drop_eq_getElem_cons h8
        rw [h9, Nat.sub_add_cancel h3] at h10
        rw [← h10, List.take_append_drop]
      · rw [h7, List.length_take, Nat.min_eq_left (by omega), Nat.sub_add_cancel h3]
    · exact .inl h2
  by_cases hp : w.p.ptype = .urlEncoded
  · rw [resume_urlPost (p := w.p) (l := w.log) hp] at hr
    revert hr
    have := key (s.take w.p.length)
    revert this
    generalize parse h _ _ = rc
    obtain ⟨r, c⟩ := rc
    intro hk hr
    cases r with
    | ok su =>
      cases su with
      | callback k => simp only [urlPost] at hr; split at hr <;> simp at hr
      | eos k =>
        simp only [urlPost] at hr
        rw [parse_bodyFinished (Nat.le_refl 2) rfl] at hr
        split at hr
        · simp at hr
        · split at hr
          · dsimp only at hr; split at hr <;> simp at hr
          · simp at hr
      | finished k => simp [urlPost] at hr
    | err e' =>
      simp only [urlPost, Prod.mk.injEq, Res.err.injEq] at hr
      obtain ⟨rfl, rfl⟩ := hr
      rcases hk c rfl with h1 | ⟨y, b, z, h1, h2, h3⟩
      · exact .inl h1
      · refine .inr ⟨y, b, z ++ s.drop w.p.length, ?_, h2, h3⟩
        have h4 := List.take_append_drop w.p.length s
        rw [h1] at h4
        rw [← List.cons_append, ← List.append_assoc, h4]
    | panic => simp [urlPost] at hr
    | ub => simp [urlPost] at hr
    | diverge => simp [urlPost] at hr
  · rw [resume_plain hp] at hr
    simp only [Prod.mk.injEq] at hr
    obtain ⟨h1, rfl⟩ := hr
    exact key s (parse h (fuel s.length) ⟨w.p, Ctx.new s, w.log⟩).2 (by rw [← h1])

/-- A parser that was only made and never initialised or resumed is not dead. -/
theorem fresh_alive {st : Stage} {p : Parser} (hp : Reach anyBoundary st p) (hf : st = .fresh) :
    p.state ≠ .dead ∧ p.fn ≠ .dead := by
  induction hp with
  | new => exact ⟨nofun, nofun⟩
  | setBoundary _ _ _ ih => exact ih hf
  | setLength _ _ ih => exact ih hf
  | _ => cases hf

/-- **C96.** Whatever the parser's past, the slice and the handler: when `resume` fails, then either `state()` was `Dead`
before, the error is `Dead` and nothing was counted as processed; or the error names a byte, this byte is in the slice, and
the bytes up to and including it were counted as processed. -/
theorem C96_names_last_byte (h : Handler) (w w' : World) (s : Bytes) {st : Stage} (hp : Reach anyBoundary st w.p)
    {e : PErr} (hr : resume h w s = (.err e, w')) :
    (w.p.state = .dead ∧ e = .dead ∧ w'.p.byteCount = w.p.byteCount) ∨
    (w.p.state ≠ .dead ∧
      ∃ y b z, s = y ++ b :: z ∧ e.byte = some b ∧ w'.p.byteCount = w.p.byteCount + (y.length + 1)) := by
  have hs : w.p.state = .dead ↔ w.p.fn = .dead := by
    by_cases hf : st = .fresh
    · exact iff_of_false (fresh_alive hp hf).1 (fresh_alive hp hf).2
    · rw [C22_state_partial hp hf]
  rcases err_last hr with ⟨rfl, h2⟩ | ⟨y, b, z, h1, h2, h3⟩
  · rw [resume_dead h2] at hr
    simp only [Prod.mk.injEq, true_and] at hr
    exact .inl ⟨hs.mpr h2, rfl, by rw [← hr]⟩
  · refine .inr ⟨fun hd => ?_, y, b, z, h1, h2, h3⟩
    rw [resume_dead (hs.mp hd)] at hr
    simp only [Prod.mk.injEq, Res.err.injEq] at hr
    rw [← hr.1] at h2
    cases h2

/-- A response whose status code has a letter, after a pause; a dead parser; a form with a wrong escape. -/
example :
    let w0 := (resume pauses ⟨Parser.new, []⟩ b!"HTTP/1.1 2x0 OK").2
    let r := resume pauses w0 b!"2x0 OK"
    let f := resume goOn ⟨(Parser.new.init .urlEncoded).setLength 100, []⟩ b!"a=%4g&b=1"
    r.1 = .err (.statusCode (c! 'x')) ∧ r.2.p.byteCount = 9 + 2 ∧ r.2.p.state = .dead ∧
    (resume goOn r.2 b!"abc").1 = .err .dead ∧ (resume goOn r.2 b!"abc").2.p.byteCount = 11 ∧
    f.1 = .err (.urlEncodedValue (c! 'g')) ∧ f.2.p.byteCount = 5 := by decide +kernel

/-- **C96.** The error for chunk lengths that are too large is never reported. -/
theorem C96_no_overflow (h : Handler) (w : World) (s : Bytes) : (resume h w s).1 ≠ .err .chunkLengthOverflow := by
  intro hc
  rcases err_last (w' := (resume h w s).2) (by rw [← hc]) with ⟨h1, -⟩ | ⟨y, b, z, -, h1, -⟩ <;> cases h1

/-- **C96** for a client that passes a message in any slices, to any parser: when it is told of an error (other than that
the parser is dead), the bytes that are left are those after the one that the error names. -/
theorem C96_client (h : Handler) : ∀ (ks : List Nat) (last : End) (w : World) (msg : Bytes) (e : PErr), last ≠ .err e →
    e ≠ .dead → (drive h last ks w msg).last = .err e →
    ∃ y b, msg = y ++ b :: (drive h last ks w msg).rest ∧ e.byte = some b
  | [], last, w, msg, e, hl, _, hd => absurd hd hl
  | k :: ks, last, w, msg, e, hl, he, hd => by
    unfold drive at hd ⊢
    revert hd
    rcases hr : resume h w (msg.take k) with ⟨r, w'⟩
    have step : ∀ (l : End) n, l ≠ .err e → (drive h l ks w' (msg.drop n)).last = .err e →
        ∃ y b, msg = y ++ b :: (drive h l ks w' (msg.drop n)).rest ∧ e.byte = some b := by
      intro l n hl hd
      obtain ⟨y, b, h1, h2⟩ := C96_client h ks l w' (msg.drop n) e hl he hd
      exact ⟨msg.take n ++ y, b, by rw [List.append_assoc, ← h1, List.take_append_drop], h2⟩
    cases r with
    | ok su =>
      cases su with
      | callback n => exact step _ n nofun
      | eos n => exact step _ n nofun
      | finished n => intro hd; cases hd
    | err e' =>
      dsimp only
      intro hd
      cases hd
      rcases err_last hr with ⟨rfl, -⟩ | ⟨y, b, z, h1, h2, h3⟩
      · exact absurd rfl he
      · refine ⟨y, b, ?_, h2⟩
        have h4 := List.take_append_drop k msg
        rw [h1] at h4
        rw [h3, Nat.add_sub_cancel_left]
        rw [← h4]
        simp [← List.drop_drop]
    | panic => intro hd; cases hd
    | ub => intro hd; cases hd
    | diverge => intro hd; cases hd

/-- A boundary that does not match, in slices of three bytes. -/
example : let o := drive goOn .idle [3, 3, 3] ⟨(Parser.new.init .multipart).setBoundary b!"XyZ", []⟩ b!"--XyQ\r\n"
    o.last = .err (.multipartBoundary (c! 'y')) ∧ o.rest = b!"Q\r\n" := by decide +kernel

end Verif.Http1
