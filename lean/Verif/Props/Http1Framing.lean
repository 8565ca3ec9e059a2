import Verif.Http1.Framing
import Verif.Props.Http1Earliest

/-!
# C108: where a chunked body ends, as seen by others

`afterBody`, `bareZero` and `zeroSize` are defined in `Verif.Http1.FramingSpec`.
-/

namespace Verif.Http1

/-! ## Helper lemmas -/

theorem fin_body {tr : List Ev} {msg r : Bytes} (h : (pred chunkEnv tr .size1 msg).2 = .finished r) :
    ∃ x : LooseBody, x.OK ∧ msg = x.write ++ r ∧ (pred chunkEnv tr .size1 msg).1 = tr ++ flat x.events := by
  have h' : pred chunkEnv tr .size1 msg = ((pred chunkEnv tr .size1 msg).1, .finished r) := by rw [← h]
  exact Acc.chunked (env := chunkEnv) rfl h'

theorem bare_after {tr : List Ev} {msg r : Bytes} (h : (pred chunkEnv tr .size1 msg).2 = .finished r) :
    afterBody bareZero msg = some r := by
  obtain ⟨x, h1, h2, -⟩ := fin_body h
  rw [h2]
  exact body_after rfl h1 (fun y hy => Chunk.line_bare (h1.chunks y hy)) r

/-- Bytes after which the parser wants more do not contain the end. -/
theorem bare_none {tr : List Ev} {msg : Bytes} (h : (pred chunkEnv tr .size1 msg).2 = .eos) :
    afterBody bareZero msg = none := by
  obtain ⟨z, L, hz⟩ := pred_viable (env := chunkEnv) (by decide) msg tr .size1 rfl h
  have hne : z ≠ [] := by
    rintro rfl
    rw [List.append_nil] at hz
    rw [hz] at h; cases h
  cases he : afterBody bareZero msg with
  | none => rfl
  | some r =>
    have h1 := body_more he z
    rw [bare_after (congrArg Prod.snd hz)] at h1
    have := congrArg List.length (Option.some.inj h1)
    cases z with
    | nil => exact absurd rfl hne
    | cons b z => simp only [List.length_nil, List.length_append, List.length_cons] at this; omega

/-! ## C108 -/

/-- **C108.** A program that only looks at line ends and sizes, and takes a size line for the last one if it is `0` and
nothing else, finds the same end: an accepted body ends where it says; when the parser wants more bytes, it finds no
end; and when the parser rejects a body, it has not read beyond this end. In every slicing, for every handler. -/
theorem C108_same_end (h : Handler) (q : Parser) (l : List Ev) (msg : Bytes) (ks : List Nat)
    (hc : (drive h .idle ks ⟨q.init .chunked, l⟩ msg).complete) :
    let o := drive h .idle ks ⟨q.init .chunked, l⟩ msg
    (o.last = .finished → afterBody bareZero msg = some o.rest) ∧ (o.last = .eos → afterBody bareZero msg = none) ∧
    (∀ e r, o.last = .err e → afterBody bareZero msg = some r → r.length ≤ o.rest.length) := by
  intro o
  cases ks with
  | nil => exact absurd hc (by simp [drive, Outcome.complete])
  | cons k ks =>
    have H := chunked_sim h q l k ks msg
    refine ⟨fun hf => bare_after (congrArg Prod.snd (H.fin hf)), fun he => bare_none (tr := flat l) ?_, fun e r he ha => ?_⟩
    · unfold DriveSim at H
      unfold Outcome.complete at hc
      rw [show (drive h .idle (k :: ks) ⟨q.init .chunked, l⟩ msg).last = .eos from he] at H hc
      exact congrArg Prod.snd (H.2 hc)
    · rcases H.error he with ⟨L, h1⟩ | ⟨_, -, h1⟩
      · obtain ⟨y, b, h2, -, h4, -⟩ := pred_blame (env := chunkEnv) (by decide) msg (flat l) .size1 L e _ rfl h1
        refine body_beyond (last := bareZero) (y := y) (b := b) (bare_none h4) ?_
        rw [← h2]; exact ha
      · exact absurd h1 (plain_not_errB (by decide) _ _ _ rfl _)

/-- A body with bytes after it; one that is cut off within the empty line; and one that is rejected. -/
example : let m := b!"A;x=\"0\"\r\n0\r\n\r\n0\r\n\r\n\r\n0\r\nA: b\r\n\r\n0\r\n\r\n"
    let o := fun m => drive pauses .idle (List.replicate 200 3) ⟨Parser.new.init .chunked, []⟩ m
    (o m).last = .finished ∧ (o m).rest = b!"0\r\n\r\n" ∧ afterBody bareZero m = some b!"0\r\n\r\n" ∧
    (o (m.take 31)).last = .eos ∧ (o (m.take 31)).complete ∧ afterBody bareZero (m.take 31) = none ∧
    (o b!"1\r\nab\r\n0\r\n\r\n").last = .err (.crlfSequence (c! 'b')) := by
  refine ⟨by decide +kernel, by decide +kernel, by decide +kernel, by decide +kernel, ?_, by decide +kernel,
    by decide +kernel⟩
  decide +kernel

/-- **C108**, line ends: a program that takes a bare LF for a line end finds the same end of an accepted body, too. -/
theorem C108_line_ends (h : Handler) (q : Parser) (l : List Ev) (msg : Bytes) (ks : List Nat)
    (hf : (drive h .idle ks ⟨q.init .chunked, l⟩ msg).last = .finished) :
    lfBody bareZero msg = some (drive h .idle ks ⟨q.init .chunked, l⟩ msg).rest := by
  cases ks with
  | nil => exact absurd hf (by simp [drive])
  | cons k ks =>
    obtain ⟨x, h1, h2, -⟩ := fin_body (congrArg Prod.snd ((chunked_sim h q l k ks msg).fin hf))
    generalize (drive h .idle (k :: ks) ⟨q.init .chunked, l⟩ msg).rest = r at h2
    rw [h2]
    exact body_lf rfl h1 (fun y hy => Chunk.line_bare (h1.chunks y hy)) r

/-- A body with line ends in its data; and one with a bare LF as a line end, which is rejected. -/
example : let m := b!"3;a=b\r\n0\n\n\r\n0\r\nA: b\r\n c\r\n\r\n0\n\n"
    let o := fun m => drive goOn .idle [100] ⟨Parser.new.init .chunked, []⟩ m
    (o m).last = .finished ∧ (o m).rest = b!"0\n\n" ∧ lfBody bareZero m = some b!"0\n\n" ∧
    (o b!"0\n\n").last = .err (.chunkLength 10) ∧ lfBody bareZero b!"0\n\n" = some [] := by decide +kernel

/-- **C108 (partial).** A program that does as the standard says, and takes every size line with the size zero for the last
one, finds the same end of an accepted body if no extensions were reported of a chunk of size zero, whatever it takes
for a line end. Missing: the others, see `C108_fails`. -/
theorem C108_standard_partial (h : Handler) (q : Parser) (msg : Bytes) (ks : List Nat)
    (hf : (drive h .idle ks ⟨q.init .chunked, []⟩ msg).last = .finished)
    (hz : ∀ pre post, flat (drive h .idle ks ⟨q.init .chunked, []⟩ msg).world.log = pre ++ .chunkLength 0 :: post →
      .chunkExtensionsFinished ∉ post) :
    afterBody zeroSize msg = some (drive h .idle ks ⟨q.init .chunked, []⟩ msg).rest ∧
      lfBody zeroSize msg = some (drive h .idle ks ⟨q.init .chunked, []⟩ msg).rest := by
  cases ks with
  | nil => exact absurd hf (by simp [drive])
  | cons k ks =>
    have H := (chunked_sim h q [] k ks msg).fin hf
    obtain ⟨x, h1, h2, h3⟩ := fin_body (congrArg Prod.snd H)
    rw [H] at h3
    change flat _ = _ at h3
    rw [h3] at hz
    generalize (drive h .idle (k :: ks) ⟨q.init .chunked, []⟩ msg).rest = r at h2
    rw [h2]
    suffices g : ∀ y ∈ x.chunks, zeroSize y.line = false from ⟨body_after rfl h1 g r, body_lf rfl h1 g r⟩
    intro y hy
    rw [zeroSize, Chunk.line_size (h1.chunks y hy), beq_eq_false_iff_ne]
    intro h0
    obtain ⟨cs, ds, e⟩ := List.append_of_mem hy
    refine hz (flat (cs.flatMap Chunk.events) ++ [.chunkBegin])
      (flat (y.extensions.flatMap Extension.events ++ [.chunkExtensionsFinished, .chunkData y.data] ++
        (ds.flatMap Chunk.events ++ [.chunkBegin, .chunkLength 0] ++ x.trailer.flatMap Line.events ++
          [.headersFinished, .bodyFinished]))) ?_ ?_
    · rw [LooseBody.events, e]
      simp [flat, flatEv, Chunk.events, h0]
    · simp [flat, flatEv]

/-- A case of it, with a chunk whose data looks like a last chunk. -/
example : let m := b!"5\r\n0\r\n\r\n\r\n0\r\n\r\nrest"
    let o := drive goOn .idle [100] ⟨Parser.new.init .chunked, []⟩ m
    o.last = .finished ∧ afterBody zeroSize m = some b!"rest" ∧
    flat o.world.log = flat [.chunkBegin, .chunkLength 5, .chunkExtensionsFinished, .chunkData b!"0\r\n\r\n", .chunkBegin,
      .chunkLength 0, .headersFinished, .bodyFinished] := by decide +kernel

/-- The full claim fails: with an extension on the last chunk the body ends for everybody else, but not for the parser,
which takes the next message for more chunks. -/
theorem C108_fails :
    let m := b!"0;a\r\n\r\n5\r\nhello\r\n0\r\n\r\n"
    let o := drive goOn .idle [100] ⟨Parser.new.init .chunked, []⟩ m
    afterBody zeroSize m = some b!"5\r\nhello\r\n0\r\n\r\n" ∧ o.last = .finished ∧ o.rest = [] ∧
    .chunkData b!"hello" ∈ o.world.log := by decide +kernel

end Verif.Http1
