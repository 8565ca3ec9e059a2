import Verif.Http1.JoinRun
import Verif.Props.Http1Accept
import Verif.Props.Http1Programs

/-!
# C93: the documented program that reads a head, on any bytes

The program of examples/http1_head_parsing.md, on every head that the parser accepts.
-/

namespace Verif.Http1

open Util (UTF8)

/-- What the documented program should have stored of a start line. -/
def StartLine.stored (x : StartLine) (s : Doc.Handler) : Prop :=
  match x with
  | .request m u ma mi => s.isRequest = true ∧ s.method = m ∧ s.url = u ∧ s.versionMajor = decVal ma ∧
      s.versionMinor = decVal mi ∧ s.status = [] ∧ s.statusCode = 0
  | .response ma mi c re => s.isRequest = false ∧ s.method = [] ∧ s.url = [] ∧ s.versionMajor = decVal ma ∧
      s.versionMinor = decVal mi ∧ s.status = re ∧ s.statusCode = decVal c

/-- What the program has stored after the callbacks of a head. -/
theorem any_stored (x : Head) (hx : x.OK) (l : List Ev) (hl : flat l = flat x.events) (hd : ∀ e ∈ l, flatEv e ≠ []) :
    match Doc.Handler.new.onAll l with
    | none => ∃ f ∈ x.fields, ¬ UTF8 f.2
    | some s => (∀ f ∈ x.fields, UTF8 f.2) ∧ s.initialFinished = true ∧ s.headersFinished = true ∧
        x.start.stored s ∧ ∀ n, s.headers.get n = lastOf x.fields n := by
  rw [← Doc.onAll_flat _ _ hd, hl, Head.events, List.append_assoc]
  have hs : ∀ e ∈ x.start.events, flatEv e ≠ [] := by
    have := hx.start
    cases hst' : x.start with
    | request m u ma mi =>
      rw [hst'] at this
      obtain ⟨⟨m1, -⟩, ⟨u1, -⟩, -⟩ := this
      intro e he
      simp only [StartLine.events, List.mem_cons, List.not_mem_nil, or_false] at he
      rcases he with rfl | rfl | rfl | rfl
      · simpa [flatEv] using m1
      · simpa [flatEv] using u1
      · simp [flatEv]
      · simp [flatEv]
    | response ma mi c re =>
      rw [hst'] at this
      obtain ⟨-, -, -, r1, -⟩ := this
      intro e he
      simp only [StartLine.events, List.mem_cons, List.not_mem_nil, or_false] at he
      rcases he with rfl | rfl | rfl | rfl
      · simp [flatEv]
      · simp [flatEv]
      · simpa [flatEv] using r1
      · simp [flatEv]
  rw [show flat (x.start.events ++ (x.lines.flatMap Line.events ++ [.headersFinished])) = flat x.start.events ++
    flat (x.lines.flatMap Line.events ++ [.headersFinished]) from by simp [flat], Doc.onAll_append, Doc.onAll_flat _ _ hs]
  have hst := hx.start
  unfold Head.fields
  cases hst' : x.start with
  | request m u ma mi =>
    rw [hst'] at hst
    simp only [StartLine.events, Doc.Handler.onAll, Doc.Handler.on, Option.bind_some]
    rw [Doc.on_lines _ _ hx.lines (fun _ => ⟨rfl, rfl⟩)]
    by_cases ha : ∀ f ∈ (joined x.lines).2, UTF8 f.2
    · simp only [Doc.Handler.new, Doc.Handler.flush, List.length_nil, gt_iff_lt, lt_irrefl, false_and, if_false,
        Option.bind_some, if_pos ha, List.nil_append, StartLine.stored, Doc.Handler.isRequest]
      refine ⟨ha, by trivial, by trivial, ⟨by simpa using List.length_pos_iff.2 hst.1.1, by trivial, by trivial, by trivial,
        by trivial, by trivial, by trivial⟩, fun n => ?_⟩
      rw [Doc.get_put]
      cases lastOf (joined x.lines).2 n <;> rfl
    · simp only [Doc.Handler.new, Doc.Handler.flush, List.length_nil, gt_iff_lt, lt_irrefl, false_and, if_false,
        Option.bind_some, if_neg ha]
      push Not at ha
      exact ha
  | response ma mi c re =>
    simp only [StartLine.events, Doc.Handler.onAll, Doc.Handler.on, Option.bind_some]
    rw [Doc.on_lines _ _ hx.lines (fun _ => ⟨rfl, rfl⟩)]
    by_cases ha : ∀ f ∈ (joined x.lines).2, UTF8 f.2
    · simp only [Doc.Handler.new, Doc.Handler.flush, List.length_nil, gt_iff_lt, lt_irrefl, false_and, if_false,
        Option.bind_some, if_pos ha, List.nil_append, StartLine.stored, Doc.Handler.isRequest]
      refine ⟨ha, by trivial, by trivial, ⟨by simp, by trivial, by trivial, by trivial,
        by trivial, by trivial, by trivial⟩, fun n => ?_⟩
      rw [Doc.get_put]
      cases lastOf (joined x.lines).2 n <;> rfl
    · simp only [Doc.Handler.new, Doc.Handler.flush, List.length_nil, gt_iff_lt, lt_irrefl, false_and, if_false,
        Option.bind_some, if_neg ha]
      push Not at ha
      exact ha

/-- **C93.** The documented handler, driven over any bytes in slices of any sizes: when `Finished` is returned, the
bytes read are blanks and an accepted head. However these are read as a head, the program panicked exactly if the value of
one of its fields is not UTF-8; otherwise it has stored the start line and for every name the value of the last field with
it, and nothing else. A folded line or a field with an empty name is part of the field before it. -/
theorem C93_any_head (p : Parser) (msg : Bytes) (k : Nat) (ks : List Nat) (hr : Ready p msg k)
    (hc : (drive goOn .idle (k :: ks) ⟨p, []⟩ msg).last = .finished) :
    let o := drive goOn .idle (k :: ks) ⟨p, []⟩ msg
    let Reads := fun (bl : Bytes) (x : Head) (rest : Bytes) =>
      (∀ b ∈ bl, b ∈ b!" \t\r\n") ∧ (p = .new → bl = []) ∧ x.OK ∧ msg = bl ++ x.write ++ rest
    (∃ bl x, Reads bl x o.rest) ∧
    ∀ bl x rest, Reads bl x rest → o.rest = rest ∧
      match Doc.Handler.new.onAll o.world.log with
      | none => ∃ f ∈ x.fields, ¬ UTF8 f.2
      | some s => (∀ f ∈ x.fields, UTF8 f.2) ∧ s.initialFinished = true ∧ s.headersFinished = true ∧
          x.start.stored s ∧ ∀ n, s.headers.get n = lastOf x.fields n := by
  intro o Reads
  obtain ⟨bl, x, h1, h2, h3, h4, -⟩ := C50_only_heads_accepted_partial goOn p [] msg k ks hr hc
  refine ⟨⟨bl, x, h1, h2, h3, h4⟩, ?_⟩
  rintro bl x rest ⟨h1, h2, h3, h4⟩
  have hd := drive_data (h := goOn) (k :: ks) .idle ⟨p, []⟩ msg (by simp) hc
  subst h4
  obtain ⟨-, h5, h6⟩ := C50_all_heads_accepted goOn p [] bl x rest h1 h2 h3 k ks hr (by rw [Outcome.complete, hc]; trivial)
  exact ⟨h5, any_stored x h3 _ h6 hd⟩

/-- A head with a folded line and a field without a name, first in the block and after a field. -/
def exAny : Bytes := b!"GET / HTTP/1.1\r\n x\r\n: y\r\nA: b\r\n c\r\n: d\r\nB: e\r\na: f\r\n: g\r\n\r\nrest"

example : Ready .new exAny 5 ∧ (drive goOn .idle [5, 7, 1, 200] ⟨.new, []⟩ exAny).last = .finished ∧
    (Doc.Handler.new.onAll (drive goOn .idle [5, 7, 1, 200] ⟨.new, []⟩ exAny).world.log).map (·.headers) =
      some [(b!"a", b!"fg"), (b!"b", b!"e")] :=
  ⟨.inr ⟨rfl, by decide +kernel, .inr (.inl (by decide +kernel))⟩, by decide +kernel, by decide +kernel⟩

/-- What its lines amount to. -/
example : (joined [.fold (c! ' ') b!"x", .field [] b!" " b!"y", .field b!"A" b!" " b!"b", .fold (c! ' ') b!"c",
      .field [] b!" " b!"d", .field b!"B" b!" " b!"e", .field b!"a" b!" " b!"f", .field [] b!" " b!"g"]) =
    (b!"xy", [(b!"a", b!"bcd"), (b!"b", b!"e"), (b!"a", b!"fg")]) := by decide

end Verif.Http1
