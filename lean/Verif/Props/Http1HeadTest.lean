import Verif.Http1.HeadTestProgram
import Verif.Http1.AnyShort
import Verif.Props.Http1AnyHead
import Verif.Props.Http1Read

/-!
# C97: the test program that reads a head, on any bytes
-/

namespace Verif.Http1

namespace HeadTest

open Form (Collect)

theorem append (s : State) (l m : List Ev) : s.onAll (l ++ m) = (s.onAll l).onAll m := List.foldl_append

/-- A data callback in pieces. -/
theorem on_pieces (s : State) (e : Ev) (he : flatEv e ≠ []) : s.onAll (flatEv e) = s.on e := by
  have pile : ∀ {f : Bytes → Ev}, (∀ s, State.on s (f []) = s) → (∀ s a b, (State.on s (f a)).on (f b) = s.on (f (a ++ b))) →
      ∀ (d : Bytes) (s : State), s.onAll (d.map fun b => f [b]) = s.on (f d) := by
    intro f h0 h1 d
    induction d with
    | nil => intro s; rw [h0]; rfl
    | cons b d ih => intro s; show State.onAll (s.on (f [b])) _ = _; rw [ih, h1]; rfl
  have other : ∀ {f : Bytes → Ev}, (∀ s d, State.on s (f d) = { s with fields := s.fields.on (f d) }) →
      ∀ (d : Bytes) (s : State), s.onAll (d.map fun b => f [b]) =
        { s with fields := s.fields.onAll (d.map fun b => f [b]) } := by
    intro f h0 d
    induction d with
    | nil => intro s; rfl
    | cons b d ih => intro s; show State.onAll (s.on (f [b])) _ = _; rw [ih, h0]; rfl
  have coll : ∀ {f : Bytes → Ev}, (∀ s d, State.on s (f d) = { s with fields := s.fields.on (f d) }) →
      ∀ (d : Bytes), flatEv (f d) = (d.map fun b => f [b]) → flatEv (f d) ≠ [] → s.onAll (flatEv (f d)) = s.on (f d) := by
    intro f h0 d h1 h2
    have := Form.collect_flat s.fields (f d) (Form.solid_of_flat h2)
    rw [h1] at this ⊢
    rw [other h0, this, h0]
  cases e with
  | method d => exact pile (f := .method) (fun s => by simp [State.on]) (fun s a b => by simp [State.on]) d s
  | url d => exact pile (f := .url) (fun s => by simp [State.on]) (fun s a b => by simp [State.on]) d s
  | chunkData d => exact coll (f := .chunkData) (fun _ _ => rfl) d rfl he
  | chunkExtensionName d => exact coll (f := .chunkExtensionName) (fun _ _ => rfl) d rfl he
  | chunkExtensionValue d => exact coll (f := .chunkExtensionValue) (fun _ _ => rfl) d rfl he
  | headerName d => exact coll (f := .headerName) (fun _ _ => rfl) d rfl he
  | headerValue d => exact coll (f := .headerValue) (fun _ _ => rfl) d rfl he
  | multipartData d => exact coll (f := .multipartData) (fun _ _ => rfl) d rfl he
  | status d => exact coll (f := .status) (fun _ _ => rfl) d rfl he
  | urlEncodedName d => exact coll (f := .urlEncodedName) (fun _ _ => rfl) d rfl he
  | urlEncodedValue d => exact coll (f := .urlEncodedValue) (fun _ _ => rfl) d rfl he
  | _ => rfl

theorem all_pieces : ∀ (l : List Ev) (s : State), (∀ e ∈ l, flatEv e ≠ []) → s.onAll (flat l) = s.onAll l
  | [], _, _ => rfl
  | e :: l, s, h => by
    show s.onAll (flatEv e ++ flat l) = _
    rw [append, on_pieces s e (h e (by simp)), all_pieces l _ fun e he => h e (by simp [he])]
    rfl

/-- What is not about the start line. -/
theorem rest_all : ∀ (l : List Ev) (s : State),
    (∀ e ∈ l, ∀ s : State, s.on e = { s with fields := s.fields.on e }) →
    s.onAll l = { s with fields := s.fields.onAll l }
  | [], _, _ => rfl
  | e :: l, s, h => by
    show State.onAll (s.on e) l = _
    rw [h e (by simp), rest_all l _ fun e he => h e (by simp [he])]
    rfl

end HeadTest

/-- What the program should have stored of a start line. -/
def StartLine.kept (x : StartLine) (s : HeadTest.State) : Prop :=
  match x with
  | .request m u ma mi => s.method = m ∧ s.url = u ∧ s.versionMajor = decVal ma ∧ s.versionMinor = decVal mi
  | .response ma mi _ _ => s.method = [] ∧ s.url = [] ∧ s.versionMajor = decVal ma ∧ s.versionMinor = decVal mi

theorem head_kept (x : Head) (hx : x.OK) (l : List Ev) (hl : flat l = flat x.events) (hd : ∀ e ∈ l, flatEv e ≠ []) :
    x.start.kept (HeadTest.State.new.onAll l) ∧
      ∀ n, (HeadTest.State.new.onAll l).fields.headers.get n = lastOf x.fields n := by
  rw [← HeadTest.all_pieces _ _ hd, hl, Head.events, List.append_assoc]
  have hst := hx.start
  have hs : ∀ e ∈ x.start.events, flatEv e ≠ [] := by
    cases hst' : x.start with
    | request m u ma mi =>
      rw [hst'] at hst
      obtain ⟨⟨m1, -⟩, ⟨u1, -⟩, -⟩ := hst
      intro e he
      simp only [StartLine.events, List.mem_cons, List.not_mem_nil, or_false] at he
      rcases he with rfl | rfl | rfl | rfl
      · simpa [flatEv] using m1
      · simpa [flatEv] using u1
      · simp [flatEv]
      · simp [flatEv]
    | response ma mi c re =>
      rw [hst'] at hst
      obtain ⟨-, -, -, r1, -⟩ := hst
      intro e he
      simp only [StartLine.events, List.mem_cons, List.not_mem_nil, or_false] at he
      rcases he with rfl | rfl | rfl | rfl
      · simp [flatEv]
      · simp [flatEv]
      · simpa [flatEv] using r1
      · simp [flatEv]
  rw [show flat (x.start.events ++ (x.lines.flatMap Line.events ++ [.headersFinished])) = flat x.start.events ++
    flat (x.lines.flatMap Line.events ++ [.headersFinished]) from by simp [flat], HeadTest.append, HeadTest.all_pieces _ _ hs]
  have hb : ∀ e ∈ flat (x.lines.flatMap Line.events ++ [.headersFinished]), ∀ s : HeadTest.State,
      s.on e = { s with fields := s.fields.on e } := by
    intro e he s
    simp only [flat, List.mem_flatMap, List.mem_append, List.mem_singleton] at he
    obtain ⟨e', h1, h2⟩ := he
    rcases h1 with ⟨y, -, h1⟩ | rfl
    · cases y with
      | fold b v =>
        simp only [Line.events, List.mem_singleton] at h1
        subst h1
        simp only [flatEv, List.mem_map] at h2
        obtain ⟨_, -, rfl⟩ := h2
        rfl
      | field n bl v =>
        simp only [Line.events, List.mem_cons, List.not_mem_nil, or_false] at h1
        rcases h1 with rfl | rfl <;>
        · simp only [flatEv, List.mem_map] at h2
          obtain ⟨_, -, rfl⟩ := h2
          rfl
    · simp only [flatEv, List.mem_singleton] at h2
      subst h2
      rfl
  rw [HeadTest.rest_all _ _ hb]
  have H := Form.collect_lines x.lines (HeadTest.State.new.onAll x.start.events).fields hx.lines (by
    cases x.start <;> exact fun _ => ⟨rfl, rfl⟩)
  have h0 : (Form.Collect.flush { (HeadTest.State.new.onAll x.start.events).fields with
      valueBuf := (HeadTest.State.new.onAll x.start.events).fields.valueBuf ++ (joined x.lines).1 }).headers = [] := by
    cases x.start <;> rfl
  refine ⟨?_, fun n => ?_⟩
  · cases hst' : x.start <;> exact ⟨rfl, rfl, rfl, rfl⟩
  · simp only
    rw [H.1, h0, Doc.get_put]
    unfold Head.fields
    cases lastOf (joined x.lines).2 n <;> rfl

/-- **C97.** For every input that is not empty: the program panics exactly if the description of heads (C74) says so, and then
the input does not begin with an accepted head. Otherwise it has stored what its handler makes of the callbacks of that
description; if the input is rejected, data of the token with the error may be missing. If the input begins with an accepted
head, it has stored the method, the URL and the version, and for every header name the value of the last field with it, and
nothing else; folded lines and fields without a name are part of the field before. -/
theorem C97_head_test (d : Bytes) (hd : d ≠ []) :
    let t := Read.start (decide (Short d [d.length])) d
    let S := HeadTest.State.new.onAll (flat t.told)
    match HeadTest.program d with
    | none => t.ending = .crash ∧ ¬ ∃ (x : Head) (rest : Bytes), x.OK ∧ d = x.write ++ rest
    | some s => t.ending ≠ .crash ∧
        (s = S ∨ (∃ e r, t.ending = .wrong e r) ∧ ∃ v, isData v = true ∧ s.onAll (flatEv v) = S) ∧
        ∀ (x : Head) (rest : Bytes), x.OK → d = x.write ++ rest →
          x.start.kept s ∧ ∀ n, s.fields.headers.get n = lastOf x.fields n := by
  intro t S
  have ht : d.take d.length = d := List.take_length
  obtain ⟨K, HK⟩ := drive_any_new (h := goOn) (env := headEnv) bdOK_none (clOK_of (by decide)) rfl rfl d.length [] ⟨.new, []⟩ d
    rfl rfl rfl (by rw [ht]; exact hd)
  obtain ⟨h1, h2⟩ := goOn_one (w := ⟨.new, []⟩) .new HK.noUb
  have hF := C74_new_partial goOn [] d d.length [] (by rw [ht]; exact hd) h2
  have hN : ∀ (x : Head) (rest : Bytes), x.OK → d = x.write ++ rest → ∃ k w,
      resume goOn ⟨.new, []⟩ d = (.ok (.finished k), w) ∧ flat w.log = flat x.events := by
    rintro x rest hx rfl
    have hr := ready_new (d := x.write ++ rest) (by have := head_length hx; rw [List.length_append]; omega)
    obtain ⟨k, w, h3, -⟩ := any_head_call x hx rest
    obtain ⟨-, -, h5⟩ := C50_all_heads_accepted goOn .new [] [] x rest (by simp) (fun _ => rfl) hx _ [] hr h2
    simp only [List.nil_append] at h5
    rw [drive_one h3] at h5
    exact ⟨k, w, h3, h5⟩
  have hb : Back (feed goOn 1 ⟨.new, []⟩ d) → ∀ e ∈ (feed goOn 1 ⟨.new, []⟩ d).world.log, flatEv e ≠ [] :=
    feed_data 1 _ _ (by simp)
  rw [← h1] at hF
  rw [← h1] at h2
  rw [feed] at hF hb h2
  unfold HeadTest.program
  have hS : ∀ (w : World) (e : End) (r : Bytes), (∀ e ∈ w.log, flatEv e ≠ []) → e ≠ .panic → Read.Follows [] t ⟨e, w, r⟩ →
      t.ending ≠ .crash ∧ (HeadTest.State.new.onAll w.log = S ∨ (∃ e r, t.ending = .wrong e r) ∧
        ∃ v, isData v = true ∧ (HeadTest.State.new.onAll w.log).onAll (flatEv v) = S) := by
    intro w e r hw he hf
    rw [← HeadTest.all_pieces _ _ hw]
    unfold Read.Follows at hf
    have e0 : flat ([] : List Ev) = [] := rfl
    simp only [e0, List.nil_append] at hf
    show _ ∧ (_ = HeadTest.State.new.onAll (flat t.told) ∨ _)
    split at hf
    case h_1 ht => exact ⟨by rw [ht]; nofun, .inl (by rw [hf.2.2])⟩
    case h_2 ht => exact ⟨by rw [ht]; nofun, .inl (by rw [hf.2.2])⟩
    case h_3 ht =>
      obtain ⟨-, -, v, hv, hf⟩ := hf
      exact ⟨by rw [ht]; nofun, .inr ⟨⟨_, _, ht⟩, v, hv, by rw [← HeadTest.append, hf]⟩⟩
    case h_4 ht => exact ⟨by rw [ht]; nofun, .inl (by rw [hf.2.2])⟩
    case h_5 => exact absurd hf.1 he
  rcases hr : resume goOn ⟨.new, []⟩ d with ⟨r, w⟩
  rw [hr] at hF hb h2
  rcases r with (k | k | k) | e | _ | _ | _
  · exact (h2 : False).elim
  · obtain ⟨a, b⟩ := hS w _ _ (hb ⟨nofun, nofun, nofun⟩) (by nofun) hF
    refine ⟨a, b, fun x rest hx e => ?_⟩
    obtain ⟨k', w', h3, -⟩ := hN x rest hx e
    rw [hr] at h3; cases h3
  · obtain ⟨a, b⟩ := hS w _ _ (hb ⟨nofun, nofun, nofun⟩) (by nofun) hF
    refine ⟨a, b, fun x rest hx e => ?_⟩
    obtain ⟨k', w', h3, h4⟩ := hN x rest hx e
    rw [hr] at h3
    cases h3
    exact head_kept x hx _ h4 (hb ⟨nofun, nofun, nofun⟩)
  · obtain ⟨a, b⟩ := hS w _ _ (hb ⟨nofun, nofun, nofun⟩) (by nofun) hF
    refine ⟨a, b, fun x rest hx e => ?_⟩
    obtain ⟨k', w', h3, -⟩ := hN x rest hx e
    rw [hr] at h3; cases h3
  · refine ⟨?_, ?_⟩
    · unfold Read.Follows at hF
      split at hF
      case h_1 => cases hF.1
      case h_2 => cases hF.1
      case h_3 => cases hF.1
      case h_4 => obtain ⟨⟨b, hF⟩, -⟩ := hF; cases hF
      case h_5 ht => exact ht
    · rintro ⟨x, rest, hx, e⟩
      obtain ⟨k', w', h3, -⟩ := hN x rest hx e
      rw [hr] at h3; cases h3
  · exact (h2 : False).elim
  · exact (h2 : False).elim

/-- The head of C93's example; a head cut short, with a header field that is not complete; one that is rejected, where the
first field is stored; one that makes the parser panic; a value that is not UTF-8, which the documented program panics
over, and this one stores. -/
example :
    (HeadTest.program exAny).map (fun s => (s.method, s.url, s.fields.headers)) =
      some (b!"GET", b!"/", [(b!"a", b!"fg"), (b!"b", b!"e")]) ∧
    (HeadTest.program b!"GET / HTTP/1.1\r\nA: b\r\nC: d").map (fun s => (s.method, s.fields.headers, s.fields.valueBuf)) =
      some (b!"GET", [(b!"a", b!"b")], b!"d") ∧
    (HeadTest.program b!"GET / HTTP/1.1\r\nA: b\r\nC\x01").map (fun s => (s.fields.headers, s.fields.nameBuf)) =
      some ([(b!"a", b!"b")], b!"c") ∧
    HeadTest.program (b!"GET / HTTP/1.1\r\nA: b" ++ [255]) = none ∧
    (HeadTest.program b!"GET / HTTP/1.1\r\nA: b\xE9\r\n\r\n").map (fun s => s.fields.headers) = some [(b!"a", b!"b\xE9")] := by
  refine ⟨?_, ?_, ?_, ?_, ?_⟩ <;> decide +kernel

/-- The program must not be given an empty input: the call reads outside of it. -/
theorem C97_empty : HeadTest.program [] = none ∧ (resume goOn ⟨.new, []⟩ []).1 = .ub := by
  constructor <;> decide +kernel

end Verif.Http1
