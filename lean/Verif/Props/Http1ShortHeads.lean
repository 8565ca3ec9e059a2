import Verif.Props.Http1Detect
import Verif.Props.Http1Final
import Verif.Props.Http1Accept
import Verif.Props.Http1AcceptChunked
import Verif.Props.Http1AcceptMultipart
import Verif.Props.Http1Conn

/-!
# C51, C82 and C83 for every slicing of a head, and where other claims fail

What C18 excludes, a first word in `H` of which fewer than nine bytes are passed at once, does not change where a head ends.
-/

namespace Verif.Http1

/-! ## Helper lemmas -/

/-- What becomes of a word in `H` that is read in short slices, against the other reading. -/
theorem short_pred {msg : Bytes} (hw : HWord msg) (tr : List Ev) :
    ∃ bl p b r, msg = bl ++ p ++ b :: r ∧ (∀ c ∈ bl, c ∈ b!" \t\r\n") ∧ Differs p b ∧
      (b = c! ' ' → pred headEnv tr .ldet2 (msg.dropWhile lead).tail = (tr, .err (.method (c! ' ')) r)) ∧
      (b ≠ c! ' ' → ∃ t f, (∀ r, f ≠ .errB r) ∧
        pred headEnv tr .stripDetect msg = (tr ++ (p.map fun c => .method [c]) ++ t, f) ∧
        pred headEnv tr .ldet2 (msg.dropWhile lead).tail = (tr ++ t, f)) := by
  obtain ⟨bl, p, b, r, rfl, h1, h2⟩ := C72_words msg hw
  refine ⟨bl, p, b, r, rfl, h1, h2, ?_, fun hb => ?_⟩
  · rintro rfl
    rw [(hword_of h1 h2).2, pred_lost_space h2]
  · obtain ⟨t, f, hf, e3, e4⟩ := pred_method_split tr (p.map fun c => .method [c]) (b :: r)
    refine ⟨t, f, hf, ?_, ?_⟩
    · obtain ⟨u, hu⟩ := differs_head h2
      rw [List.append_assoc, pred_lead _ h1, hu, List.cons_append, strip_first (by decide), ← List.cons_append, ← hu,
        pred_differs h2, e3]
    · rw [(hword_of h1 h2).2, pred_lost h2 hb, e4]

/-- Where a head ends does not depend on the slices. -/
theorem begins_fin (h : Handler) {p : Parser} {l : List Ev} {msg : Bytes} {ks : List Nat}
    (hp : Begins p msg ks) (hf : (drive h .idle ks ⟨p, l⟩ msg).last = .finished) :
    (pred headEnv (flat l) .stripDetect msg).2 = .finished (drive h .idle ks ⟨p, l⟩ msg).rest := by
  have hc : (drive h .idle ks ⟨p, l⟩ msg).complete := by unfold Outcome.complete; rw [hf]; trivial
  have k := begins_exact h hp hc
  by_cases hs : Short msg ks
  · have k := (k.1 hs).fin hf
    obtain ⟨bl, p', b, r, -, -, -, h1, h2⟩ := short_pred hs.1 (flat l)
    by_cases hb : b = c! ' '
    · rw [h1 hb] at k; exact absurd (congrArg Prod.snd k) nofun
    · obtain ⟨t, f, -, h3, h4⟩ := h2 hb
      rw [h4] at k
      rw [h3]
      exact congrArg Prod.snd k
  · rw [(k.2 hs).fin hf]

theorem drop_more {msg : Bytes} (x : Bytes) (h : msg.dropWhile lead ≠ []) :
    (msg ++ x).dropWhile lead = msg.dropWhile lead ++ x := by
  rw [List.dropWhile_append, if_neg]
  simpa using h

/-- Nothing is told of a word that may become `HTTP/`. -/
theorem quiet_word {msg x : Bytes} (h : ¬ HWord msg) (hx : HWord (msg ++ x)) (tr : List Ev) :
    pred headEnv tr .stripDetect msg = (tr, .eos) := by
  have hbl : ∀ b ∈ msg.takeWhile lead, b ∈ b!" \t\r\n" := by
    intro c hc
    have := List.all_takeWhile (p := lead) (l := msg)
    rw [List.all_eq_true] at this
    simpa [lead] using this c hc
  rw [← List.takeWhile_append_dropWhile (p := lead) (l := msg), pred_lead _ hbl]
  by_cases hd : msg.dropWhile lead = []
  · rw [hd]; simp [pred, norm]
  unfold HWord at h hx
  rw [drop_more x hd] at hx
  obtain ⟨h1, h2, -⟩ := hx
  generalize msg.dropWhile lead = d at *
  have h3 : d.head? = some (c! 'H') := by
    cases d with
    | nil => exact absurd rfl hd
    | cons a d => simpa using h1
  have h4 : ¬ b!"HTTP/" <+: d := fun h => h2 (h.trans (List.prefix_append _ _))
  have h5 : d <+: b!"HTTP/" := by
    by_contra h5
    exact h ⟨h3, h4, h5⟩
  have h6 := List.prefix_iff_eq_take.mp h5
  have h7 := h5.length_le
  have h8 : b!"HTTP/".length = 5 := rfl
  rw [h8] at h7
  clear h1 h2 h h5
  obtain ⟨n, hn⟩ : ∃ n, d.length = n := ⟨_, rfl⟩
  rw [hn] at h6 h7
  have : n = 0 ∨ n = 1 ∨ n = 2 ∨ n = 3 ∨ n = 4 ∨ n = 5 := by omega
  rcases this with rfl | rfl | rfl | rfl | rfl | rfl <;> subst h6
  · exact absurd rfl hd
  iterate 4
    · rw [pred_tr rfl, show pred headEnv [] .stripDetect _ = ([], Fin.eos) from rfl, List.append_nil]
  · exact absurd (List.prefix_refl _) h4

/-! ## C82 -/

/-- **C82 (partial)**, heads, in every slicing: what was reported of `msg` is final, for any two clients, if they both lose the
letters that a first word in `H` has in common with `HTTP/`, or both do not (C72). When `msg` ends before it is known whether
there is such a word, this is not required. Missing: two clients of which only one loses them, see `C82_fails`. -/
theorem C82_head_every_slicing_partial (h1 h2 : Handler) (p1 p2 : Parser) (l : List Ev) (msg x : Bytes)
    (ks1 ks2 : List Nat) (b1 : Begins p1 msg ks1) (b2 : Begins p2 (msg ++ x) ks2)
    (hs : HWord msg → (Short msg ks1 ↔ Short (msg ++ x) ks2))
    (c1 : (drive h1 .idle ks1 ⟨p1, l⟩ msg).complete)
    (c2 : (drive h2 .idle ks2 ⟨p2, l⟩ (msg ++ x)).complete) :
    Continues x (drive h1 .idle ks1 ⟨p1, l⟩ msg) (drive h2 .idle ks2 ⟨p2, l⟩ (msg ++ x)) := by
  obtain ⟨a1, a2⟩ := begins_exact h1 b1 c1
  obtain ⟨e1, e2⟩ := begins_exact h2 b2 c2
  by_cases s1 : Short msg ks1
  · have s2 := (hs s1.1).1 s1
    have hd : msg.dropWhile lead ≠ [] := fun h => by have := s1.1.1; rw [h] at this; cases this
    have H2 := e1 s2
    rw [drop_more x hd, List.tail_append_of_ne_nil hd] at H2
    exact continues_of_sim (pred_more _ _ _ _) (a1 s1) H2 c1 c2
  · by_cases s2 : Short (msg ++ x) ks2
    · have hw : ¬ HWord msg := fun h => s1 ((hs h).2 s2)
      have H1 := a2 s1
      rw [quiet_word hw s2.1] at H1
      refine continues_of_sim ?_ H1 (e1 s2) c1 c2
      exact pred_prefix _ _ _
    · exact continues_of_sim (pred_more _ _ _ _) (a2 s1) (e2 s2) c1 c2

/-- A message of which the beginning was read byte by byte, then all of it in two slices; both clients lose the `H`. The same
for a beginning that may still be that of a response. -/
example :
    let m := b!" HEAD / HTTP/1.1\r\n\r\n"
    let o (m : Bytes) (ks : List Nat) := drive goOn .idle ks ⟨Parser.new.init .head, []⟩ m
    HWord (m.take 9) ∧ Short (m.take 9) (List.replicate 50 1) ∧ Short m [4, 100] ∧ ¬ HWord (m.take 2) ∧
    (o (m.take 9) (List.replicate 50 1)).last = .eos ∧ (o (m.take 2) [1, 1]).last = .eos ∧
    (o m [4, 100]).last = .finished ∧ flat (o (m.take 9) (List.replicate 50 1)).world.log =
      [.method b!"E", .method b!"A", .method b!"D", .url b!"/"] ∧ flat (o (m.take 2) [1, 1]).world.log = [] := by
  refine ⟨?_, ?_, ?_, ?_, ?_, ?_, ?_, ?_, ?_⟩ <;> first | decide +kernel | (unfold Short HWord; decide +kernel) | (unfold HWord; decide +kernel)

/-! ## C83 -/

/-- **C83 (partial)**, heads, without the exception of C18: a stream of bytes has at most one beginning that is an accepted
head, for any two clients, slicings and handlers. Missing: it may have two meanings, see `C83_fails`. -/
theorem C83_head_end_partial (h1 h2 : Handler) (p1 p2 : Parser) (l1 l2 : List Ev) (m1 m2 x1 x2 : Bytes)
    (e : m1 ++ x1 = m2 ++ x2) (ks1 ks2 : List Nat) (b1 : Begins p1 m1 ks1) (b2 : Begins p2 m2 ks2)
    (c1 : (drive h1 .idle ks1 ⟨p1, l1⟩ m1).whole) (c2 : (drive h2 .idle ks2 ⟨p2, l2⟩ m2).whole) :
    m1 = m2 ∧ x1 = x2 := by
  have g1 := begins_fin h1 b1 c1.1
  have g2 := begins_fin h2 b2 c2.1
  rw [c1.2] at g1
  rw [c2.2] at g2
  have key : ∀ (m x : Bytes) (l l' : List Ev), (pred headEnv (flat l) .stripDetect m).2 = .finished [] →
      (pred headEnv (flat l') .stripDetect (m ++ x)).2 = .finished [] → x = [] := by
    intro m x l l' a1 a2
    rw [pred_tr rfl] at a1 a2
    have := pred_append (env := headEnv) x m [] .stripDetect
    simp only at a1 a2
    rcases hq : pred headEnv [] .stripDetect m with ⟨L, f⟩
    rw [hq] at this a1
    simp only at a1
    subst a1
    simp only at this
    rw [this] at a2
    simpa using a2
  rcases List.append_eq_append_iff.mp e with ⟨x, hx, -⟩ | ⟨x, hx, -⟩
  · subst hx
    obtain rfl := key _ _ _ _ g1 g2
    simp at e
    exact ⟨by simp, e⟩
  · subst hx
    obtain rfl := key _ _ _ _ g2 g1
    simp at e
    exact ⟨by simp, e⟩

/-- **C83 (partial)**, heads, in every slicing: it has one meaning for all clients that lose the letters that a first word in `H`
has in common with `HTTP/`, and one for all clients that do not. -/
theorem C83_head_meaning_partial (h1 h2 : Handler) (p1 p2 : Parser) (l : List Ev) (m1 m2 x1 x2 : Bytes)
    (e : m1 ++ x1 = m2 ++ x2) (ks1 ks2 : List Nat) (b1 : Begins p1 m1 ks1) (b2 : Begins p2 m2 ks2)
    (hs : Short m1 ks1 ↔ Short m2 ks2)
    (c1 : (drive h1 .idle ks1 ⟨p1, l⟩ m1).whole) (c2 : (drive h2 .idle ks2 ⟨p2, l⟩ m2).whole) :
    m1 = m2 ∧ x1 = x2 ∧
      flat (drive h1 .idle ks1 ⟨p1, l⟩ m1).world.log = flat (drive h2 .idle ks2 ⟨p2, l⟩ m2).world.log := by
  obtain ⟨rfl, rfl⟩ := C83_head_end_partial h1 h2 p1 p2 l l m1 m2 x1 x2 e ks1 ks2 b1 b2 c1 c2
  refine ⟨rfl, rfl, ?_⟩
  have := C82_head_every_slicing_partial h1 h2 p1 p2 l m1 [] ks1 ks2 b1 (by rwa [List.append_nil])
    (fun _ => by rwa [List.append_nil]) c1.complete (by rw [List.append_nil]; exact c2.complete)
  rw [List.append_nil] at this
  exact (whole_of_continues (m2 := m1) (x := []) (List.append_nil _).symm this c1 c2).2

/-- One head, read in two ways; in the first and the third the word is short. -/
example : Begins (Parser.new.init .head) b!"HEAD / HTTP/1.1\r\n\r\n" [1, 100] ∧
    (drive goOn .idle [1, 100] ⟨Parser.new.init .head, []⟩ b!"HEAD / HTTP/1.1\r\n\r\n").whole ∧
    (drive goOn .idle [100] ⟨Parser.new.init .head, []⟩ b!"HEAD / HTTP/1.1\r\n\r\n").whole ∧
    (drive goOn .idle [3, 100] ⟨Parser.new.init .head, []⟩ b!"HEAD / HTTP/1.1\r\n\r\n").whole ∧
    Short b!"HEAD / HTTP/1.1\r\n\r\n" [1, 100] ∧ Short b!"HEAD / HTTP/1.1\r\n\r\n" [3, 100] :=
  ⟨.inl ⟨_, rfl⟩, ⟨by decide +kernel, by decide +kernel⟩, ⟨by decide +kernel, by decide +kernel⟩,
    ⟨by decide +kernel, by decide +kernel⟩, by unfold Short HWord; decide +kernel, by unfold Short HWord; decide +kernel⟩

/-- The full C83 fails: the same head, accepted as a whole by two clients, has two meanings. -/
theorem C83_fails :
    let a := drive goOn .idle [100] ⟨Parser.new.init .head, []⟩ b!"HEAD / HTTP/1.1\r\n\r\n"
    let b := drive goOn .idle [1, 100] ⟨Parser.new.init .head, []⟩ b!"HEAD / HTTP/1.1\r\n\r\n"
    a.whole ∧ b.whole ∧ flat a.world.log ≠ flat b.world.log :=
  ⟨⟨by decide +kernel, by decide +kernel⟩, ⟨by decide +kernel, by decide +kernel⟩, by decide +kernel⟩

/-! ## C51 -/

/-- **C51 (partial)**, without the exception of C18: in every slicing a head that is cut off before its last byte ends with
`Eos`, and what was reported is a beginning of what the whole head means, or lacks the first letters of a method in `H`;
except that a request with method `H`, `HT`, `HTT` or `HTTP` is rejected at the space after it when these are passed in slices
of fewer than nine bytes. Missing: this exception, for which the claim is false (`C51_fails`), and the heads that C25 and C26
miss. -/
theorem C51_every_slicing_partial (h : Handler) (p : Parser) (l : List Ev) (bl : Bytes) (x : Head) (y z : Bytes)
    (hb : ∀ b ∈ bl, b ∈ b!" \t\r\n") (hx : x.OK) (hy : x.write = y ++ z) (hz : z ≠ [])
    (ks : List Nat) (hq : Begins p (bl ++ y) ks) (hc : (drive h .idle ks ⟨p, l⟩ (bl ++ y)).complete) :
    let o := drive h .idle ks ⟨p, l⟩ (bl ++ y)
    o.last = .eos ∧ (∃ lost t, lost <+: b!"HTTP" ∧ (lost ≠ [] → Short (bl ++ y) ks) ∧ flat o.world.log = flat l ++ t ∧
      (lost.map fun c => Ev.method [c]) ++ t <+: flat x.events) ∨
    o.last = .err (.method (c! ' ')) ∧ Short (bl ++ y) ks ∧
      ∃ m r, m ∈ [b!"H", b!"HT", b!"HTT", b!"HTTP"] ∧ y = m ++ c! ' ' :: r ∧ o.rest = r ∧ flat o.world.log = flat l := by
  intro o
  have hp := pred_head hx (flat l) []
  rw [List.append_nil, hy] at hp
  obtain ⟨L', h1, h2⟩ := pred_cutoff hz hp
  have hK : pred headEnv (flat l) .stripDetect (bl ++ y) = (L', .eos) := by
    rw [pred_lead _ hb]
    cases y with
    | nil => rw [← h1]; simp [pred, norm]
    | cons b y =>
      obtain ⟨b', t, e, hb'⟩ := Head.first hx
      rw [hy] at e
      simp only [List.cons_append, List.cons.injEq] at e
      rw [← h1, strip_eq (by rw [e.1]; exact hb')]
  have k := begins_exact h hq hc
  by_cases hs : Short (bl ++ y) ks
  · obtain ⟨bl', m, b, r, e, h3, h4, h5, h6⟩ := short_pred hs.1 (flat l)
    by_cases hbs : b = c! ' '
    · subst hbs
      right
      have hd : (bl ++ y).dropWhile lead = y := by
        cases y with
        | nil =>
          clear hq hc hs e k hK o h5 h6
          induction bl with
          | nil => rfl
          | cons c bl ih =>
            rw [List.cons_append, List.dropWhile_cons_of_pos (by simpa [lead] using hb c (by simp))]
            exact ih fun b h => hb b (by simp [h])
        | cons b y =>
          obtain ⟨b', t, e', hb'⟩ := Head.first hx
          rw [hy] at e'
          simp only [List.cons_append, List.cons.injEq] at e'
          exact drop_lead hb (by rw [← isBlank_lead, e'.1]; exact hb')
      have hd' : (bl ++ y).dropWhile lead = m ++ c! ' ' :: r := by
        obtain ⟨u, hu⟩ := differs_head h4
        rw [e, List.append_assoc, hu]
        exact drop_lead h3 (by decide)
      have hy' := hd.symm.trans hd'
      rw [e] at hq hc hs
      have := C72_whole_word_is_rejected h p l bl' m r h3 h4 ks hq hs.2 hc
      rw [← e] at this hs
      obtain ⟨h9, h10, h11⟩ := this
      refine ⟨h9, hs, m, r, ?_, hy', h11, h10⟩
      rcases h4.cases with ⟨rfl, -⟩ | ⟨rfl, -⟩ | ⟨rfl, -⟩ | ⟨rfl, -⟩ <;> simp
    · left
      obtain ⟨t, f, hf, h7, h8⟩ := h6 hbs
      rw [hK] at h7
      simp only [Prod.mk.injEq] at h7
      obtain ⟨rfl, rfl⟩ := h7
      obtain ⟨h9, h10, -⟩ := complete_eos (k.1 hs) hc h8
      refine ⟨h9, m, t, h4.like, fun _ => hs, h10, ?_⟩
      rwa [List.append_assoc, List.prefix_append_right_inj] at h2
  · obtain ⟨h9, h10, -⟩ := complete_eos (k.2 hs) hc hK
    have h0 := pred_tr (env := headEnv) rfl y (flat l) .detect1
    rw [h1] at h0
    obtain ⟨rfl, -⟩ := Prod.mk.inj h0
    exact .inl ⟨h9, [], _, by simp, by simp, h10, by simpa using h2⟩

/-- Cut-off heads in slices of one byte; the second lacks its first letter. -/
example : (drive goOn .idle (List.replicate 50 1) ⟨Parser.new.init .head, []⟩ b!" GET / HTT").last = .eos ∧
    (drive goOn .idle (List.replicate 50 1) ⟨Parser.new.init .head, []⟩ b!" HEAD / HTT").last = .eos ∧
    flat (drive goOn .idle (List.replicate 50 1) ⟨Parser.new.init .head, []⟩ b!" HEAD / HTT").world.log =
      [.method b!"E", .method b!"A", .method b!"D", .url b!"/"] := by decide +kernel

/-- The full C51 fails: cut after its second or third byte, an accepted head is rejected. -/
theorem C51_fails :
    (drive goOn .idle [100] ⟨.new, []⟩ b!"H / HTTP/1.1\r\n\r\n").last = .finished ∧
    (drive goOn .idle [100] ⟨.new, []⟩ b!"H /").last = .err (.method (c! ' ')) := by decide +kernel

/-! ## Others -/

/-- The full C31 fails: without fast paths the letter `H` is lost. -/
theorem C31_fails :
    (drive goOn .idle [100] ⟨Parser.new.init .head, []⟩ b!"HEAD / HTTP/1.1\r\n\r\n").world.log.head? =
      some (.method b!"HEAD") ∧
    (drive goOn .idle (List.replicate 50 1) ⟨Parser.new.init .head, []⟩ b!"HEAD / HTTP/1.1\r\n\r\n").world.log.head? =
      some (.method b!"E") := by decide +kernel

/-- The full C53 fails: a body with an empty trailer is rejected before its last byte. -/
theorem C53_fails :
    (drive goOn .idle [100] ⟨Parser.new.init .chunked, []⟩ b!"0\r\nA: \r\n").last = .err (.headerValue (c! '\r')) := by
  decide +kernel

/-- The full C56 fails: the space is reported as an error, but with it and more bytes the message is accepted. -/
theorem C56_fails :
    (drive goOn .idle [100] ⟨.new, []⟩ b!"H ").last = .err (.method (c! ' ')) ∧
    (drive goOn .idle [100] ⟨.new, []⟩ b!"H / HTTP/1.1\r\n\r\n").last = .finished := by decide +kernel

/-- The full C68 fails: of data that ends with CR more is reported than there is. -/
theorem C68_fails :
    let ps : List Part := [⟨[], b!"data\r"⟩, ⟨[], b!"more"⟩]
    let y := b!"--XyZ\r\n\r\ndata\r\r\n--XyZ\r\n\r\nmo"
    let o := drive goOn .idle [100] ⟨(Parser.new.init .multipart).setBoundary b!"XyZ", []⟩ y
    y <+: writeParts b!"XyZ" ps ∧ o.last = .eos ∧
      ¬ flat o.world.log <+: flat (ps.flatMap Part.events ++ [.bodyFinished]) := by decide +kernel

/-- The full C82 fails: a message that was rejected is accepted when more bytes follow at once. -/
theorem C82_fails :
    (drive goOn .idle [100] ⟨Parser.new.init .head, []⟩ b!"H ").last = .err (.method (c! ' ')) ∧
    (drive goOn .idle [100] ⟨Parser.new.init .head, []⟩ (b!"H " ++ b!"/ HTTP/1.1\r\n\r\n")).last = .finished := by decide +kernel

/-- The full C73 fails: the head of a request with method `HEAD` is read differently when its first byte arrives alone. -/
theorem C73_fails :
    let next : List Ev → Option Mode := fun _ => none
    let o := serve goOn next .idle [1, 100] ⟨Mode.prepare .head Parser.new, []⟩ b!"HEAD / HTTP/1.1\r\n\r\n"
    o.last = .finished ∧ o.world.log.head? = some (.method b!"EAD") := by decide +kernel

end Verif.Http1
