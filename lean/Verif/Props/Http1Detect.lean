import Verif.Http1.Misread
import Verif.Props.Http1RoundTrip

/-!
# Properties about the first token of a head

C72: what becomes of a head whose first word starts with `H` and arrives in a call with fewer than nine
bytes of it. The specification is in `Verif.Http1.DetectSpec`. `drive h .idle ks w msg` is the run of a
client over `msg` with slices of the lengths `ks`.
-/

namespace Verif.Http1

/-! ## Helper lemmas -/

theorem begins_exact (h : Handler) {p : Parser} {l : List Ev} {msg : Bytes} {ks : List Nat}
    (hp : Begins p msg ks) (hc : (drive h .idle ks ⟨p, l⟩ msg).complete) :
    (Short msg ks → DriveSim (fun _ _ => True) (pred headEnv (flat l) .ldet2 (msg.dropWhile lead).tail)
      (drive h .idle ks ⟨p, l⟩ msg)) ∧
    (¬ Short msg ks → DriveSim (fun _ _ => True) (pred headEnv (flat l) .stripDetect msg)
      (drive h .idle ks ⟨p, l⟩ msg)) := by
  have key : (HWord msg → (tokenSlice ks msg).length < 9 →
      DriveSim (fun _ _ => True) (pred headEnv (flat l) .ldet2 (msg.dropWhile lead).tail) (drive h .idle ks ⟨p, l⟩ msg)) ∧
    (¬ HWord msg ∨ 9 ≤ (tokenSlice ks msg).length →
      DriveSim (fun _ _ => True) (pred headEnv (flat l) .stripDetect msg) (drive h .idle ks ⟨p, l⟩ msg)) := by
    rcases hp with ⟨q, rfl⟩ | ⟨rfl, k, b, hk, hb, hl⟩
    · exact drive_exact (env := headEnv) bdOK_none (clOK_of (by decide)) rfl ks .idle ⟨q.init .head, l⟩ msg (.inl rfl)
        rfl rfl rfl hc
    · cases ks with
      | nil => cases hk
      | cons a ks =>
        cases hk
        exact drive_exact_new (env := headEnv) bdOK_none (clOK_of (by decide)) rfl k ks ⟨.new, l⟩ msg rfl rfl rfl hb hl
  refine ⟨fun hs => key.1 hs.1 hs.2, fun hs => key.2 ?_⟩
  by_cases a : HWord msg
  · right
    by_contra hh
    exact hs ⟨a, by omega⟩
  · exact .inl a

theorem drive_err_log {h : Handler} : ∀ (ks : List Nat) (last : End) (w : World) (rem : Bytes) (e : PErr),
    w.p.ptype = .head → (∀ e, last ≠ .err e) → (drive h last ks w rem).last = .err e →
    w.log <+: (drive h last ks w rem).world.log
  | [], last, w, rem, e, _, hn, he => absurd he (hn e)
  | k :: ks, last, w, rem, e, hp, _, he => by
    have h1 := callOK_plain (h := h) (s := rem.take k) (w := w) (by rw [hp]; nofun)
    simp only [drive] at he ⊢
    revert h1 he
    generalize resume h w (rem.take k) = r
    obtain ⟨r, w'⟩ := r
    intro he h1
    cases r with
    | ok s =>
      cases s with
      | callback n =>
        obtain ⟨_, _, h2, _, _, ⟨l, e', h3, h4, _⟩, _⟩ := h1
        have := drive_err_log ks .callback w' (rem.drop n) e (h2.trans hp) nofun he
        exact (h3.trans (by rw [h4]; exact List.prefix_append _ _)).trans this
      | eos n =>
        have := drive_err_log ks .eos w' (rem.drop n) e (h1.2.2.1.trans hp) nofun he
        exact h1.2.2.2.2.2.trans this
      | finished n => cases he
    | err e' => exact h1.2.2.2.2.2.2
    | panic => cases he
    | ub => cases he
    | diverge => cases he

theorem begins_head {p : Parser} {msg : Bytes} {ks : List Nat} (hp : Begins p msg ks) : p.ptype = .head := by
  rcases hp with ⟨q, rfl⟩ | ⟨rfl, _⟩ <;> rfl

theorem differs_head {p : Bytes} {b : UInt8} (h : Differs p b) : ∃ t, p = c! 'H' :: t := by
  rcases h.cases with ⟨rfl, _⟩ | ⟨rfl, _⟩ | ⟨rfl, _⟩ | ⟨rfl, _⟩ <;> exact ⟨_, rfl⟩

theorem drop_lead {bl x : Bytes} {a : UInt8} (hb : ∀ b ∈ bl, b ∈ b!" \t\r\n") (ha : lead a = false) :
    (bl ++ a :: x).dropWhile lead = a :: x := by
  induction bl with
  | nil => simp [List.dropWhile, ha]
  | cons c bl ih =>
    have : lead c = true := by simpa [lead] using hb c (by simp)
    simp only [List.cons_append, List.dropWhile, this]
    exact ih fun b h => hb b (by simp [h])

theorem pred_lead {bl m : Bytes} (tr : List Ev) (hb : ∀ b ∈ bl, b ∈ b!" \t\r\n") :
    pred headEnv tr .stripDetect (bl ++ m) = pred headEnv tr .stripDetect m := by
  have hl := pred_loop (env := headEnv) (s := .stripDetect) (ev := fun _ => []) (fun _ => rfl) nofun bl tr m
    (by
      intro b hb'
      have hbl : b ∈ ([32, 9, 13, 10] : Bytes) := hb b hb'
      simp only [List.mem_cons, List.not_mem_nil, or_false] at hbl
      rcases hbl with rfl | rfl | rfl | rfl <;> rfl)
  rw [hl, show bl.flatMap (fun _ => ([] : List Ev)) = [] by simp, List.append_nil]

theorem not_short_of_word {bl m : Bytes} {a : UInt8} {ks : List Nat} (hb : ∀ b ∈ bl, b ∈ b!" \t\r\n")
    (ha : lead a = false) (hh : a ≠ c! 'H') : ¬ Short (bl ++ a :: m) ks := by
  rintro ⟨⟨h1, _⟩, _⟩
  rw [drop_lead hb ha] at h1
  simp at h1
  exact hh h1

theorem pred_method_split (tr gone : List Ev) (m : Bytes) : ∃ t f, (∀ r, f ≠ .errB r) ∧
    pred headEnv (tr ++ gone) .method m = (tr ++ gone ++ t, f) ∧ pred headEnv tr .method m = (tr ++ t, f) :=
  ⟨(pred headEnv [] .method m).1, (pred headEnv [] .method m).2, pred_no_errB rfl _ _ _,
    pred_tr rfl _ _ _, pred_tr rfl _ _ _⟩

theorem hword_of {bl p : Bytes} {b : UInt8} {r : Bytes} (hbl : ∀ c ∈ bl, c ∈ b!" \t\r\n") (hd : Differs p b) :
    HWord (bl ++ p ++ b :: r) ∧ ((bl ++ p ++ b :: r).dropWhile lead).tail = p.tail ++ b :: r := by
  obtain ⟨t, ht⟩ := differs_head hd
  have e : (bl ++ p ++ b :: r).dropWhile lead = p ++ b :: r := by
    rw [List.append_assoc, ht]; exact drop_lead hbl (by decide)
  refine ⟨⟨by rw [e, ht]; rfl, ?_, ?_⟩, by rw [e, ht]; rfl⟩ <;> rw [e]
  · rintro ⟨u, hu⟩
    rcases hd.cases with ⟨rfl, hx⟩ | ⟨rfl, hx⟩ | ⟨rfl, hx⟩ | ⟨rfl, hx⟩ <;> simp at hu <;>
      first | exact hx hu.symm | exact hx hu.1.symm
  · rintro ⟨u, hu⟩
    rcases hd.cases with ⟨rfl, hx⟩ | ⟨rfl, hx⟩ | ⟨rfl, hx⟩ | ⟨rfl, hx⟩ <;> simp at hu <;>
      first | exact hx hu | exact hx hu.1

theorem pred_upper_word {m : Bytes} {a : UInt8} (hm : ∀ c ∈ a :: m, UpperByte c) (ha : a ≠ c! 'H') (tr : List Ev)
    (x : Bytes) : pred headEnv tr .stripDetect ((a :: m) ++ x) =
      pred headEnv (tr ++ (a :: m).map fun c => .method [c]) .method x := by
  rw [List.cons_append, strip_first (by rw [← isBlank_lead]; exact upper_not_blank (hm a (by simp))),
    pred_detect1_other a (upper_of (hm a (by simp))) ha, pred_method m _ _ fun b hb => upper_of (hm b (by simp [hb]))]
  simp

/-! ## C72 -/

/-- **C72.** Any two complete runs over the same head that both get, or both do not get, fewer than nine
bytes together with a first word in `H` come to the same end.
Missing: a parser made with `new` whose first slice is empty or starts with a blank (see `Begins`). -/
theorem C72_two_readings_partial (h1 h2 : Handler) (p : Parser) (l : List Ev) (msg : Bytes) (ks1 ks2 : List Nat)
    (b1 : Begins p msg ks1) (b2 : Begins p msg ks2) (hs : Short msg ks1 ↔ Short msg ks2)
    (c1 : (drive h1 .idle ks1 ⟨p, l⟩ msg).complete) (c2 : (drive h2 .idle ks2 ⟨p, l⟩ msg).complete) :
    Agree (drive h1 .idle ks1 ⟨p, l⟩ msg) (drive h2 .idle ks2 ⟨p, l⟩ msg) := by
  by_cases a : Short msg ks1
  · exact agree_of_sim ((begins_exact h1 b1 c1).1 a) ((begins_exact h2 b2 c2).1 (hs.1 a)) c1 c2
  · exact agree_of_sim ((begins_exact h1 b1 c1).2 a) ((begins_exact h2 b2 c2).2 (fun x => a (hs.2 x))) c1 c2

/-- **C72.** Every word in `H` that differs from `HTTP/` has a part in common with it and a byte that
differs. -/
theorem C72_words (msg : Bytes) (hw : HWord msg) :
    ∃ bl p b r, msg = bl ++ p ++ b :: r ∧ (∀ c ∈ bl, c ∈ b!" \t\r\n") ∧ Differs p b := by
  obtain ⟨p, b, r, e, hd⟩ := exists_differs hw.1 hw.2.1 hw.2.2
  refine ⟨msg.takeWhile lead, p, b, r, ?_, ?_, hd⟩
  · rw [List.append_assoc, ← e, List.takeWhile_append_dropWhile]
  · intro c hc
    have := List.all_takeWhile (p := lead) (l := msg)
    rw [List.all_eq_true] at this
    simpa [lead] using this c hc

/-- **C72.** When the byte that differs is not a space, the short reading loses the letters before it and
nothing else: it ends as the other reading of the same message. -/
theorem C72_letters_are_lost (h1 h2 : Handler) (q : Parser) (l : List Ev) (bl p : Bytes) (b : UInt8) (r : Bytes)
    (hbl : ∀ c ∈ bl, c ∈ b!" \t\r\n") (hd : Differs p b) (hb : b ≠ c! ' ') (ks1 ks2 : List Nat)
    (b1 : Begins q (bl ++ p ++ b :: r) ks1) (b2 : Begins q (bl ++ p ++ b :: r) ks2)
    (s1 : 9 ≤ (tokenSlice ks1 (bl ++ p ++ b :: r)).length) (s2 : (tokenSlice ks2 (bl ++ p ++ b :: r)).length < 9)
    (c1 : (drive h1 .idle ks1 ⟨q, l⟩ (bl ++ p ++ b :: r)).complete)
    (c2 : (drive h2 .idle ks2 ⟨q, l⟩ (bl ++ p ++ b :: r)).complete) :
    Loses (p.map fun c => .method [c]) l (drive h1 .idle ks1 ⟨q, l⟩ (bl ++ p ++ b :: r))
      (drive h2 .idle ks2 ⟨q, l⟩ (bl ++ p ++ b :: r)) := by
  obtain ⟨t, ht⟩ := differs_head hd
  have k1 := (begins_exact h1 b1 c1).2 (fun x => by have := x.2; omega)
  have k2 := (begins_exact h2 b2 c2).1 ⟨(hword_of hbl hd).1, s2⟩
  rw [(hword_of hbl hd).2, pred_lost hd hb] at k2
  rw [List.append_assoc, pred_lead _ hbl, ht, List.cons_append, strip_first (by decide), ← List.cons_append, ← ht,
    pred_differs hd, ← List.append_assoc] at k1
  obtain ⟨t', f, hf, e3, e4⟩ := pred_method_split (flat l) (p.map fun c => .method [c]) (b :: r)
  rw [e3] at k1
  rw [e4] at k2
  exact loses_of_sim k1 k2 hf c1 c2

/-- **C72.** The short reading of a word in `H` is the reading of the same head with any other word in place
of the lost letters, without the callbacks of that word. -/
theorem C72_reads_like_another_word (h1 h2 : Handler) (q1 q2 : Parser) (l : List Ev) (bl1 bl2 p m : Bytes)
    (a b : UInt8) (r : Bytes) (hbl1 : ∀ c ∈ bl1, c ∈ b!" \t\r\n") (hbl2 : ∀ c ∈ bl2, c ∈ b!" \t\r\n")
    (hm : ∀ c ∈ a :: m, UpperByte c) (ha : a ≠ c! 'H') (hd : Differs p b) (hb : b ≠ c! ' ') (ks1 ks2 : List Nat)
    (b1 : Begins q1 (bl1 ++ (a :: m) ++ b :: r) ks1) (b2 : Begins q2 (bl2 ++ p ++ b :: r) ks2)
    (s2 : (tokenSlice ks2 (bl2 ++ p ++ b :: r)).length < 9)
    (c1 : (drive h1 .idle ks1 ⟨q1, l⟩ (bl1 ++ (a :: m) ++ b :: r)).complete)
    (c2 : (drive h2 .idle ks2 ⟨q2, l⟩ (bl2 ++ p ++ b :: r)).complete) :
    Loses ((a :: m).map fun c => .method [c]) l (drive h1 .idle ks1 ⟨q1, l⟩ (bl1 ++ (a :: m) ++ b :: r))
      (drive h2 .idle ks2 ⟨q2, l⟩ (bl2 ++ p ++ b :: r)) := by
  have hn : ¬ Short (bl1 ++ (a :: m) ++ b :: r) ks1 := by
    rw [List.append_assoc, List.cons_append]
    exact not_short_of_word hbl1 (by rw [← isBlank_lead]; exact upper_not_blank (hm a (by simp))) ha
  have k1 := (begins_exact h1 b1 c1).2 hn
  have k2 := (begins_exact h2 b2 c2).1 ⟨(hword_of hbl2 hd).1, s2⟩
  rw [(hword_of hbl2 hd).2, pred_lost hd hb] at k2
  rw [List.append_assoc, pred_lead _ hbl1, pred_upper_word hm ha, ← List.append_assoc] at k1
  obtain ⟨t', f, hf, e3, e4⟩ := pred_method_split (flat l) ((a :: m).map fun c => .method [c]) (b :: r)
  rw [e3] at k1
  rw [e4] at k2
  exact loses_of_sim k1 k2 hf c1 c2

/-- **C72.** When the word is one of `H`, `HT`, `HTT` and `HTTP` (a space follows), the short reading rejects
it: the space is reported as a wrong byte of a method, and no callback is made. -/
theorem C72_whole_word_is_rejected (h : Handler) (q : Parser) (l : List Ev) (bl p : Bytes) (r : Bytes)
    (hbl : ∀ c ∈ bl, c ∈ b!" \t\r\n") (hd : Differs p (c! ' ')) (ks : List Nat)
    (hq : Begins q (bl ++ p ++ c! ' ' :: r) ks) (hs : (tokenSlice ks (bl ++ p ++ c! ' ' :: r)).length < 9)
    (hc : (drive h .idle ks ⟨q, l⟩ (bl ++ p ++ c! ' ' :: r)).complete) :
    let o := drive h .idle ks ⟨q, l⟩ (bl ++ p ++ c! ' ' :: r)
    o.last = .err (.method (c! ' ')) ∧ flat o.world.log = flat l ∧ o.rest = r := by
  intro o
  have k := (begins_exact h hq hc).1 ⟨(hword_of hbl hd).1, hs⟩
  rw [(hword_of hbl hd).2, pred_lost_space hd] at k
  have hlog := drive_err_log (h := h) ks .idle ⟨q, l⟩ (bl ++ p ++ c! ' ' :: r) (.method (c! ' ')) (begins_head hq) nofun
  change DriveSim _ _ o at k
  change o.complete at hc
  change o.last = _ → l <+: o.world.log at hlog
  generalize o = o at k hc hlog
  obtain ⟨la, wo, re⟩ := o
  cases la <;> simp only [Outcome.complete] at hc <;> simp only [DriveSim] at k
  · have := k.2 hc; simp at this
  · simp at k
  · rcases k with ⟨d, _, k⟩ | ⟨k, _⟩
    · simp only [Prod.mk.injEq, Fin.err.injEq] at k
      obtain ⟨k1, k2, k3⟩ := k
      subst k2
      obtain ⟨t, ht⟩ := hlog rfl
      refine ⟨rfl, ?_, k3.symm⟩
      have : flat wo.log = flat l ++ flat t := by rw [← ht]; simp [flat]
      rw [this] at k1 ⊢
      have hlen := congrArg List.length k1
      simp only [List.length_append] at hlen
      rw [List.eq_nil_of_length_eq_zero (l := flat t) (by omega), List.append_nil]
    · simp at k
  · simp at k

/-- **C72.** A well-formed request with a method in `H` and a short first slice: the method is reported
without the letters that it has in common with `HTTP/`; everything else is as written. -/
theorem C72_requests (h : Handler) (q : Parser) (l : List Ev) (x : Request) (hx : x.OK) (p m : Bytes) (b : UInt8)
    (hm : x.method = p ++ b :: m) (hd : Differs p b) (rest : Bytes) (ks : List Nat)
    (hq : Begins q (x.write ++ rest) ks) (hs : (tokenSlice ks (x.write ++ rest)).length < 9)
    (hc : (drive h .idle ks ⟨q, l⟩ (x.write ++ rest)).complete) :
    let o := drive h .idle ks ⟨q, l⟩ (x.write ++ rest)
    o.last = .finished ∧ o.rest = rest ∧ flat o.world.log = flat (l ++ { x with method := b :: m }.events) := by
  intro o
  obtain ⟨hn, hu⟩ := hx.method
  have hup : ∀ c ∈ b :: m, isUpper c = true := fun c h => upper_of (hu c (by rw [hm]; simp at h ⊢; tauto))
  obtain ⟨y, hy⟩ : ∃ y, y = (x.url ++ b!" HTTP/" ++ x.major ++ b!"." ++ x.minor ++ b!"\r\n" ++
      x.headers.flatMap Header.write ++ b!"\r\n") := ⟨_, rfl⟩
  have e2 : x.write ++ rest = ([] ++ p) ++ b :: (m ++ c! ' ' :: (y ++ rest)) := by simp [Request.write, hm, hy]
  have hb : b ≠ c! ' ' := by
    rintro rfl
    exact absurd (hup (c! ' ') (by simp)) (by decide)
  have k := (begins_exact h hq hc).1 ⟨by rw [e2]; exact (hword_of (bl := []) (by simp) hd).1, hs⟩
  have hK : pred headEnv (flat l) .ldet2 ((x.write ++ rest).dropWhile lead).tail =
      (flat l ++ flat { x with method := b :: m }.events, .finished rest) := by
    rw [e2, (hword_of (bl := []) (by simp) hd).2, pred_lost hd hb, ← List.cons_append, pred_method _ _ _ hup,
      pred_next (s1 := .method) (es0 := []) (es := []) (s' := .url1) rfl nofun rfl]
    have := (runs_request_tail (env := headEnv) hx).finish (es' := [.headersFinished]) (fun _ => rfl)
      (flat l ++ (b :: m).map fun c => .method [c]) rest
    rw [← hy] at this
    simp only [List.append_nil]
    rw [this]
    simp [Request.events, flat, flatEv]
  obtain ⟨h1, h2, h3⟩ := complete_fin k hc hK
  exact ⟨h1, h3, by rw [h2]; simp [flat]⟩

/-- **C72.** For a parser that was initialised or reset for heads, every long enough schedule of non-empty
slices gives a complete run, whatever the message and the first slice. -/
theorem C72_runs_complete (h : Handler) (q : Parser) (l : List Ev) (msg : Bytes) :
    ∃ N, ∀ ks, (∀ x ∈ ks, 0 < x) → N ≤ ks.length → (drive h .idle ks ⟨q.init .head, l⟩ msg).complete := by
  refine ⟨enough headEnv (flat l) msg + 1, fun ks hk hl => ?_⟩
  cases ks with
  | nil => simp at hl
  | cons k ks =>
    refine complete_exact (env := headEnv) bdOK_none (clOK_of (by decide)) rfl ks k .idle ⟨q.init .head, l⟩ msg
      rfl rfl rfl hk ?_
    simp only [List.length_cons] at hl
    show enough headEnv (flat l) msg ≤ ks.length + (flat l).length
    omega

/-- HEAD in a first slice of four bytes after blanks of their own slice, read against HEAD at once and against
XHEAD; a method HT. -/
example :
    let msg := b!"\r\nHEAD / HTTP/1.1\r\n\r\n"
    let w : World := ⟨Parser.new.init .head, []⟩
    Differs b!"H" (c! 'E') ∧ Differs b!"HT" (c! ' ') ∧ tokenSlice [2, 4, 100] msg = b!"HEAD" ∧
    tokenSlice [1, 100] msg = b!"HEAD / HTTP/1.1\r\n\r\n" ∧
    (drive goOn .idle [2, 4, 100] w msg).complete ∧ (drive goOn .idle [1, 100] w msg).complete ∧
    (drive goOn .idle [2, 4, 100] w msg).world.log.head? = some (.method b!"EAD") ∧
    (drive goOn .idle [1, 100] w msg).world.log.head? = some (.method b!"HEAD") ∧
    (drive goOn .idle [5, 100] w b!"HT / HTTP/1.1\r\n\r\n").last = .err (.method (c! ' ')) :=
  ⟨⟨by decide, by decide, by decide⟩, ⟨by decide, by decide, by decide⟩, by decide +kernel, by decide +kernel,
    by decide +kernel, by decide +kernel, by decide +kernel, by decide +kernel, by decide +kernel⟩

example : Begins (Parser.new.init .head) b!"HEAD /" [4, 2] ∧ Begins .new b!"HEAD /" [4, 2] ∧ Short b!"HEAD /" [4, 2] ∧
    ¬ Short b!"HTTP/1.1 200 OK\r\n" [4, 2] :=
  ⟨.inl ⟨_, rfl⟩, .inr ⟨rfl, 4, c! 'H', rfl, by decide, by decide⟩, ⟨⟨by decide, by decide, by decide⟩, by decide⟩,
    fun h => absurd h.1.2.1 (by decide)⟩

end Verif.Http1
