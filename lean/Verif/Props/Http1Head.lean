import Verif.Http1.AnyBoundary
import Verif.Http1.Lengths
import Verif.Http1.HeadNum
import Verif.Props.Http1Slicing

/-!
# Properties of the callbacks of heads

C27 (names), C28 (no control bytes), C29 (order), C30 (numbers). They hold for every message, also for
malformed ones, for every way of cutting it into slices and every handler, at every moment of a run
(a schedule may stop anywhere).
-/

namespace Verif.Http1

/-- A parser at the start of a head: initialised or reset for heads, or just made with `new`. In the
latter case the first slice must not be empty (with an empty slice the code reads out of bounds, see
C14). -/
def HeadStart (p : Parser) (first : Bytes) : Prop :=
  (∃ q : Parser, p = q.init .head) ∨ p = .new ∧ first ≠ []

theorem head_run (h : Handler) {p : Parser} {k : Nat} {ks : List Nat} {msg : Bytes}
    (hp : HeadStart p (msg.take k)) :
    ∃ K, HeadRun ⟨.head, none, noCl⟩ [] msg K (drive h .idle (k :: ks) ⟨p, []⟩ msg) := by
  rcases hp with ⟨q, rfl⟩ | ⟨rfl, hne⟩
  · exact drive_any (env := ⟨.head, none, noCl⟩) bdOK_none (clOK_of (by decide)) rfl rfl (k :: ks) .idle ⟨q.init .head, []⟩ msg (.inl rfl) rfl rfl rfl
  · exact drive_any_new (env := ⟨.head, none, noCl⟩) bdOK_none (clOK_of (by decide)) rfl rfl k ks ⟨.new, []⟩ msg rfl rfl rfl hne

theorem HeadK.clean {env : Env} {msg : Bytes} {K : List Ev × Fin} (h : HeadK env [] msg K) :
    ∀ e ∈ K.1, Clean e := by
  rcases h with ⟨s, m, _, _, rfl⟩ | ⟨m, _, rfl⟩ <;> exact pred_clean _ _ _ (by simp [flat])

theorem clean_of_prefix {l : List Ev} {K : List Ev × Fin} (h : ∀ e ∈ K.1, Clean e) (hp : flat l <+: K.1) :
    ∀ e ∈ l, Clean e :=
  clean_of_flat fun e he => h e (hp.subset he)

theorem head_clean (h : Handler) {p : Parser} {k : Nat} {ks : List Nat} {msg : Bytes}
    (hp : HeadStart p (msg.take k)) : ∀ e ∈ (drive h .idle (k :: ks) ⟨p, []⟩ msg).world.log, Clean e := by
  obtain ⟨K, H⟩ := head_run h (ks := ks) hp
  exact clean_of_prefix H.form.clean H.pre

theorem chunked_clean (h : Handler) (q : Parser) (k : Nat) (ks : List Nat) (msg : Bytes) :
    ∀ e ∈ (drive h .idle (k :: ks) ⟨q.init .chunked, []⟩ msg).world.log, Clean e := by
  have H := start_chunked (q := q) (l := []) (s := msg.take k) (fut := msg.drop k)
  rw [List.take_append_drop] at H
  refine clean_of_prefix ?_ (run_sim bdOK_none (clOK_of (by decide)) k ks H).prefix
  rw [startK, if_neg (by decide)]
  exact pred_clean _ _ _ (by simp [flat])

/-! ## C27 -/

/-- **C27 (partial)** for heads: every byte of a header name is a token byte and not an upper-case letter. Missing: an
empty first slice for a parser made with `new`, where the code reads out of bounds. -/
theorem C27_head_names_partial (h : Handler) (p : Parser) (k : Nat) (ks : List Nat) (msg : Bytes)
    (hp : HeadStart p (msg.take k)) :
    ∀ e ∈ (drive h .idle (k :: ks) ⟨p, []⟩ msg).world.log, LowerName e :=
  fun e he => (head_clean h hp e he).1

/-- **C27** for the trailers and the extension names of chunked bodies. -/
theorem C27_chunked_names (h : Handler) (q : Parser) (k : Nat) (ks : List Nat) (msg : Bytes) :
    ∀ e ∈ (drive h .idle (k :: ks) ⟨q.init .chunked, []⟩ msg).world.log, LowerName e :=
  fun e he => (chunked_clean h q k ks msg e he).1

/-- **C27** for the header names of multipart bodies, with every boundary, also one with CR, one of any length, or none. -/
theorem C27_multipart_names (h : Handler) (p : Parser) (hp : MultipartStart p) (ks : List Nat) (msg : Bytes) :
    ∀ e ∈ (drive h .idle ks ⟨p, []⟩ msg).world.log, LowerName e :=
  fun e he => (multipart_any_clean h hp ks msg e he).1

/-- Header names with upper-case letters, an extension name, and a part with a header. -/
example :
    .headerName b!"h" ∈ (drive goOn .idle [100] ⟨.new, []⟩ b!"GET / HTTP/1.1\r\nHoST: x\r\n\r\n").world.log ∧
    .chunkExtensionName b!"e" ∈ (drive goOn .idle [100] ⟨Parser.new.init .chunked, []⟩ b!"5;E=v\r\n").world.log ∧
    .headerName b!"a" ∈ (drive goOn .idle [100] ⟨(Parser.new.init .multipart).setBoundary b!"X", []⟩
      b!"--X\r\nA: b\r\n\r\n").world.log := by decide +kernel

/-- A part with a header, with a boundary that contains CR. -/
example : MultipartStart ((Parser.new.init .multipart).setBoundary b!"X\rZ") ∧
    .headerName b!"a" ∈ (drive goOn .idle (List.replicate 30 1) ⟨(Parser.new.init .multipart).setBoundary b!"X\rZ", []⟩
      b!"--X\rZ\r\nA: b\r\n\r\n").world.log := ⟨⟨_, .inr ⟨_, rfl⟩⟩, by decide +kernel⟩

/-! ## C28 -/

/-- **C28 (partial)** for heads: methods are upper-case letters, URLs visible 7-bit bytes, reasons contain no
control bytes, and header values none but TAB. Missing: an
empty first slice for a parser made with `new`, where the code reads out of bounds. -/
theorem C28_head_data_partial (h : Handler) (p : Parser) (k : Nat) (ks : List Nat) (msg : Bytes)
    (hp : HeadStart p (msg.take k)) :
    ∀ e ∈ (drive h .idle (k :: ks) ⟨p, []⟩ msg).world.log, CleanData e :=
  fun e he => (head_clean h hp e he).2

/-- **C28** for trailers. -/
theorem C28_chunked_data (h : Handler) (q : Parser) (k : Nat) (ks : List Nat) (msg : Bytes) :
    ∀ e ∈ (drive h .idle (k :: ks) ⟨q.init .chunked, []⟩ msg).world.log, CleanData e :=
  fun e he => (chunked_clean h q k ks msg e he).2

/-- **C28** for the headers of parts, with every boundary, also one with CR, one of any length, or none. -/
theorem C28_multipart_data (h : Handler) (p : Parser) (hp : MultipartStart p) (ks : List Nat) (msg : Bytes) :
    ∀ e ∈ (drive h .idle ks ⟨p, []⟩ msg).world.log, CleanData e :=
  fun e he => (multipart_any_clean h hp ks msg e he).2

/-- A header value with a control byte is rejected after the bytes before it. -/
example :
    let o := drive goOn .idle [20, 100] ⟨.new, []⟩ b!"GET / HTTP/1.1\r\nA: x\ty\x00z\r\n\r\n"
    o.last = .err (.headerValue 0) ∧ .headerValue b!"x" ∈ o.world.log := by decide +kernel

/-! ## C29 -/

theorem order_of {env : Env} (hu : env.ptype = .head) {msg : Bytes} {K : List Ev × Fin} (hK : HeadK env [] msg K) :
    ∃ p, phase K.1 = some p ∧ (∀ r, K.2 = .finished r → p = .done) ∧
      ((∀ r, K.2 ≠ .finished r) → p ≠ .done) := by
  have key : ∃ s m, InOrder [] s ∧ K = pred env [] s m := by
    rcases hK with ⟨s, m, hs, _, rfl⟩ | ⟨m, _, rfl⟩
    · refine ⟨s, m, ⟨.start, rfl, ?_⟩, rfl⟩
      rcases hs with rfl | rfl <;> rfl
    · exact ⟨.ldet2, m, ⟨.start, rfl, rfl⟩, rfl⟩
  obtain ⟨s, m, h1, rfl⟩ := key
  have := pred_run (keeps_order hu) m [] [] s h1
  revert this
  generalize pred env [] s m = K
  obtain ⟨l, f⟩ := K
  have hnd : ∀ {s : AS} {p : Phase}, s ≠ .fin → s.ph p → p ≠ .done := by
    rintro s p h1 h2 rfl; exact h1 (AS.ph_done h2)
  cases f <;> simp only [RunEnd]
  · rintro ⟨s, h1, p, h2, h3⟩; exact ⟨p, h2, nofun, fun _ => hnd h1.1 h3⟩
  · rintro ⟨y, _, p, h2, h3⟩; exact ⟨p, h2, fun _ _ => h3, fun h => absurd rfl (h _)⟩
  · rintro ⟨y, b, tr, es, s, _, rfl, h2, h3, h4⟩
    obtain ⟨p, h5, h6⟩ := err_order h2 h4 h3.1
    exact ⟨p, h5, nofun, fun _ => h6⟩
  · rintro ⟨_, _, s, _, ⟨p, h2, h3⟩, h4⟩; exact ⟨p, h2, nofun, fun _ => hnd h4.1 h3⟩
  · rintro ⟨_, _, _, s, _, ⟨p, h2, h3⟩, h4, _⟩; exact ⟨p, h2, nofun, fun _ => hnd h4.1 h3⟩

theorem phase_prefix {l l' : List Ev} {p : Phase} (h : phase l' = some p) (hl : l <+: l') :
    ∃ p', phase l = some p' ∧ (p' = .done → l = l') := by
  obtain ⟨t, rfl⟩ := hl
  unfold phase at h ⊢
  rw [List.foldlM_append] at h
  cases hx : l.foldlM Phase.next .start with
  | none => rw [hx] at h; cases h
  | some p' =>
    refine ⟨p', rfl, ?_⟩
    rintro rfl
    rw [hx] at h
    cases t with
    | nil => simp
    | cons e t =>
      exfalso
      simp only [Option.bind_eq_bind, Option.bind_some, List.foldlM_cons] at h
      have : Phase.next .done e = none := by cases e <;> rfl
      rw [this] at h
      cases h

/-- **C29.** At every moment of a run over a head, the callbacks executed so far came in protocol order;
when the head is finished, they are complete; when it is rejected or cut short, `headers_finished`
was not executed.
Missing: an empty first slice for a parser made with `new`, where the code reads out of bounds. -/
theorem C29_callback_order_partial (h : Handler) (p : Parser) (k : Nat) (ks : List Nat) (msg : Bytes)
    (hp : HeadStart p (msg.take k)) :
    let o := drive h .idle (k :: ks) ⟨p, []⟩ msg
    ∃ ph, phase (flat o.world.log) = some ph ∧ (o.last = .finished → ph = .done) ∧
      ((∃ e, o.last = .err e) ∨ (o.last = .eos ∧ o.rest = []) → ph ≠ .done) := by
  intro o
  obtain ⟨K, H⟩ := head_run h (ks := ks) hp
  obtain ⟨p', h1, h2, h3⟩ := order_of rfl H.form
  obtain ⟨ph, h4, h5⟩ := phase_prefix h1 H.pre
  have hK : ∀ e, K = (flat o.world.log, e) → ph = p' := by
    intro e he
    have : flat o.world.log = K.1 := by rw [he]
    rw [this, h1] at h4
    simpa using h4.symm
  refine ⟨ph, h4, fun hf => ?_, ?_⟩
  · have := H.fin hf
    rw [hK _ this]
    exact h2 o.rest (by rw [this])
  · rintro (⟨e, he⟩ | ⟨he, hr⟩) hd
    · obtain ⟨d, _, hk⟩ := H.err e he
      have := h5 hd
      rw [this, h1] at h4
      simp only [Option.some.injEq] at h4
      exact h3 (by rw [hk]; nofun) (h4.trans hd)
    · have hk := H.eos he hr
      exact h3 (by rw [hk]; nofun) ((hK _ hk).symm.trans hd)

/-- A complete request, a response cut short, and a malformed one. -/
example :
    phase (flat (drive goOn .idle [100] ⟨.new, []⟩ b!"GET / HTTP/1.1\r\nA: b\r\n\r\n").world.log) = some .done ∧
    phase (flat (drive goOn .idle [3, 100] ⟨.new, []⟩ b!"HTTP/1.1 200 OK\r\nA: b").world.log) = some .value ∧
    (drive goOn .idle [100] ⟨.new, []⟩ b!"GET / HTTP/1.x\r\n").last = .err (.version (c! 'x')) := by
  decide +kernel

/-- Other orders are not accepted: for example a URL before the method, two versions, or headers
after the end. -/
example : phase [.url b!"/"] = none ∧ phase [.version 1 1, .version 1 1] = none ∧
    phase [.version 1 1, .statusCode 200, .status b!"K", .initialFinished, .headersFinished,
      .headerName b!"a"] = none := by decide

/-! ## C30 -/

theorem num_of {env : Env} (hu : env.ptype = .head) {msg : Bytes} {K : List Ev × Fin} (hK : HeadK env [] msg K) :
    (∀ a b, .version a b ∈ K.1 → VersionIn msg a b) ∧ ∀ v, .statusCode v ∈ K.1 → StatusIn msg v := by
  have key : ∃ s x m, msg = x ++ m ∧ (InOrder [] s ∧ NumOK x [] s) ∧ K = pred env [] s m := by
    rcases hK with ⟨s, m, hs, ⟨bl, hb, rfl⟩, rfl⟩ | ⟨m, ⟨bl, hb, rfl⟩, rfl⟩
    · refine ⟨s, bl, m, rfl, ⟨⟨.start, rfl, ?_⟩, nofun, nofun, ?_⟩, rfl⟩
      · rcases hs with rfl | rfl <;> rfl
      · rcases hs with rfl | rfl <;> exact fun b h => blank_spec (hb b h)
    · exact ⟨.ldet2, bl ++ b!"H", m, by simp, ⟨⟨.start, rfl, rfl⟩, nofun, nofun, bl,
        fun b h => blank_spec (hb b h), rfl⟩, rfl⟩
  obtain ⟨s, x, m, rfl, h1, rfl⟩ := key
  have := pred_run (keeps_num hu) m x [] s h1
  revert this
  generalize pred env [] s m = K
  obtain ⟨l, f⟩ := K
  cases f <;> simp only [RunEnd]
  · rintro ⟨s, -, -, h⟩; exact ⟨h.ver, h.code⟩
  · rintro ⟨y, rfl, -, h⟩
    rw [← List.append_assoc]
    exact ⟨fun a b hm => (h.ver a b hm).mono _, fun v hm => (h.code v hm).mono _⟩
  · rintro ⟨y, b, tr, es, s, rfl, rfl, ⟨ho, h⟩, h3, h4⟩
    rw [← List.append_assoc]
    have hes : ∀ e ∈ es, isNum e = false := by
      have := err_method h4
      exact this
    refine ⟨fun a b hm => ?_, fun v hm => ?_⟩ <;> rcases List.mem_append.1 hm with hm | hm
    · exact (h.ver a b hm).mono _
    · exact absurd (hes _ hm) (by simp [isNum])
    · exact (h.code v hm).mono _
    · exact absurd (hes _ hm) (by simp [isNum])
  · rintro ⟨y, r, s, rfl, ⟨-, h⟩, -⟩
    rw [← List.append_assoc]
    exact ⟨fun a b hm => (h.ver a b hm).mono _, fun v hm => (h.code v hm).mono _⟩
  · rintro ⟨y, b, r, s, rfl, ⟨-, h⟩, -⟩
    rw [← List.append_assoc]
    exact ⟨fun a b hm => (h.ver a b hm).mono _, fun v hm => (h.code v hm).mono _⟩

theorem mem_flat {l : List Ev} {e : Ev} (h : e ∈ l) (he : flatEv e = [e]) : e ∈ flat l :=
  List.mem_flatMap.2 ⟨e, h, by rw [he]; simp⟩

/-- **C30.** The numbers passed to `on_version` and `on_status_code` are those written in the start line
of the message: one to three digits each for the version, three for the status code.
Missing: an empty first slice for a parser made with `new`, where the code reads out of bounds. -/
theorem C30_numbers_exact_partial (h : Handler) (p : Parser) (k : Nat) (ks : List Nat) (msg : Bytes)
    (hp : HeadStart p (msg.take k)) :
    let o := drive h .idle (k :: ks) ⟨p, []⟩ msg
    (∀ a b, .version a b ∈ o.world.log → VersionIn msg a b) ∧
    (∀ v, .statusCode v ∈ o.world.log → StatusIn msg v) := by
  intro o
  obtain ⟨K, H⟩ := head_run h (ks := ks) hp
  obtain ⟨h1, h2⟩ := num_of rfl H.form
  exact ⟨fun a b hm => h1 a b (H.pre.subset (mem_flat hm rfl)),
    fun v hm => h2 v (H.pre.subset (mem_flat hm rfl))⟩

theorem decVal_lt : ∀ (ds : Bytes) (v : Nat), (∀ b ∈ ds, c! '0' ≤ b ∧ b ≤ c! '9') →
    ds.foldl (fun v b => v * 10 + (b.toNat - 48)) v < (v + 1) * 10 ^ ds.length
  | [], v, _ => by simp
  | b :: ds, v, h => by
    have h1 := decVal_lt ds (v * 10 + (b.toNat - 48)) fun x hx => h x (List.mem_cons_of_mem _ hx)
    have h2 := (h b (List.mem_cons_self ..)).2
    have h3 : b.toNat ≤ 57 := by simpa [UInt8.le_iff_toNat_le] using h2
    refine lt_of_lt_of_le h1 ?_
    have h4 : v * 10 + (b.toNat - 48) + 1 ≤ (v + 1) * 10 := by omega
    calc _ ≤ (v + 1) * 10 * 10 ^ ds.length := Nat.mul_le_mul_right _ h4
      _ = (v + 1) * 10 ^ (b :: ds).length := by rw [List.length_cons, Nat.pow_succ, Nat.mul_assoc, Nat.mul_comm 10]

theorem Digits.le {ds : Bytes} {n : Nat} (h : Digits ds n) : n ≤ 999 := by
  obtain ⟨h1, h2, h3, rfl⟩ := h
  have := decVal_lt ds 0 h3
  have h4 : 10 ^ ds.length ≤ 10 ^ 3 := Nat.pow_le_pow_right (by decide) h2
  unfold decVal
  omega

/-- **C30.** They are at most 999, so that they fit into the 16 bits of the callbacks' arguments. -/
theorem C30_numbers_fit (h : Handler) (p : Parser) (k : Nat) (ks : List Nat) (msg : Bytes)
    (hp : HeadStart p (msg.take k)) :
    let o := drive h .idle (k :: ks) ⟨p, []⟩ msg
    (∀ a b, .version a b ∈ o.world.log → a ≤ 999 ∧ b ≤ 999) ∧
    (∀ v, .statusCode v ∈ o.world.log → v ≤ 999) := by
  intro o
  obtain ⟨h1, h2⟩ := C30_numbers_exact_partial h p k ks msg hp
  refine ⟨fun a b hm => ?_, fun v hm => ?_⟩
  · obtain ⟨_, _, _, _, ha, hb, _⟩ := h1 a b hm
    exact ⟨ha.le, hb.le⟩
  · obtain ⟨_, _, _, _, _, _, _, _, _, _, hd, _⟩ := h2 v hm
    exact hd.le

/-- A response with the version 12.345 and the status code 099. -/
example :
    let o := drive goOn .idle [7, 9, 100] ⟨.new, []⟩ b!"HTTP/12.345 099 Who knows\r\n"
    .version 12 345 ∈ o.world.log ∧ .statusCode 99 ∈ o.world.log := by decide +kernel

end Verif.Http1
