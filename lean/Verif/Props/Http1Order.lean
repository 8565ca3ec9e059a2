import Verif.Http1.Ask
import Verif.Http1.BodyOrder
import Verif.Props.Http1Chunked
import Verif.Props.Http1Multipart
import Verif.Props.Http1Url

/-!
# The order of the callbacks of bodies

C92. Which callback may follow which is specified in `Verif.Http1.OrderSpec`. The theorems hold for every body, also
for malformed ones, for every way of cutting it into slices and every handler, at every moment of a run (a schedule
may stop anywhere). What the handler does may depend on earlier messages: `h` is an arbitrary function of what was
called during this body.
-/

namespace Verif.Http1

section
variable {P : Type} {next : P → Ev → Option P} {p0 fin : P}

/-- Repeating a data callback does not change the phase. -/
def Absorbs (next : P → Ev → Option P) : Prop :=
  ∀ p e, flatEv e ≠ [] → (flatEv e).foldlM next p = next p e

theorem absorbs_data {f : Bytes → Ev} {p : P} {d : Bytes} (hd : d ≠ []) (h1 : ∀ x, next p (f x) = next p (f []))
    (h2 : ∀ p', next p (f []) = some p' → ∀ x, next p' (f x) = some p') :
    (d.map fun b => f [b]).foldlM next p = next p (f d) := by
  cases d with
  | nil => exact absurd rfl hd
  | cons b d =>
    rw [List.map_cons, List.foldlM_cons, h1, h1 (b :: d)]
    cases hx : next p (f []) with
    | none => rfl
    | some p' =>
      show (d.map fun b => f [b]).foldlM next p' = some p'
      have := h2 p' hx
      clear hd hx
      induction d with
      | nil => rfl
      | cons c d ih => rw [List.map_cons, List.foldlM_cons, this]; exact ih

theorem fold_flat (ha : Absorbs next) : ∀ (t : List Ev) (p : P), (∀ e ∈ t, flatEv e ≠ []) →
    (flat t).foldlM next p = t.foldlM next p
  | [], _, _ => rfl
  | e :: t, p, ht => by
    show (flatEv e ++ flat t).foldlM next p = _
    rw [List.foldlM_append, ha p e (ht e (by simp)), List.foldlM_cons]
    cases next p e with
    | none => rfl
    | some p' => exact fold_flat ha t p' fun x hx => ht x (by simp [hx])

/-- From the prediction to the run. -/
theorem order_drive {env : Env} {K : List Ev × Fin} {o : Outcome} [DecidableEq P] (ha : Absorbs next)
    (hd : ∀ e, next fin e = none) (hg : Grew [] o.world.log) (H : DriveSim (Inv env K) K o)
    (hK : ∃ p, K.1.foldlM next p0 = some p ∧ (∀ r, K.2 = .finished r → p = fin) ∧
      ((∀ r, K.2 ≠ .finished r) → p ≠ fin)) :
    ∃ ph, o.world.log.foldlM next p0 = some ph ∧ (o.last = .finished → ph = fin) ∧
      ((∃ e, o.last = .err e) ∨ (o.last = .eos ∧ o.rest = []) → ph ≠ fin) := by
  obtain ⟨p, h1, h2, h3⟩ := hK
  obtain ⟨ph, h4, h5⟩ := fold_prefix fin hd h1 H.prefix
  have hl : o.world.log.foldlM next p0 = (flat o.world.log).foldlM next p0 := by
    obtain ⟨t, ht, hne⟩ := hg
    rw [ht, List.nil_append]
    exact (fold_flat ha t p0 hne).symm
  refine ⟨ph, hl.trans h4, fun hf => ?_, ?_⟩
  · simp only [DriveSim, hf] at H
    rw [H] at h1 h2
    rw [h4] at h1
    rw [Option.some.inj h1]
    exact h2 _ rfl
  · intro hx hph
    have e1 := h5 hph
    rw [e1, h1] at h4
    rw [← Option.some.inj h4] at hph
    refine h3 ?_ hph
    rcases hx with ⟨e, he⟩ | ⟨he, hr⟩
    · simp only [DriveSim, he] at H
      rcases H with ⟨d, _, hk⟩ | ⟨⟨_, _, hk⟩, _⟩ <;> rw [hk] <;> nofun
    · simp only [DriveSim, he] at H
      rw [H.2 hr]; nofun

end

theorem order_chunk_absorbs : Absorbs ChunkPhase.next := by
  intro p e he
  cases e <;> simp only [flatEv, ne_eq, List.map_eq_nil_iff] at he ⊢
  all_goals first
    | (refine absorbs_data he ?_ ?_ <;> cases p <;> simp [ChunkPhase.next])
    | (simp; done)

theorem order_part_absorbs : Absorbs PartPhase.next := by
  intro p e he
  cases e <;> simp only [flatEv, ne_eq, List.map_eq_nil_iff] at he ⊢
  all_goals first
    | (refine absorbs_data he ?_ ?_ <;> cases p <;> simp [PartPhase.next])
    | (simp; done)

theorem order_form_absorbs : Absorbs FormPhase.next := by
  intro p e he
  cases e <;> simp only [flatEv, ne_eq, List.map_eq_nil_iff] at he ⊢
  all_goals first
    | (refine absorbs_data he ?_ ?_ <;> cases p <;> simp [FormPhase.next])
    | (simp; done)

/-! ## C92 -/

/-- **C92** for chunked bodies: at every moment the callbacks executed so far came in the documented order; when the
body is finished, `on_body_finished` was the last one; when it is rejected or cut short, it was not executed. -/
theorem C92_chunked_order (h : Handler) (q : Parser) (k : Nat) (ks : List Nat) (msg : Bytes) :
    let o := drive h .idle (k :: ks) ⟨q.init .chunked, []⟩ msg
    ∃ ph, chunkPhase o.world.log = some ph ∧ (o.last = .finished → ph = .done) ∧
      ((∃ e, o.last = .err e) ∨ (o.last = .eos ∧ o.rest = []) → ph ≠ .done) :=
  order_drive order_chunk_absorbs (fun e => by cases e <;> rfl)
    (drive_grew h (k :: ks) .idle ⟨q.init .chunked, []⟩ msg)
    (chunked_sim h q [] k ks msg)
    (fits_run (env := chunkEnv) (p0 := ChunkPhase.chunk) (s := .size1) ChunkPhase.done (order_chunk_norm rfl)
      order_chunk_step order_chunk_err order_chunk_fin (by simp [chunkFits]) msg)

/-- A chunk with an extension, the last chunk and a trailer, in one call and byte by byte. -/
example :
    chunkPhase (drive goOn .idle [100] ⟨Parser.new.init .chunked, []⟩
      b!"3;a=b\r\nxyz\r\n0\r\nN: v\r\n\r\n").world.log = some .done ∧
    chunkPhase (drive goOn .idle (List.replicate 30 1) ⟨Parser.new.init .chunked, []⟩
      b!"3;a=b\r\nxyz\r\n0\r\nN: v\r\n\r\n").world.log = some .done ∧
    chunkPhase (drive goOn .idle (List.replicate 12 1) ⟨Parser.new.init .chunked, []⟩
      b!"3;a=b\r\nxyz\r\n0\r\nN: v\r\n\r\n").world.log = some .data := by decide +kernel

/-- Other orders are not accepted: a length before the chunk begins, data before the extensions are finished, data
in the last chunk, a trailer after another chunk's data, anything after the end. -/
example : chunkPhase [.chunkLength 3] = none ∧ chunkPhase [.chunkBegin, .chunkLength 3, .chunkData b!"x"] = none ∧
    chunkPhase [.chunkBegin, .chunkLength 0, .chunkExtensionsFinished] = none ∧
    chunkPhase [.chunkBegin, .chunkLength 3, .chunkExtensionsFinished, .chunkData b!"x", .headerName b!"n"] = none ∧
    chunkPhase [.chunkBegin, .chunkLength 0, .headersFinished, .bodyFinished, .chunkBegin] = none := by decide

/-- **C92** for multipart bodies. -/
theorem C92_multipart_order (h : Handler) (q : Parser) (bd : Bytes) (hb : bd.length < 16384) (hb' : c! '\r' ∉ bd)
    (k : Nat) (ks : List Nat) (msg : Bytes) :
    let o := drive h .idle (k :: ks) ⟨(q.init .multipart).setBoundary bd, []⟩ msg
    ∃ ph, partPhase o.world.log = some ph ∧ (o.last = .finished → ph = .done) ∧
      ((∃ e, o.last = .err e) ∨ (o.last = .eos ∧ o.rest = []) → ph ≠ .done) := by
  obtain ⟨_, cl, -, -, -, H⟩ := multipart_sim h q [] bd hb hb' k ks msg
  exact order_drive order_part_absorbs (fun e => by cases e <;> rfl)
    (drive_grew h (k :: ks) .idle ⟨(q.init .multipart).setBoundary bd, []⟩ msg) H
    (fits_run (env := mpEnv cl bd) (p0 := PartPhase.start) (s := .hyphen1 true) PartPhase.done (order_part_norm rfl)
      order_part_step order_part_err order_part_fin (by simp [partFits]) msg)

/-- Two parts, of which the first has a header, in one call and byte by byte; and the second delimiter broken. -/
example :
    partPhase (drive goOn .idle [100] ⟨(Parser.new.init .multipart).setBoundary b!"X", []⟩
      b!"--X\r\nA: b\r\n\r\nxyz\r\n--X\r\n\r\n\r\n--X--\r\n").world.log = some .done ∧
    partPhase (drive goOn .idle (List.replicate 40 1) ⟨(Parser.new.init .multipart).setBoundary b!"X", []⟩
      b!"--X\r\nA: b\r\n\r\nxyz\r\n--X\r\n\r\n\r\n--X--\r\n").world.log = some .done ∧
    partPhase (drive goOn .idle [100] ⟨(Parser.new.init .multipart).setBoundary b!"X", []⟩
      b!"--X\r\nA: b\r\n\r\nxyz\r\n--X?").world.log = some .data := by decide +kernel

/-- Other orders are not accepted: data before the headers are finished, a header before a part, a part in a part. -/
example : partPhase [.multipartBegin, .multipartData b!"x"] = none ∧ partPhase [.headerName b!"n"] = none ∧
    partPhase [.multipartBegin, .multipartBegin] = none ∧
    partPhase [.multipartBegin, .headersFinished, .bodyFinished, .multipartBegin] = none := by decide

theorem form_predicts (n : Nat) (msg : Bytes) :
    let K := endU n msg (pred urlEnv (flat []) .uFirst (msg.take n))
    ∃ p, K.1.foldlM FormPhase.next .start = some p ∧ (∀ r, K.2 = .finished r → p = .done) ∧
      ((∀ r, K.2 ≠ .finished r) → p ≠ .done) := by
  intro K
  obtain ⟨p, h1, h2, h3⟩ := fits_run (env := urlEnv) (p0 := FormPhase.start) (s := .uFirst) .done order_form_norm
    order_form_step order_form_err order_form_fin (by simp [formFits]) (msg.take n)
  have h4 := h3 (url_not_finished (msg.take n) [])
  have h5 := url_not_finished (env := urlEnv) (msg.take n) []
  show ∃ p, (endU n msg (pred urlEnv [] .uFirst (msg.take n))).1.foldlM FormPhase.next .start = some p ∧
    (∀ r, (endU n msg (pred urlEnv [] .uFirst (msg.take n))).2 = .finished r → p = .done) ∧
    ((∀ r, (endU n msg (pred urlEnv [] .uFirst (msg.take n))).2 ≠ .finished r) → p ≠ .done)
  revert h1 h5
  generalize pred urlEnv [] .uFirst (msg.take n) = K0
  obtain ⟨tr, f⟩ := K0
  intro h1 h5
  cases f with
  | eos =>
    simp only [endU]
    split
    · refine ⟨.done, ?_, fun _ _ => rfl, fun h => absurd rfl (h _)⟩
      rw [List.foldlM_append, h1]
      cases p <;> first | rfl | exact absurd rfl h4
    · exact ⟨p, h1, nofun, fun _ => h4⟩
  | finished r => exact absurd rfl (h5 r)
  | err e r => exact ⟨p, h1, nofun, fun _ => h4⟩
  | errB => exact ⟨p, h1, nofun, fun _ => h4⟩
  | panic => exact ⟨p, h1, nofun, fun _ => h4⟩

/-- **C92** for URL-encoded bodies of declared length `n`. -/
theorem C92_url_encoded_order (h : Handler) (q : Parser) (n k : Nat) (ks : List Nat) (msg : Bytes) :
    let o := urlRun h q [] n (k :: ks) msg
    ∃ ph, formPhase o.world.log = some ph ∧ (o.last = .finished → ph = .done) ∧
      ((∃ e, o.last = .err e) ∨ (o.last = .eos ∧ o.rest = []) → ph ≠ .done) := by
  have H := start_url (q := q) (l := []) (n := n) (s := msg.take k) (fut := msg.drop k)
  rw [List.take_append_drop] at H
  exact order_drive order_form_absorbs (fun e => by cases e <;> rfl)
    (drive_grew h (k :: ks) .idle ⟨(q.init .urlEncoded).setLength n, []⟩ msg)
    (run_sim bdOK_none (clOK_of (by decide)) k ks H) (form_predicts n msg)

/-- Two pairs and a name without a value, in one call and byte by byte; and a broken escape. -/
example :
    formPhase (urlRun goOn .new [] 13 [100] b!"a=b&=c;d%20e=rest").world.log = some .done ∧
    formPhase (urlRun goOn .new [] 13 (List.replicate 20 1) b!"a=b&=c;d%20e=rest").world.log = some .done ∧
    formPhase (urlRun goOn .new [] 13 [100] b!"a=b&c%z").world.log = some .name := by decide +kernel

/-- Other orders are not accepted: a name after its value, a value before the pair begins, anything after the end. -/
example : formPhase [.urlEncodedBegin, .urlEncodedValue b!"v", .urlEncodedName b!"n"] = none ∧
    formPhase [.urlEncodedValue b!"v"] = none ∧ formPhase [.bodyFinished, .urlEncodedBegin] = none := by decide

/-! ### When `content_length` is asked -/

/-- **C92** for `content_length`: in a multipart body only its answers directly after `on_headers_finished` matter. Two
handlers that react alike and give the same answers at these moments lead to the same run, in every detail. -/
theorem C92_length_after_headers (h1 h2 : Handler) (hr : h1.ret = h2.ret)
    (hc : ∀ l, h1.contentLength (l ++ [.headersFinished]) = h2.contentLength (l ++ [.headersFinished]))
    (q : Parser) (bd : Bytes) (l : List Ev) (ks : List Nat) (msg : Bytes) :
    drive h1 .idle ks ⟨(q.init .multipart).setBoundary bd, l⟩ msg =
      drive h2 .idle ks ⟨(q.init .multipart).setBoundary bd, l⟩ msg := by
  have e : h1 = h2.telling h1.contentLength := by cases h1; cases h2; cases hr; rfl
  rw [e]
  exact drive_due hc ks .idle ⟨(q.init .multipart).setBoundary bd, l⟩ msg nofun

/-- The answers at these moments do matter; the others do not. -/
example :
    let h1 : Handler := ⟨fun _ => true, fun l => if l.length = 4 then some 2 else none⟩
    let h2 : Handler := ⟨fun _ => true, fun l => if l.length = 4 then some 2 else some 99⟩
    let h3 : Handler := ⟨fun _ => true, fun _ => none⟩
    let w : World := ⟨(Parser.new.init .multipart).setBoundary b!"X", []⟩
    let m := b!"--X\r\nA: b\r\n\r\n\r\n--X--\r\n"
    (drive h1 .idle [100] w m).last = .err (.multipartBoundary (c! '-')) ∧
      drive h2 .idle [100] w m = drive h1 .idle [100] w m ∧ (drive h3 .idle [100] w m).last = .finished := by
  decide +kernel

/-- **C92** for `content_length`: for heads, chunked and URL-encoded bodies its answers do not matter at all. -/
theorem C92_length_only_multipart (h1 h2 : Handler) (hr : h1.ret = h2.ret) (q : Parser) (t : PType)
    (ht : t ≠ .multipart) (n : Nat) (l : List Ev) (ks : List Nat) (msg : Bytes) :
    drive h1 .idle ks ⟨(q.init t).setLength n, l⟩ msg = drive h2 .idle ks ⟨(q.init t).setLength n, l⟩ msg ∧
      drive h1 .idle ks ⟨q.init t, l⟩ msg = drive h2 .idle ks ⟨q.init t, l⟩ msg := by
  have e : h1 = h2.telling h1.contentLength := by cases h1; cases h2; cases hr; rfl
  have hw : ∀ p : Parser, p.fn = (q.init t).fn → p.ptype = (q.init t).ptype → MW t ⟨p, l⟩ := by
    intro p h3 h4
    refine ⟨?_, ?_⟩
    · show modeSt t p.fn = true
      rw [h3]
      cases t <;> rfl
    · show p.ptype = t
      rw [h4]
      cases t <;> rfl
  rw [e]
  exact ⟨drive_never ht ks .idle _ msg (hw _ rfl rfl), drive_never ht ks .idle _ msg (hw _ rfl rfl)⟩

/-- A head with headers, where the two handlers answer differently. -/
example :
    let h1 : Handler := ⟨fun _ => true, fun _ => some 2⟩
    let h2 : Handler := ⟨fun _ => true, fun _ => none⟩
    let m := b!"GET / HTTP/1.1\r\nA: b\r\n\r\n"
    drive h1 .idle [100] ⟨Parser.new.init .head, []⟩ m = drive h2 .idle [100] ⟨Parser.new.init .head, []⟩ m ∧
      (drive h1 .idle [100] ⟨Parser.new.init .head, []⟩ m).last = .finished := by decide +kernel

end Verif.Http1
