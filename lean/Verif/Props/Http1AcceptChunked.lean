import Verif.Http1.InvChunk
import Verif.Http1.RunsLoose
import Verif.Props.Http1Accept
import Verif.Props.Http1Chunked

/-!
# Only chunked bodies are accepted

C52 (what is accepted is a chunked body and means what was reported), C53 (a chunked body that is cut
off is neither finished nor rejected). The grammar of what is accepted is in `Verif.Http1.LooseSpec`.
-/

namespace Verif.Http1

theorem pred_loose {x : LooseBody} (h : x.OK) (tr : List Ev) (r : Bytes) :
    pred chunkEnv tr .size1 (x.write ++ r) = (tr ++ flat x.events, .finished r) := by
  have H := (runs_loose_body (env := chunkEnv) h).finish (es' := [.headersFinished, .bodyFinished]) (fun _ => rfl) tr r
  rw [H]
  simp [LooseBody.events, flat, flatEv]

/-! ## C52 -/

/-- **C52 (partial).** When a run over a chunked body ends with `Finished`, the bytes that were read are a
chunked body of the grammar, and the callbacks are what this body means. Missing: the grammar has forms
that are not HTTP, see `C52_fails`. -/
theorem C52_only_chunked_accepted_partial (h : Handler) (q : Parser) (l : List Ev) (msg : Bytes)
    (k : Nat) (ks : List Nat) (hc : (drive h .idle (k :: ks) ⟨q.init .chunked, l⟩ msg).last = .finished) :
    let o := drive h .idle (k :: ks) ⟨q.init .chunked, l⟩ msg
    ∃ x : LooseBody, x.OK ∧ msg = x.write ++ o.rest ∧ flat o.world.log = flat (l ++ x.events) := by
  intro o
  obtain ⟨x, h1, h2, h3⟩ := Acc.chunked (env := chunkEnv) rfl (tr := flat l) (m := msg) ((chunked_sim h q l k ks msg).fin hc)
  exact ⟨x, h1, h2, by rw [h3]; simp [flat]⟩

/-- Every body of the grammar is accepted: the grammar is exact. -/
theorem C52_all_chunked_accepted (h : Handler) (q : Parser) (l : List Ev) (x : LooseBody) (hx : x.OK)
    (rest : Bytes) (k : Nat) (ks : List Nat)
    (hc : (drive h .idle (k :: ks) ⟨q.init .chunked, l⟩ (x.write ++ rest)).complete) :
    let o := drive h .idle (k :: ks) ⟨q.init .chunked, l⟩ (x.write ++ rest)
    o.last = .finished ∧ o.rest = rest ∧ flat o.world.log = flat (l ++ x.events) := by
  intro o
  obtain ⟨h1, h2, h3⟩ := complete_fin (chunked_sim h q l k ks (x.write ++ rest)) hc (pred_loose hx (flat l) rest)
  exact ⟨h1, h3, by rw [h2]; simp [flat]⟩

/-- Two chunks, the second of size zero with an extension, and a trailer. -/
def exLoose : LooseBody :=
  { chunks := [⟨b!"5", [⟨b!"", b!"", none⟩, ⟨b!" ", b!"A", some ⟨b!"", b!"v", b!"v"⟩⟩], b!"hello"⟩,
      ⟨b!"0", [⟨b!"", b!"x", none⟩], b!""⟩],
    trailer := [.field b!"T" b!" " b!"v", .fold (c! '\t') b!"w"] }

theorem exLoose_ok : exLoose.OK where
  chunks := by
    intro y hy
    simp only [exLoose, List.mem_cons, List.not_mem_nil, or_false] at hy
    rcases hy with rfl | rfl
    · refine ⟨HexVal.snoc (n := 5) .nil (by decide), .inl ⟨_, _, rfl, by decide⟩, by decide, ?_, ?_⟩
      · exact ⟨by decide, by decide, nofun, nofun⟩
      · refine ⟨by decide, by decide, nofun, ?_⟩
        rintro v ⟨⟩
        exact ⟨by decide, .byte (by decide) (by decide) (by decide) .nil, .inr ⟨_, _, rfl, by decide⟩⟩
    · exact ⟨hexVal_zero, .inr ⟨rfl, by decide⟩, by decide, by decide, by decide, fun _ _ => by decide, nofun⟩
  trailer := by
    intro y hy
    simp only [exLoose, List.mem_cons, List.not_mem_nil, or_false] at hy
    rcases hy with rfl | rfl
    · exact ⟨by decide, by decide, .byte (by decide) (by decide) .nil, _, _, rfl, by decide⟩
    · exact ⟨.inr rfl, .byte (by decide) (by decide) .nil⟩

example : exLoose.write = b!"5;; A=v\r\nhello\r\n0;x\r\n\r\n0\r\nT: v\r\n\tw\r\n\r\n" ∧
    exLoose.events = [.chunkBegin, .chunkLength 5, .chunkExtensionName b!"", .chunkExtensionFinished,
      .chunkExtensionName b!"a", .chunkExtensionValue b!"v", .chunkExtensionFinished, .chunkExtensionsFinished,
      .chunkData b!"hello", .chunkBegin, .chunkLength 0, .chunkExtensionName b!"x", .chunkExtensionFinished,
      .chunkExtensionsFinished, .chunkData b!"", .chunkBegin, .chunkLength 0, .headerName b!"t", .headerValue b!"v",
      .headerValue b!"w", .headersFinished, .bodyFinished] ∧
    (drive pauses .idle (List.replicate 60 7) ⟨Parser.new.init .chunked, []⟩ (exLoose.write ++ b!"rest")).last =
      .finished ∧
    (drive goOn .idle [3, 100, 3] ⟨Parser.new.init .chunked, []⟩ (exLoose.write ++ b!"rest")).complete := by
  decide +kernel

/-- The full C52 fails: extensions without a name or without a value are accepted, and so is a last chunk
with an extension that does not end the body. -/
theorem C52_fails :
    (drive goOn .idle [100] ⟨Parser.new.init .chunked, []⟩ b!"1;;a\r\nx\r\n0\r\n\r\n").last = .finished ∧
    (drive goOn .idle [100] ⟨Parser.new.init .chunked, []⟩ b!"1;=v\r\nx\r\n0\r\n\r\n").last = .finished ∧
    (drive goOn .idle [100] ⟨Parser.new.init .chunked, []⟩ b!"1;a=;b\r\nx\r\n0\r\n\r\n").last = .finished ∧
    (drive goOn .idle [100] ⟨Parser.new.init .chunked, []⟩ b!"0;a\r\n\r\n0\r\n\r\n").rest = [] := by decide +kernel

/-! ## C53 -/

/-- **C53 (partial).** A chunked body that is cut off before its last byte is neither finished nor
rejected: every complete run ends with `Eos`, and the callbacks are a beginning of what the whole body
means. Missing: the bodies that C32 misses. -/
theorem C53_cut_off_chunked_partial (h : Handler) (q : Parser) (l : List Ev) (x : LooseBody) (hx : x.OK)
    (y z : Bytes) (hy : x.write = y ++ z) (hz : z ≠ []) (k : Nat) (ks : List Nat)
    (hc : (drive h .idle (k :: ks) ⟨q.init .chunked, l⟩ y).complete) :
    let o := drive h .idle (k :: ks) ⟨q.init .chunked, l⟩ y
    o.last = .eos ∧ flat o.world.log <+: flat (l ++ x.events) := by
  intro o
  have hp := pred_loose hx (flat l) []
  rw [List.append_nil, hy] at hp
  obtain ⟨L', h1, h2⟩ := pred_cutoff hz hp
  obtain ⟨h3, h4, -⟩ := complete_eos (chunked_sim h q l k ks y) hc h1
  exact ⟨h3, by rw [h4]; simpa [flat] using h2⟩

example : exLoose.write = b!"5;; A=v\r\nhel" ++ b!"lo\r\n0;x\r\n\r\n0\r\nT: v\r\n\tw\r\n\r\n" ∧
    (drive pauses .idle (List.replicate 20 4) ⟨Parser.new.init .chunked, []⟩ b!"5;; A=v\r\nhel").complete ∧
    (drive pauses .idle (List.replicate 20 4) ⟨Parser.new.init .chunked, []⟩ b!"5;; A=v\r\nhel").last = .eos := by
  decide +kernel

end Verif.Http1
