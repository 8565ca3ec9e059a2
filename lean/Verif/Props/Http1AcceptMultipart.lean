import Verif.Http1.ViableMp
import Verif.Props.Http1Blame
import Verif.Props.Http1Earliest
import Verif.Props.Http1Multipart

/-!
# Only multipart bodies are accepted

C67 (what is accepted is a multipart body and means what was reported), C68 (a multipart body that is cut off is
neither finished nor rejected), C69 (errors in multipart bodies are found as early as possible). The grammar of what is
accepted is in `Verif.Http1.MpLooseSpec`.
-/

namespace Verif.Http1

/-- The run of a client over a multipart body with the boundary `bd`. -/
abbrev mpRun (h : Handler) (q : Parser) (l : List Ev) (bd : Bytes) (ks : List Nat) (msg : Bytes) : Outcome :=
  drive h .idle ks ⟨(q.init .multipart).setBoundary bd, l⟩ msg

/-- Content lengths that the handler can tell in runs that start after the callbacks `l`: for callbacks that stand for
the bytes `es`, however these are cut into callbacks. -/
def CanTell (h : Handler) (l : List Ev) (cl : List Ev → Option Nat) : Prop :=
  ∀ es, ∃ p, flat p = flat (l ++ es) ∧ cl es = h.contentLength p

/-! ## C67 -/

/-- **C67 (partial).** When a run over a multipart body ends with `Finished`, the bytes that were read are a
multipart body of the grammar, with the content lengths `cl` that the handler told in this run; and the callbacks are
what this body means. Missing: the grammar has forms that are not multipart, see `C67_fails`. -/
theorem C67_only_multipart_accepted_partial (h : Handler) (q : Parser) (l : List Ev) (bd : Bytes)
    (hb : bd.length < 16384) (hb' : c! '\r' ∉ bd) (msg : Bytes) (k : Nat) (ks : List Nat)
    (hc : (mpRun h q l bd (k :: ks) msg).last = .finished) :
    let o := mpRun h q l bd (k :: ks) msg
    ∃ cl ps, Tells h l o.world.log cl ∧ LooseParts cl bd [] ps ∧ msg = writeLoose bd ps ++ o.rest ∧
      flat o.world.log = flat (l ++ ps.flatMap LoosePart.events ++ [.bodyFinished]) := by
  intro o
  obtain ⟨cl, cl', h1, h2, -, H⟩ := multipart_sim h q l bd hb hb' k ks msg
  obtain ⟨ps, h3, h4, h5⟩ := Acc.multipart (env := mpEnv cl' bd) rfl rfl (tr := flat l) (m := msg) (H.fin hc)
  obtain rfl : cl = fun es => cl' (flat l ++ es) := funext h2
  exact ⟨_, ps, h1, h3, h4, by rw [h5]; simp [flat]⟩

/-- Every body of the grammar is accepted: the grammar is exact. -/
theorem C67_all_multipart_accepted (h : Handler) (q : Parser) (l : List Ev) (bd : Bytes)
    (hb : bd.length < 16384) (hb' : c! '\r' ∉ bd) (ps : List LoosePart)
    (hps : ∀ cl, CanTell h l cl → LooseParts cl bd [] ps) (rest : Bytes) (k : Nat) (ks : List Nat)
    (hc : (mpRun h q l bd (k :: ks) (writeLoose bd ps ++ rest)).complete) :
    let o := mpRun h q l bd (k :: ks) (writeLoose bd ps ++ rest)
    o.last = .finished ∧ o.rest = rest ∧
      flat o.world.log = flat (l ++ ps.flatMap LoosePart.events ++ [.bodyFinished]) := by
  intro o
  obtain ⟨cl, cl', h1, h2, -, H⟩ := multipart_sim h q l bd hb hb' k ks (writeLoose bd ps ++ rest)
  obtain rfl : cl = fun es => cl' (flat l ++ es) := funext h2
  obtain ⟨h3, h4, h5⟩ := complete_fin H hc (pred_loose_mp rfl hb' rfl (flat l) rest ps (hps _ h1.2))
  exact ⟨h3, h5, by rw [h4]; simp [flat]⟩

/-- The grammar contains what C36 demands of the data of parts. -/
theorem C67_delimited {bd d : Bytes} (h : Delimited bd d) : Scanned bd d := h.scanned _ (Nat.le_refl _)

/-- A part with a folded line before the first field, a nameless field, and data with pieces of delimiters; and one
of known length. -/
def exLooseParts : List LoosePart :=
  [⟨[.fold (c! ' ') b!"x", .field b!"" b!"" b!"v"], b!"a\r\r\n-b\r\n--Xy\r\n--X"⟩,
    ⟨[.field b!"Content-Length" b!" " b!"12"], b!"\r\n--XyZ\r\n\r\n\r"⟩]

theorem exLooseParts_ok (cl : List Ev → Option Nat) (hc : CanTell tells [] cl) : LooseParts cl b!"XyZ" [] exLooseParts := by
  have hcl : ∀ es, cl (flat es) = tells.contentLength es := by
    intro es
    obtain ⟨p, h1, h2⟩ := hc (flat es)
    rw [h2]
    exact tells_same _ _ (h1.trans (by rw [List.nil_append, flat_flat]))
  have ft : ∀ {a : UInt8}, FieldByte a → a ≠ 255 → FieldText [a] := fun h1 h2 => .byte h1 h2 .nil
  refine ⟨?_, ?_, ?_, ?_, ?_, ?_, trivial⟩
  · intro y hy
    simp only [List.mem_cons, List.not_mem_nil, or_false] at hy
    rcases hy with rfl | rfl
    · exact ⟨.inl rfl, ft (by decide) (by decide)⟩
    · exact ⟨by decide, by decide, ft (by decide) (by decide), _, _, rfl, by decide⟩
  · rw [hcl]; decide +kernel
  · intro _
    exact .byte (by decide) (.cr (b := c! '\r') (by decide) (.byte (by decide) (.byte (by decide) (.byte (by decide)
      (.bound (bd := b!"XyZ") (i := 2) (d := b!"\r\n--X") (by decide) (by decide)
        (.bound (bd := b!"XyZ") (i := 1) (d := []) (by decide) (by decide) .nil))))))
  · intro y hy
    simp only [List.mem_cons, List.not_mem_nil, or_false] at hy
    subst hy
    exact ⟨by decide, by decide, .byte (by decide) (by decide) (ft (by decide) (by decide)), _, _, rfl, by decide⟩
  · rw [hcl]; decide +kernel
  · rw [hcl]; exact fun h => absurd h (by decide +kernel)

example : writeLoose b!"XyZ" exLooseParts = b!"--XyZ\r\n x\r\n:v\r\n\r\na\r\r\n-b\r\n--Xy\r\n--X\r\n--XyZ\r\n" ++
      b!"Content-Length: 12\r\n\r\n\r\n--XyZ\r\n\r\n\r\r\n--XyZ--" ∧
    (mpRun tells .new [] b!"XyZ" [7, 1000] (writeLoose b!"XyZ" exLooseParts ++ b!"rest")).last = .finished ∧
    (mpRun tells .new [] b!"XyZ" (List.replicate 150 1) (writeLoose b!"XyZ" exLooseParts ++ b!"rest")).complete := by
  decide +kernel

/-- The full C67 fails: a boundary directly after CR is taken for data; header lines need no name. -/
theorem C67_fails :
    (mpRun goOn .new [] b!"XyZ" [100] b!"--XyZ\r\n\r\na\r\r\n--XyZ\r\n\r\nb\r\n--XyZ--").last = .finished ∧
    (mpRun goOn .new [] b!"XyZ" [100] b!"--XyZ\r\n\r\na\r\r\n--XyZ\r\n\r\nb\r\n--XyZ--").world.log =
      [.multipartBegin, .headersFinished, .multipartData b!"a", .multipartData b!"\r\r", .multipartData b!"\n--XyZ",
        .multipartData b!"\r\n\r", .multipartData b!"\nb", .bodyFinished] ∧
    (mpRun goOn .new [] b!"XyZ" [100] b!"--XyZ\r\n:v\r\n\r\na\r\n--XyZ--").last = .finished := by decide +kernel

/-! ## C68 -/

/-- **C68 (partial).** A multipart body that is cut off before its last byte is neither finished nor rejected: every
complete run ends with `Eos`, and the callbacks are a beginning of what the whole body means. Missing: the bodies
that C36 misses. -/
theorem C68_cut_off_multipart_partial (h : Handler) (q : Parser) (l : List Ev) (bd : Bytes)
    (hb : bd.length < 16384) (hb' : c! '\r' ∉ bd) (ps : List LoosePart)
    (hps : ∀ cl, CanTell h l cl → LooseParts cl bd [] ps) (y z : Bytes) (hy : writeLoose bd ps = y ++ z) (hz : z ≠ [])
    (k : Nat) (ks : List Nat) (hc : (mpRun h q l bd (k :: ks) y).complete) :
    let o := mpRun h q l bd (k :: ks) y
    o.last = .eos ∧ flat o.world.log <+: flat (l ++ ps.flatMap LoosePart.events ++ [.bodyFinished]) := by
  intro o
  obtain ⟨cl, cl', h1, h2, -, H⟩ := multipart_sim h q l bd hb hb' k ks y
  obtain rfl : cl = fun es => cl' (flat l ++ es) := funext h2
  have hp := pred_loose_mp (env := mpEnv cl' bd) rfl hb' rfl (flat l) [] ps (hps _ h1.2)
  rw [List.append_nil, hy] at hp
  obtain ⟨L', h3, h4⟩ := pred_cutoff hz hp
  obtain ⟨h5, h6, -⟩ := complete_eos H hc h3
  exact ⟨h5, by rw [h6]; simpa [flat] using h4⟩

example : writeLoose b!"XyZ" exLooseParts = b!"--XyZ\r\n x\r\n:v\r\n\r\na\r\r\n-b\r\n--Xy\r\n--X\r\n--XyZ" ++
      b!"\r\nContent-Length: 12\r\n\r\n\r\n--XyZ\r\n\r\n\r\r\n--XyZ--" ∧
    (mpRun tells .new [] b!"XyZ" (List.replicate 30 4) b!"--XyZ\r\n x\r\n:v\r\n\r\na\r\r\n-b\r\n--Xy\r\n--X\r\n--XyZ").complete ∧
    (mpRun tells .new [] b!"XyZ" (List.replicate 30 4) b!"--XyZ\r\n x\r\n:v\r\n\r\na\r\r\n-b\r\n--Xy\r\n--X\r\n--XyZ").last =
      .eos := by decide +kernel

/-! ## C69 -/

theorem same_sim {h h' : Handler} (hs : SameLengths h h') (q : Parser) (l : List Ev) {bd : Bytes}
    (hb : bd.length < 16384) (hb' : c! '\r' ∉ bd) (k : Nat) (ks : List Nat) (msg : Bytes) :
    DriveSim (Inv (mpEnv h.contentLength bd) (pred (mpEnv h.contentLength bd) (flat l) (.hyphen1 true) msg))
      (pred (mpEnv h.contentLength bd) (flat l) (.hyphen1 true) msg) (mpRun h' q l bd (k :: ks) msg) := by
  have H := start_multipart (q := q) (l := l) (bd := bd) (cl := h.contentLength) (s := msg.take k) (fut := msg.drop k)
  rw [List.take_append_drop, startK, abs_multipart] at H
  exact run_sim (mpEnv_ok hb hb') (clOK_same hs).2 k ks H

theorem complete_errB {I : World → Bytes → Prop} {K : List Ev × Fin} {o : Outcome} (H : DriveSim I K o)
    (hc : o.complete) {r : Bytes} (hK : K.2 = .errB r) : ∃ c, o.last = .err (.multipartBoundary c) := by
  obtain ⟨la, wo, re⟩ := o
  obtain ⟨L, f⟩ := K
  simp only at hK
  subst hK
  cases la <;> simp only [Outcome.complete] at hc <;> simp only [DriveSim] at H
  · have := H.2 hc; simp at this
  · simp at H
  · rcases H with ⟨d, _, H⟩ | ⟨-, c, rfl⟩
    · simp at H
    · exact ⟨c, rfl⟩
  · simp at H

/-- **C69 (partial), errors.** When a run ends with an error, there is a byte `b` such that the bytes before it can be
completed to a body that is accepted, and with it they cannot: whatever comes after it, in whatever slices, an
error results. This byte is the one that was read last and the one that the error names, except for errors about the
boundary. Such errors name the byte that was read last, which is that one or an earlier one. Missing: they need not name
that byte (`C69_boundary_errors`). The
handlers tell the content lengths that `h` tells. -/
theorem C69_multipart_errors_partial (h : Handler) (hs : SameLengths h h) (q : Parser) (l : List Ev) (bd : Bytes)
    (hb : bd.length < 16384) (hb' : c! '\r' ∉ bd) (msg : Bytes) (k : Nat) (ks : List Nat) (e : PErr)
    (he : (mpRun h q l bd (k :: ks) msg).last = .err e) :
    ∃ y b z, msg = y ++ b :: z ∧
      ((e.byte = some b ∧ (mpRun h q l bd (k :: ks) msg).rest = z) ∨
        ∃ y' c, e = .multipartBoundary c ∧ msg = y' ++ c :: (mpRun h q l bd (k :: ks) msg).rest ∧
          z <:+ (mpRun h q l bd (k :: ks) msg).rest) ∧
      (∃ z, ∀ h' k' ks', SameLengths h h' → (mpRun h' q l bd (k' :: ks') (y ++ z)).complete →
        (mpRun h' q l bd (k' :: ks') (y ++ z)).last = .finished ∧ (mpRun h' q l bd (k' :: ks') (y ++ z)).rest = []) ∧
      ∀ z h' k' ks', SameLengths h h' → (mpRun h' q l bd (k' :: ks') (y ++ b :: z)).complete →
        ∃ e', (mpRun h' q l bd (k' :: ks') (y ++ b :: z)).last = .err e' ∧
          (e' = e ∨ (∃ c, e = .multipartBoundary c) ∧ ∃ c, e' = .multipartBoundary c) := by
  have H := same_sim hs q l hb hb' k ks msg
  have hK : (∃ e r, (pred (mpEnv h.contentLength bd) (flat l) (.hyphen1 true) msg).2 = .err e r) ∨
      ∃ r, (pred (mpEnv h.contentLength bd) (flat l) (.hyphen1 true) msg).2 = .errB r := by
    rcases H.error he with ⟨L, h1⟩ | ⟨r, -, h1⟩
    · exact .inl ⟨_, _, by rw [h1]⟩
    · exact .inr ⟨r, h1⟩
  obtain ⟨y, b, r, h1, h2, h3⟩ := pred_blame_part (env := mpEnv h.contentLength bd) (bd := bd) rfl rfl msg (flat l)
    (.hyphen1 true) _ _ rfl rfl hK
  obtain ⟨z, L', h4⟩ := pred_viable_part (env := mpEnv h.contentLength bd) (bd := bd) rfl rfl y (flat l) (.hyphen1 true) rfl h2
  have hv : ∃ z, ∀ h' k' ks', SameLengths h h' → (mpRun h' q l bd (k' :: ks') (y ++ z)).complete →
      (mpRun h' q l bd (k' :: ks') (y ++ z)).last = .finished ∧ (mpRun h' q l bd (k' :: ks') (y ++ z)).rest = [] := by
    refine ⟨z, fun h' k' ks' hs' hc' => ?_⟩
    obtain ⟨g1, -, g3⟩ := complete_fin (same_sim hs' q l hb hb' k' ks' (y ++ z)) hc' h4
    exact ⟨g1, g3⟩
  rcases h3 with ⟨e0, h5, h6, h7⟩ | ⟨h5, h7⟩
  · have h8 : e0 = e ∧ (mpRun h q l bd (k :: ks) msg).rest = r := by
      rcases H.error he with ⟨L, h8⟩ | ⟨_, -, h8⟩
      · rw [h8] at h5; cases h5; exact ⟨rfl, rfl⟩
      · rw [h5] at h8; cases h8
    obtain ⟨rfl, h9⟩ := h8
    refine ⟨y, b, r, h1, .inl ⟨h6, h9⟩, hv, fun z h' k' ks' hs' hc' => ?_⟩
    exact ⟨e0, (complete_err (same_sim hs' q l hb hb' k' ks' (y ++ b :: z)) hc' (h7 z)).1, .inl rfl⟩
  · have h8 : (∃ c, e = .multipartBoundary c) ∧ r <:+ (mpRun h q l bd (k :: ks) msg).rest := by
      have h9 := H
      unfold DriveSim at h9
      rw [he] at h9
      rcases h9 with ⟨d, _, h9⟩ | ⟨⟨r', h9, h10⟩, h11⟩
      · rw [h9] at h5; cases h5
      · rw [h10] at h5
        cases h5
        exact ⟨h11, h9⟩
    obtain ⟨⟨c, rfl⟩, h10⟩ := h8
    obtain ⟨y', c', h11, h12⟩ := C96_client h (k :: ks) .idle ⟨(q.init .multipart).setBoundary bd, l⟩ msg (.multipartBoundary c) nofun nofun he
    cases h12
    refine ⟨y, b, r, h1, .inr ⟨y', c, rfl, h11, h10⟩, hv, fun z h' k' ks' hs' hc' => ?_⟩
    obtain ⟨c', h9⟩ := complete_errB (same_sim hs' q l hb hb' k' ks' (y ++ b :: z)) hc' (by rw [h7 z])
    exact ⟨_, h9, .inr ⟨⟨c, rfl⟩, c', rfl⟩⟩

/-- **C69, Eos.** When a complete run ends with `Eos`, there is a continuation that is accepted. -/
theorem C69_multipart_eos (h : Handler) (hs : SameLengths h h) (q : Parser) (l : List Ev) (bd : Bytes)
    (hb : bd.length < 16384) (hb' : c! '\r' ∉ bd) (msg : Bytes) (k : Nat) (ks : List Nat)
    (hc : (mpRun h q l bd (k :: ks) msg).complete) (he : (mpRun h q l bd (k :: ks) msg).last = .eos) :
    ∃ z, ∀ h' k' ks', SameLengths h h' → (mpRun h' q l bd (k' :: ks') (msg ++ z)).complete →
      (mpRun h' q l bd (k' :: ks') (msg ++ z)).last = .finished ∧ (mpRun h' q l bd (k' :: ks') (msg ++ z)).rest = [] := by
  have H := same_sim hs q l hb hb' k ks msg
  have h1 : (pred (mpEnv h.contentLength bd) (flat l) (.hyphen1 true) msg).2 = .eos := by
    unfold DriveSim at H
    unfold Outcome.complete at hc
    rw [he] at H hc
    exact congrArg Prod.snd (H.2 hc)
  obtain ⟨z, L', h2⟩ := pred_viable_part (env := mpEnv h.contentLength bd) (bd := bd) rfl rfl msg (flat l) (.hyphen1 true) rfl h1
  refine ⟨z, fun h' k' ks' hs' hc' => ?_⟩
  obtain ⟨g1, -, g3⟩ := complete_fin (same_sim hs' q l hb hb' k' ks' (msg ++ z)) hc' h2
  exact ⟨g1, g3⟩

example : SameLengths tells tells ∧
    (mpRun tells .new [] b!"XyZ" [9, 100] b!"--XyZ\r\nA b: c\r\n\r\n").last = .err (.headerName (c! ' ')) ∧
    (mpRun tells .new [] b!"XyZ" [9, 100] b!"--XyZ\r\nA b: c\r\n\r\n").rest = b!"b: c\r\n\r\n" ∧
    (mpRun tells .new [] b!"XyZ" [9, 100] b!"--XyQ\r\n").last = .err (.multipartBoundary (c! 'X')) ∧
    (mpRun tells .new [] b!"XyZ" (List.replicate 30 2) b!"--XyZ\r\nA: c\r\n\r\ndata\r\n--Xy").last = .eos :=
  ⟨tells_same, by decide +kernel⟩

/-- Errors about the boundary: the mismatch is at the `Q`; which byte is named depends on the slices. -/
theorem C69_boundary_errors :
    (mpRun goOn .new [] b!"XyZ" [100] b!"--XyQ\r\n").last = .err (.multipartBoundary (c! 'X')) ∧
    (mpRun goOn .new [] b!"XyZ" (List.replicate 10 1) b!"--XyQ\r\n").last = .err (.multipartBoundary (c! 'Q')) := by
  decide +kernel

end Verif.Http1
