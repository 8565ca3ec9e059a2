import Verif.Props.Http1ConnRead
import Verif.Props.Http1Final

/-!
# C116: what was reported of a connection is final

`Continues` is defined in `Verif.Props.Http1Final`, `Read.Conn` in `Verif.Http1.ConnReadSpec`.
-/

namespace Verif.Http1

/-! ## Helper lemmas -/

theorem hword_append {msg : Bytes} (h : HWord msg) (x : Bytes) : HWord (msg ++ x) := by
  obtain ⟨h1, h2, h3⟩ := h
  have e : (msg ++ x).dropWhile lead = msg.dropWhile lead ++ x := by
    rw [List.dropWhile_append, if_neg]
    intro hx
    rw [List.isEmpty_iff.1 hx] at h1
    cases h1
  unfold HWord
  rw [e]
  refine ⟨?_, fun hx => ?_, fun hx => h3 ((List.prefix_append _ _).trans hx)⟩
  · cases hd : msg.dropWhile lead with
    | nil => rw [hd] at h1; cases h1
    | cons b d => rw [hd] at h1; exact h1
  · rcases List.prefix_or_prefix_of_prefix hx (List.prefix_append (msg.dropWhile lead) x) with g | g
    · exact h2 g
    · exact h3 g

theorem mode_continues {h h1 h2 : Handler} (hs1 : SameLengths h h1) (hs2 : SameLengths h h2) {m : Mode}
    (hM : Read.Bounded m) (q1 q2 : Parser) (l1 l2 : List Ev) (hl : flat l1 = flat l2) (msg x : Bytes)
    (hw : m = .head → ¬ HWord (msg ++ x)) (ks1 ks2 : List Nat)
    (c1 : (drive h1 .idle ks1 ⟨m.prepare q1, l1⟩ msg).complete)
    (c2 : (drive h2 .idle ks2 ⟨m.prepare q2, l2⟩ (msg ++ x)).complete) :
    Continues x (drive h1 .idle ks1 ⟨m.prepare q1, l1⟩ msg) (drive h2 .idle ks2 ⟨m.prepare q2, l2⟩ (msg ++ x)) := by
  cases ks1 with
  | nil => exact absurd c1 (by simp [drive, Outcome.complete])
  | cons k1 ks1 =>
  cases ks2 with
  | nil => exact absurd c2 (by simp [drive, Outcome.complete])
  | cons k2 ks2 =>
  cases m with
  | head =>
    have H1 := (begins_exact h1 (.inl ⟨q1, rfl⟩) c1).2 fun hx => hw rfl (hword_append hx.1 x)
    have H2 := (begins_exact h2 (.inl ⟨q2, rfl⟩) c2).2 fun hx => hw rfl hx.1
    rw [hl] at H1
    exact continues_of_sim (pred_more x msg _ _) H1 H2 c1 c2
  | chunked =>
    have H1 := chunked_sim h1 q1 l1 k1 ks1 msg
    have H2 := chunked_sim h2 q2 l2 k2 ks2 (msg ++ x)
    rw [hl] at H1
    exact continues_of_sim (pred_more x msg _ _) H1 H2 c1 c2
  | form n =>
    obtain ⟨I1, H1⟩ := url_sim h1 q1 l1 n k1 ks1 msg
    obtain ⟨I2, H2⟩ := url_sim h2 q2 l2 n k2 ks2 (msg ++ x)
    rw [hl] at H1
    refine continues_of_sim (endU_more ?_ fun hL => ?_) H1 H2 c1 c2
    · rw [List.take_append]; exact pred_more _ _ _ _
    · rw [List.take_append, Nat.sub_eq_zero_of_le hL, List.take_zero, List.append_nil]
  | multipart bd =>
    have H1 := same_sim hs1 q1 l1 hM.1 hM.2 k1 ks1 msg
    have H2 := same_sim hs2 q2 l2 hM.1 hM.2 k2 ks2 (msg ++ x)
    rw [hl] at H1
    exact continues_of_sim (pred_more x msg _ _) H1 H2 c1 c2

theorem serve_grows (h : Handler) (next : List Ev → Option Mode) : ∀ (ks : List Nat) (last : End) (w : World)
    (rem : Bytes), Grew w.log (serve h next last ks w rem).world.log
  | [], _, _, _ => .refl
  | k :: ks, _, w, rem => by
    have H := resume_grew h w (rem.take k)
    simp only [serve]
    generalize resume h w (rem.take k) = R at *
    obtain ⟨r, w'⟩ := R
    cases r with
    | ok s =>
      cases s with
      | callback n => exact H.trans (serve_grows h next ks _ w' _)
      | eos n => exact H.trans (serve_grows h next ks _ w' _)
      | finished n =>
        dsimp only
        cases next w'.log with
        | none => exact H
        | some m => exact H.trans (serve_grows h next ks _ _ _)
    | err e => exact H
    | panic => exact H
    | ub => exact H
    | diverge => exact H

theorem flat_prefix {a b : List Ev} (h : a <+: b) : flat a <+: flat b := by
  obtain ⟨t, rfl⟩ := h
  rw [flat_append']
  exact List.prefix_append _ _

theorem conn_continues {h h1 h2 : Handler} (hs1 : SameLengths h h1) (hs2 : SameLengths h h2)
    {next : List Ev → Option Mode} (hn : ∀ l l', flat l = flat l' → next l = next l')
    (hm : ∀ l m, next l = some m → Read.Bounded m) {x : Bytes} {m : Mode} {past : List Ev} {r : Bytes} {t : Read.Tale}
    (ht : Read.Conn h.contentLength next (fun m r s => s = false ∧ (m = .head → ¬ HWord r)) m past r t) :
    Read.Bounded m → ∀ (q1 q2 : Parser) (l1 l2 : List Ev), flat past = flat l1 → flat past = flat l2 →
    ∀ (msg : Bytes), r = msg ++ x → ∀ ks1 ks2 : List Nat,
    (serve h1 next .idle ks1 ⟨m.prepare q1, l1⟩ msg).complete →
    (serve h2 next .idle ks2 ⟨m.prepare q2, l2⟩ (msg ++ x)).complete →
    Continues x (serve h1 next .idle ks1 ⟨m.prepare q1, l1⟩ msg)
      (serve h2 next .idle ks2 ⟨m.prepare q2, l2⟩ (msg ++ x)) := by
  -- a message: both runs are done with it, or both go on after it
  have stage : ∀ {m : Mode} {past : List Ev} {r : Bytes}, (m = .head → ¬ HWord r) → Read.Bounded m →
      ∀ (q1 q2 : Parser) (l1 l2 : List Ev), flat past = flat l1 → flat past = flat l2 →
      ∀ (msg : Bytes), r = msg ++ x → ∀ ks1 ks2 : List Nat,
      (serve h1 next .idle ks1 ⟨m.prepare q1, l1⟩ msg).complete →
      (serve h2 next .idle ks2 ⟨m.prepare q2, l2⟩ (msg ++ x)).complete →
      Continues x (serve h1 next .idle ks1 ⟨m.prepare q1, l1⟩ msg)
        (serve h2 next .idle ks2 ⟨m.prepare q2, l2⟩ (msg ++ x)) ∨
      ∃ (w1 w2 : World) (es : List Ev) (r1 : Bytes) (m' : Mode) (j1 j2 : List Nat),
        Read.mode (fun es => h.contentLength (flat past ++ es)) false m r = ⟨es, .done (r1 ++ x)⟩ ∧
        next (past ++ es) = some m' ∧ flat (past ++ es) = flat w1.log ∧ flat (past ++ es) = flat w2.log ∧
        serve h1 next .idle ks1 ⟨m.prepare q1, l1⟩ msg = serve h1 next .idle j1 ⟨m'.prepare w1.p, w1.log⟩ r1 ∧
        serve h2 next .idle ks2 ⟨m.prepare q2, l2⟩ (msg ++ x) =
          serve h2 next .idle j2 ⟨m'.prepare w2.p, w2.log⟩ (r1 ++ x) := by
    intro m past r hw hM q1 q2 l1 l2 e1 e2 msg hr ks1 ks2 c1 c2
    subst hr
    have F := fun c => mode_follows hs2 hM q2 l2 past e2 (msg ++ x) ks2 c
    rw [decide_eq_false fun hx => hw hx.1 hx.2.1] at F
    have C := fun a b => mode_continues hs1 hs2 hM q1 q2 l1 l2 (e1.symm.trans e2) msg x hw ks1 ks2 a b
    rcases serve_stage h1 next ks1 .idle ⟨m.prepare q1, l1⟩ msg nofun with ⟨a1, a2⟩ | ⟨a1, us, j1, a2, a3, a4, a5⟩
    · rcases serve_stage h2 next ks2 .idle ⟨m.prepare q2, l2⟩ (msg ++ x) nofun with
        ⟨b1, b2⟩ | ⟨b1, vs, j2, b2, b3, b4, b5⟩
      · rw [a2] at c1 ⊢
        rw [b2] at c2 ⊢
        exact .inl (C c1 c2)
      · left
        rw [a2] at c1 ⊢
        have b5 := b5 j2
        rw [← b2] at b5
        have C := C c1 (by unfold Outcome.complete; rw [b1]; trivial)
        generalize drive h1 .idle ks1 ⟨m.prepare q1, l1⟩ msg = d1 at *
        generalize drive h2 .idle ks2 ⟨m.prepare q2, l2⟩ (msg ++ x) = d2 at *
        have G : flat d2.world.log <+: flat (serve h2 next .idle ks2 ⟨m.prepare q2, l2⟩ (msg ++ x)).world.log := by
          rw [b5]
          cases next d2.world.log with
          | none => exact List.prefix_refl _
          | some m' => exact flat_prefix (serve_grows h2 next j2 .idle ⟨m'.prepare d2.world.p, d2.world.log⟩ d2.rest).prefix
        obtain ⟨la, wa, ra⟩ := d1
        obtain ⟨lb, wb, rb⟩ := d2
        simp only at b1
        subst b1
        cases la with
        | eos =>
          left
          rcases C with C | ⟨⟨e, C⟩ | C, -⟩
          · exact C.trans G
          · cases C
          · cases C
        | finished => exact absurd rfl a1
        | err e => exact C.elim
        | panic => exact C.elim
        | idle => exact c1.elim
        | callback => exact c1.elim
        | ub => exact c1.elim
        | diverge => exact c1.elim
    · have cd : (drive h1 .idle ks1 ⟨m.prepare q1, l1⟩ msg).complete := by unfold Outcome.complete; rw [a1]; trivial
      have a5 := a5 j1
      rw [← a2] at a5
      rcases serve_stage h2 next ks2 .idle ⟨m.prepare q2, l2⟩ (msg ++ x) nofun with
        ⟨b1, b2⟩ | ⟨b1, vs, j2, b2, b3, b4, b5⟩
      · rw [b2] at c2
        have C := C cd c2
        unfold Continues Agree at C
        rw [a1] at C
        simp only at C
        exfalso
        split at C <;> simp_all
      · have cd2 : (drive h2 .idle ks2 ⟨m.prepare q2, l2⟩ (msg ++ x)).complete := by
          unfold Outcome.complete; rw [b1]; trivial
        have C := C cd cd2
        have F := F cd2
        have b5 := b5 j2
        rw [← b2] at b5
        generalize drive h1 .idle ks1 ⟨m.prepare q1, l1⟩ msg = d1 at *
        generalize drive h2 .idle ks2 ⟨m.prepare q2, l2⟩ (msg ++ x) = d2 at *
        obtain ⟨es, he, hlog⟩ := follows_done F b1
        have p2 : flat (past ++ es) = flat d2.world.log := by rw [flat_append', e2, hlog]
        have C' := C
        obtain ⟨la, wa, ra⟩ := d1
        obtain ⟨lb, wb, rb⟩ := d2
        simp only at a1 b1
        subst a1 b1
        obtain ⟨g1, g2⟩ : flat wa.log = flat wb.log ∧ ra ++ x = rb := C'
        have p1 : flat (past ++ es) = flat wa.log := p2.trans g1.symm
        rw [← hn _ _ p2] at b5
        rw [← hn _ _ p1] at a5
        cases hx : next (past ++ es) with
        | none =>
          rw [hx] at a5 b5
          dsimp only at a5 b5
          rw [a5, b5]
          exact .inl C
        | some m' =>
          rw [hx] at a5 b5
          dsimp only at a5 b5
          subst g2
          exact .inr ⟨wa, wb, es, ra, m', j1, j2, he, hx, p1, p2, a5, b5⟩
  induction ht with
  | broken g1 g2 =>
    intro hM q1 q2 l1 l2 e1 e2 msg hr ks1 ks2 c1 c2
    rcases stage g1.2 hM q1 q2 l1 l2 e1 e2 msg hr ks1 ks2 c1 c2 with h | ⟨_, _, es, r1, _, _, _, e, -⟩
    · exact h
    · rw [← g1.1] at e; exact absurd (congrArg Read.Tale.ending e) (g2 _)
  | last g1 g2 g3 =>
    intro hM q1 q2 l1 l2 e1 e2 msg hr ks1 ks2 c1 c2
    rcases stage g1.2 hM q1 q2 l1 l2 e1 e2 msg hr ks1 ks2 c1 c2 with h | ⟨_, _, es, r1, _, _, _, e, hx, -⟩
    · exact h
    · rw [← g1.1, g2] at e
      cases e
      rw [g3] at hx
      cases hx
  | more g1 g2 g3 _ ih =>
    intro hM q1 q2 l1 l2 e1 e2 msg hr ks1 ks2 c1 c2
    rcases stage g1.2 hM q1 q2 l1 l2 e1 e2 msg hr ks1 ks2 c1 c2 with
      h | ⟨w1, w2, es, r1, m', j1, j2, e, hx, p1, p2, s1, s2⟩
    · exact h
    · rw [← g1.1, g2] at e
      have ee := Read.Ending.done.inj (congrArg Read.Tale.ending e)
      have et := congrArg Read.Tale.told e
      dsimp only at et
      subst et
      rw [g3] at hx
      cases hx
      rw [s1] at c1 ⊢
      rw [s2] at c2 ⊢
      exact ih (hm _ _ g3) w1.p w2.p w1.log w2.log p1 p2 r1 ee j1 j2 c1 c2

/-! ## C116 -/

/-- **C116 (partial).** A client has read all of `msg` as a connection, with one parser. If more bytes come, nothing that was reported
changes: if the connection had come to its end or was rejected, it comes to the same end with the same callbacks and `x`
stays unprocessed; otherwise all callbacks so far are reported again before anything else, but for the data of a token that is
broken by the new bytes. Both runs may cut the bytes and pause as they like. The bytes mean something (`ht`). Missing:
heads that start with `H` (but for `HTTP/`), see `C116_fails`. -/
theorem C116_connection_final_partial (h h1 h2 : Handler) (hs1 : SameLengths h h1) (hs2 : SameLengths h h2)
    (next : List Ev → Option Mode) (hn : ∀ l l', flat l = flat l' → next l = next l')
    (hm : ∀ l m, next l = some m → Read.Bounded m) (m : Mode) (hM : Read.Bounded m) (q1 q2 : Parser) (msg x : Bytes)
    (t : Read.Tale)
    (ht : Read.Conn h.contentLength next (fun m r s => s = false ∧ (m = .head → ¬ HWord r)) m [] (msg ++ x) t)
    (ks1 ks2 : List Nat) (c1 : (serve h1 next .idle ks1 ⟨m.prepare q1, []⟩ msg).complete)
    (c2 : (serve h2 next .idle ks2 ⟨m.prepare q2, []⟩ (msg ++ x)).complete) :
    Continues x (serve h1 next .idle ks1 ⟨m.prepare q1, []⟩ msg)
      (serve h2 next .idle ks2 ⟨m.prepare q2, []⟩ (msg ++ x)) :=
  conn_continues hs1 hs2 hn hm ht hM q1 q2 [] [] rfl rfl msg rfl ks1 ks2 c1 c2

/-- A head and a part of a chunked body; then comes the rest of the chunk, and another one that is broken. -/
example : let a := b!"POST / HTTP/1.1\r\n\r\n3\r\nH"
    let x := b!"EA\r\nq"
    (∀ l l', flat l = flat l' → headsAndBodies l = headsAndBodies l') ∧
    (∀ l m, headsAndBodies l = some m → Read.Bounded m) ∧
    (serve goOn headsAndBodies .idle [30, 9] ⟨Mode.head.prepare .new, []⟩ a).complete ∧
    (serve goOn headsAndBodies .idle [30, 9] ⟨Mode.head.prepare .new, []⟩ a).last = .eos ∧
    (serve pauses headsAndBodies .idle (List.replicate 200 1) ⟨Mode.head.prepare .new, []⟩ (a ++ x)).complete ∧
    SameLengths goOn pauses ∧
    Read.Conn goOn.contentLength headsAndBodies (fun m r s => s = false ∧ (m = .head → ¬ HWord r)) .head [] (a ++ x)
      (Read.say [.method b!"POST", .url b!"/", .version 1 1, .initialFinished, .headersFinished]
        ⟨[.chunkBegin, .chunkLength 3, .chunkExtensionsFinished, .chunkData b!"HEA"],
          .wrong (.chunkLength (c! 'q')) []⟩) := by
  refine ⟨fun l l' e => by simp only [headsAndBodies, e], fun l m e => ?_, by decide +kernel, by decide +kernel,
    by decide +kernel, fun _ _ _ => rfl, ?_⟩
  · unfold headsAndBodies at e
    split at e <;> cases e <;> trivial
  · refine .more (lossy := false) ⟨rfl, fun _ => by unfold HWord; decide +kernel⟩ (r' := b!"3\r\nHEA\r\nq")
      (m' := .chunked) (by decide +kernel) (by decide +kernel) ?_
    have e : Read.mode (fun es => goOn.contentLength (flat [] ++ es)) false .chunked b!"3\r\nHEA\r\nq" =
        ⟨[.chunkBegin, .chunkLength 3, .chunkExtensionsFinished, .chunkData b!"HEA"],
          .wrong (.chunkLength (c! 'q')) []⟩ := by decide +kernel
    rw [← e]
    refine .broken (lossy := false) ⟨rfl, nofun⟩ fun r' => ?_
    change (Read.mode (fun es => goOn.contentLength (flat [] ++ es)) false .chunked b!"3\r\nHEA\r\nq").ending ≠ _
    rw [e]
    exact nofun

/-- The second head is rejected; with more bytes it is accepted. -/
theorem C116_fails : let a := b!"POST / HTTP/1.1\r\n\r\n0\r\n\r\nH "
    (serve goOn headsAndBodies .idle [100, 100, 100] ⟨Mode.head.prepare .new, []⟩ a).last = .err (.method (c! ' ')) ∧
    (serve goOn headsAndBodies .idle [100, 100, 100, 100] ⟨Mode.head.prepare .new, []⟩
      (a ++ b!"/ HTTP/1.1\r\n\r\na=b")).last = .finished := by
  decide +kernel

end Verif.Http1
