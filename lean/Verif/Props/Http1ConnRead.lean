import Verif.Http1.ConnReadSpec
import Verif.Props.Http1Conn
import Verif.Props.Http1Read
import Verif.Props.Http1AcceptMultipart

/-!
# C115: what any bytes mean as a connection

`Read.Conn` is defined in `Verif.Http1.ConnReadSpec`.
-/

namespace Verif.Http1

/-! ## Helper lemmas -/

theorem follows_say {l l' a : List Ev} {u : Read.Tale} {o : Outcome} (hl : flat l' = flat l ++ flat a)
    (h : Read.Follows l' u o) : Read.Follows l (Read.say a u) o := by
  obtain ⟨es, e⟩ := u
  have hf : flat (a ++ es) = flat a ++ flat es := flat_append' a es
  unfold Read.Follows Read.say at *
  cases e <;> simp only [hl, hf, List.append_assoc] at h ⊢ <;> exact h

theorem follows_done {l : List Ev} {t : Read.Tale} {o : Outcome} (F : Read.Follows l t o) (h1 : o.last = .finished) :
    ∃ es, t = ⟨es, .done o.rest⟩ ∧ flat o.world.log = flat l ++ flat es := by
  obtain ⟨es, e⟩ := t
  unfold Read.Follows at F
  cases e with
  | done r => exact ⟨es, by rw [F.2.1], F.2.2⟩
  | more => rw [h1] at F; exact absurd F.1 nofun
  | wrong e r => rw [h1] at F; exact absurd F.1 nofun
  | boundary r => rw [h1] at F; obtain ⟨⟨b, hb⟩, -⟩ := F; exact absurd hb nofun
  | crash => rw [h1] at F; exact absurd F.1 nofun

theorem mode_follows {h h' : Handler} (hs : SameLengths h h') {m : Mode} (hM : Read.Bounded m) (q : Parser) (l past : List Ev)
    (hl : flat past = flat l) (msg : Bytes) (ks : List Nat) (hc : (drive h' .idle ks ⟨m.prepare q, l⟩ msg).complete) :
    Read.Follows l (Read.mode (fun es => h.contentLength (flat past ++ es)) (decide (m = .head ∧ Short msg ks)) m msg)
      (drive h' .idle ks ⟨m.prepare q, l⟩ msg) := by
  cases m with
  | head =>
    have e : decide (Mode.head = .head ∧ Short msg ks) = decide (Short msg ks) := decide_eq_decide.2 (by simp)
    rw [e]
    exact C74_heads_partial h' (q.init .head) l msg ks (.inl ⟨q, rfl⟩) hc
  | chunked => exact C75_chunked_partial h' q l msg ks hc
  | form n => exact C76_url_partial h' q l n msg ks hc
  | multipart bd =>
    cases ks with
    | nil => exact absurd hc (by simp [drive, Outcome.complete])
    | cons k ks =>
      have H := same_sim hs q l hM.1 hM.2 k ks msg
      generalize Inv (mpEnv h.contentLength bd) (pred (mpEnv h.contentLength bd) (flat l) (.hyphen1 true) msg) = I at H
      rw [is_multipart (cl := fun es => h.contentLength (flat past ++ es)) rfl rfl (fun es => by rw [hl])] at H
      exact follows_of_sim H hc

/-- Another reading is possible for a head only if it starts with `H`. -/
theorem conn_unique {cl : List Ev → Option Nat} {next : List Ev → Option Mode} {P Q : Mode → Bytes → Bool → Prop}
    (hPQ : ∀ m r s s', P m r s → Q m r s' → s = s') {m : Mode} {past : List Ev} {r : Bytes} {t : Read.Tale}
    (h : Read.Conn cl next P m past r t) : ∀ {u : Read.Tale}, Read.Conn cl next Q m past r u → t = u := by
  induction h with
  | broken h1 h2 =>
    intro u hu
    cases hu with
    | broken g1 _ => rw [hPQ _ _ _ _ h1 g1]
    | last g1 g2 _ => rw [← hPQ _ _ _ _ h1 g1] at g2; exact absurd (congrArg Read.Tale.ending g2) (h2 _)
    | more g1 g2 _ _ => rw [← hPQ _ _ _ _ h1 g1] at g2; exact absurd (congrArg Read.Tale.ending g2) (h2 _)
  | last h1 h2 h3 =>
    intro u hu
    cases hu with
    | broken g1 g2 => rw [← hPQ _ _ _ _ h1 g1] at g2 ⊢; exact h2.symm
    | last g1 g2 _ => rw [← hPQ _ _ _ _ h1 g1, h2] at g2; exact g2
    | more g1 g2 g3 _ =>
      rw [← hPQ _ _ _ _ h1 g1, h2] at g2
      cases g2
      rw [h3] at g3
      cases g3
  | more h1 h2 h3 _ ih =>
    intro u hu
    cases hu with
    | broken g1 g2 => rw [← hPQ _ _ _ _ h1 g1] at g2; exact absurd (congrArg Read.Tale.ending h2) (g2 _)
    | last g1 g2 g3 =>
      rw [← hPQ _ _ _ _ h1 g1, h2] at g2
      cases g2
      rw [h3] at g3
      cases g3
    | more g1 g2 g3 g4 =>
      rw [← hPQ _ _ _ _ h1 g1, h2] at g2
      cases g2
      rw [h3] at g3
      cases g3
      rw [ih g4]

theorem conn_mono {cl : List Ev → Option Nat} {next : List Ev → Option Mode} {P Q : Mode → Bytes → Bool → Prop}
    (hPQ : ∀ m r s, P m r s → Q m r s) {m : Mode} {past : List Ev} {r : Bytes} {t : Read.Tale}
    (h : Read.Conn cl next P m past r t) : Read.Conn cl next Q m past r t := by
  induction h with
  | broken h1 h2 => exact .broken (hPQ _ _ _ h1) h2
  | last h1 h2 h3 => exact .last (hPQ _ _ _ h1) h2 h3
  | more h1 h2 h3 _ ih => exact .more (hPQ _ _ _ h1) h2 h3 ih

theorem conn_run (h h' : Handler) (hs : SameLengths h h') (next : List Ev → Option Mode)
    (hn : ∀ l l', flat l = flat l' → next l = next l') (hm : ∀ l m, next l = some m → Read.Bounded m) :
    ∀ (n : Nat) (ks : List Nat), ks.length ≤ n → ∀ (m : Mode) (q : Parser) (l past : List Ev) (msg : Bytes),
    flat past = flat l → Read.Bounded m → (serve h' next .idle ks ⟨m.prepare q, l⟩ msg).complete →
    ∃ t, Read.Conn h.contentLength next (fun m r s => ∃ ks', ks' <:+ ks ∧ s = decide (m = .head ∧ Short r ks')) m past msg t ∧
      Read.Follows l t (serve h' next .idle ks ⟨m.prepare q, l⟩ msg) := by
  intro n
  induction n with
  | zero =>
    intro ks hks m q l past msg _ _ hc
    cases ks with
    | nil => exact absurd hc (by simp [serve, Outcome.complete])
    | cons k ks => exact absurd hks (by simp)
  | succ n ih =>
    intro ks hks m q l past msg hl hM hc
    rcases serve_stage h' next ks .idle ⟨m.prepare q, l⟩ msg nofun with ⟨h1, h2⟩ | ⟨h1, us, ks2, h2, h3, h4, h5⟩
    · rw [h2] at hc ⊢
      have F := mode_follows hs hM q l past hl msg ks hc
      refine ⟨_, .broken ⟨ks, List.suffix_refl _, rfl⟩ (fun r' he => ?_), F⟩
      unfold Read.Follows at F
      rw [he] at F
      exact h1 F.1
    · have F := mode_follows hs hM q l past hl msg ks (by unfold Outcome.complete; rw [h1]; trivial)
      have h5 := h5 ks2
      rw [← h2] at h5
      have hlen : ks2.length ≤ n := by
        have := congrArg List.length h2
        have := List.length_pos_iff.2 h3
        simp only [List.length_append] at *
        omega
      generalize drive h' .idle ks ⟨m.prepare q, l⟩ msg = o1 at *
      obtain ⟨es, he, hlog⟩ := follows_done F h1
      have hp : flat (past ++ es) = flat o1.world.log := by rw [flat_append', hl, hlog]
      rw [← hn _ _ hp] at h5
      cases hx : next (past ++ es) with
      | none =>
        rw [hx] at h5
        dsimp only at h5
        rw [h5]
        exact ⟨_, .last ⟨ks, List.suffix_refl _, rfl⟩ he hx, h1, rfl, hlog⟩
      | some m' =>
        rw [hx] at h5
        dsimp only at h5
        rw [h5] at hc ⊢
        obtain ⟨t, g1, g2⟩ := ih ks2 hlen m' o1.world.p o1.world.log (past ++ es) o1.rest hp (hm _ _ hx) hc
        refine ⟨_, .more ⟨ks, List.suffix_refl _, rfl⟩ he hx (conn_mono ?_ g1), follows_say hlog g2⟩
        rintro _ r s ⟨ks', a, b⟩
        exact ⟨ks', a.trans ⟨us, h2.symm⟩, b⟩

theorem bounded_completes {h h' : Handler} (hs : SameLengths h h') {m : Mode} (hm : Read.Bounded m) (q : Parser) (l : List Ev)
    (msg : Bytes) : ∃ N, ∀ ks, (∀ k ∈ ks, 0 < k) → N ≤ ks.length → (drive h' .idle ks ⟨m.prepare q, l⟩ msg).complete := by
  cases m with
  | head => exact C72_runs_complete h' q l msg
  | chunked => exact C32_runs_complete h' q l msg
  | form n =>
    obtain ⟨N, hN⟩ := C20_runs_complete h' q l n msg
    refine ⟨N + 1, fun ks hk hl => ?_⟩
    cases ks with
    | nil => simp at hl
    | cons k ks => exact hN k ks hk (by simp only [List.length_cons] at hl; omega)
  | multipart bd =>
    obtain ⟨N, hN⟩ := C21_runs_complete h' (fun l l' e => (hs l l rfl).symm.trans (hs l l' e)) q l bd hm.1 hm.2 msg
    refine ⟨N + 1, fun ks hk hl => ?_⟩
    cases ks with
    | nil => simp at hl
    | cons k ks => exact hN k ks hk (by simp only [List.length_cons] at hl; omega)

theorem conn_completes {h h' : Handler} (hs : SameLengths h h') {next : List Ev → Option Mode}
    (hn : ∀ l l', flat l = flat l' → next l = next l') (hm : ∀ l m, next l = some m → Read.Bounded m)
    {m : Mode} {past : List Ev} {msg : Bytes} {t : Read.Tale}
    (ht : Read.Conn h.contentLength next (fun m r s => s = false ∧ (m = .head → ¬ HWord r)) m past msg t) :
    Read.Bounded m → ∀ (q : Parser) (l : List Ev), flat past = flat l → ∀ σ : Nat → Nat, (∀ i, 0 < σ i) →
    ∃ n, (serve h' next .idle ((List.range n).map σ) ⟨m.prepare q, l⟩ msg).complete := by
  -- a message: the run over it is complete, or it ends and others follow
  have stage : ∀ {m : Mode} {past : List Ev} {r : Bytes}, (m = .head → ¬ HWord r) → Read.Bounded m → ∀ (q : Parser)
      (l : List Ev), flat past = flat l → ∀ σ : Nat → Nat, (∀ i, 0 < σ i) →
      (∃ n, (serve h' next .idle ((List.range n).map σ) ⟨m.prepare q, l⟩ r).complete) ∨
      ∃ (w : World) (a : Nat) (es : List Ev) (r' : Bytes) (m' : Mode),
        Read.mode (fun es => h.contentLength (flat past ++ es)) false m r = ⟨es, .done r'⟩ ∧
        next (past ++ es) = some m' ∧ flat (past ++ es) = flat w.log ∧
        ∀ n, serve h' next .idle ((List.range (a + n)).map σ) ⟨m.prepare q, l⟩ r =
          serve h' next .idle ((List.range n).map fun i => σ (a + i)) ⟨m'.prepare w.p, w.log⟩ r' := by
    intro m past r hw hM q l hl σ hσ
    obtain ⟨N, hN⟩ := bounded_completes hs hM q l r
    have hc := hN ((List.range N).map σ) (by simp [hσ]) (by simp)
    have F := mode_follows hs hM q l past hl r _ hc
    rw [decide_eq_false fun hx => hw hx.1 hx.2.1] at F
    rcases serve_stage h' next ((List.range N).map σ) .idle ⟨m.prepare q, l⟩ r nofun with
      ⟨h1, h2⟩ | ⟨h1, us, ks2, h2, h3, h4, h5⟩
    · exact .inl ⟨N, by rw [h2]; exact hc⟩
    generalize drive h' .idle ((List.range N).map σ) ⟨m.prepare q, l⟩ r = o1 at *
    obtain ⟨es, he, hlog⟩ := follows_done F h1
    have hp : flat (past ++ es) = flat o1.world.log := by rw [flat_append', hl, hlog]
    rw [← hn _ _ hp] at h5
    cases hx : next (past ++ es) with
    | none =>
      left
      refine ⟨us.length + 0, ?_⟩
      rw [range_split h2, h5, hx]
      exact hc
    | some m' =>
      right
      refine ⟨o1.world, us.length, es, o1.rest, m', he, hx, hp, fun n => ?_⟩
      rw [range_split h2, h5, hx]
  induction ht with
  | broken h1 h2 =>
    intro hM q l hl σ hσ
    rcases stage h1.2 hM q l hl σ hσ with h | ⟨w, a, es, r', m', e, -⟩
    · exact h
    · rw [← h1.1] at e; exact absurd (congrArg Read.Tale.ending e) (h2 r')
  | last h1 h2 h3 =>
    intro hM q l hl σ hσ
    rcases stage h1.2 hM q l hl σ hσ with h | ⟨w, a, es, r', m', e, hx, -⟩
    · exact h
    · rw [← h1.1, h2] at e
      cases e
      rw [h3] at hx
      cases hx
  | more h1 h2 h3 _ ih =>
    intro hM q l hl σ hσ
    rcases stage h1.2 hM q l hl σ hσ with h | ⟨w, a, es, r', m', e, hx, hp, hr⟩
    · exact h
    · rw [← h1.1, h2] at e
      cases e
      rw [h3] at hx
      cases hx
      obtain ⟨n, hc⟩ := ih (hm _ _ h3) w.p w.log hp (fun i => σ (a + i)) (fun i => hσ _)
      exact ⟨a + n, by rw [hr]; exact hc⟩

/-! ## C115 -/

/-- **C115.** A client reads any bytes as a connection, with one parser: after each head or body it asks for what comes
next, as the callbacks so far tell (`next`, which must not depend on how they were cut). A complete run does what the
descriptions of heads and bodies say, one after the other. The slices matter only where a head starts with `H` (`Short`,
C72).
Missing: as for `C74_heads_partial` and `C77_multipart_partial`. -/
theorem C115_connections_partial (h : Handler) (hs : SameLengths h h) (next : List Ev → Option Mode)
    (hn : ∀ l l', flat l = flat l' → next l = next l') (hm : ∀ l m, next l = some m → Read.Bounded m)
    (m : Mode) (hM : Read.Bounded m) (q : Parser) (msg : Bytes) (ks : List Nat)
    (hc : (serve h next .idle ks ⟨m.prepare q, []⟩ msg).complete) :
    ∃ t, Read.Conn h.contentLength next (fun m r s => ∃ ks', ks' <:+ ks ∧ s = decide (m = .head ∧ Short r ks')) m [] msg t ∧
      Read.Follows [] t (serve h next .idle ks ⟨m.prepare q, []⟩ msg) :=
  conn_run h h hs next hn hm ks.length ks (Nat.le_refl _) m q [] [] msg rfl hM hc

/-- **C115.** The bytes mean one thing: if they mean `t`, and no head starts with `H` (but for `HTTP/`), then every complete
run does what `t` says, however the bytes are cut and whenever the handler pauses.
Missing: as for `C74_heads_partial` and `C77_multipart_partial`. -/
theorem C115_every_slicing_partial (h h' : Handler) (hs : SameLengths h h') (next : List Ev → Option Mode)
    (hn : ∀ l l', flat l = flat l' → next l = next l') (hm : ∀ l m, next l = some m → Read.Bounded m)
    (m : Mode) (hM : Read.Bounded m) (q : Parser) (msg : Bytes) (t : Read.Tale)
    (ht : Read.Conn h.contentLength next (fun m r s => s = false ∧ (m = .head → ¬ HWord r)) m [] msg t) (ks : List Nat)
    (hc : (serve h' next .idle ks ⟨m.prepare q, []⟩ msg).complete) :
    Read.Follows [] t (serve h' next .idle ks ⟨m.prepare q, []⟩ msg) := by
  obtain ⟨u, h1, h2⟩ := conn_run h h' hs next hn hm ks.length ks (Nat.le_refl _) m q [] [] msg rfl hM hc
  rwa [conn_unique ?_ ht h1]
  rintro m r s s' ⟨rfl, a⟩ ⟨ks', -, rfl⟩
  exact (decide_eq_false fun hsh => a hsh.1 hsh.2.1).symm

/-- **C115.** Under the same conditions, a client that keeps passing bytes gets through: for an unlimited supply `σ` of
non-empty slices there is a number of calls after which the run is complete. -/
theorem C115_completes (h h' : Handler) (hs : SameLengths h h') (next : List Ev → Option Mode)
    (hn : ∀ l l', flat l = flat l' → next l = next l') (hm : ∀ l m, next l = some m → Read.Bounded m)
    (m : Mode) (hM : Read.Bounded m) (q : Parser) (msg : Bytes) (t : Read.Tale)
    (ht : Read.Conn h.contentLength next (fun m r s => s = false ∧ (m = .head → ¬ HWord r)) m [] msg t)
    (σ : Nat → Nat) (hσ : ∀ i, 0 < σ i) :
    ∃ n, (serve h' next .idle ((List.range n).map σ) ⟨m.prepare q, []⟩ msg).complete :=
  conn_completes hs hn hm ht hM q [] rfl σ hσ

/-- A client that asks for a head, a chunked body, another head and a URL-encoded body. -/
def headsAndBodies (l : List Ev) : Option Mode :=
  match (flat l).count .initialFinished, (flat l).count .bodyFinished with
  | 1, 0 => some .chunked
  | 1, 1 => some .head
  | 2, 1 => some (.form 3)
  | _, _ => none

/-- What four messages mean; the last one is broken. The bytes of the bodies start with `H` or look like heads. -/
example : let x := b!"POST / HTTP/1.1\r\n\r\n3\r\nHEA\r\n0\r\n\r\nHTTP/1.1 200 OK\r\n\r\nH%x"
    (∀ l l', flat l = flat l' → headsAndBodies l = headsAndBodies l') ∧
    (∀ l m, headsAndBodies l = some m → Read.Bounded m) ∧
    (serve pauses headsAndBodies .idle (List.replicate 200 1) ⟨Mode.head.prepare .new, []⟩ x).complete ∧
    SameLengths goOn pauses ∧
    Read.Conn goOn.contentLength headsAndBodies (fun m r s => s = false ∧ (m = .head → ¬ HWord r)) .head [] x
      (Read.say [.method b!"POST", .url b!"/", .version 1 1, .initialFinished, .headersFinished] <|
        Read.say [.chunkBegin, .chunkLength 3, .chunkExtensionsFinished, .chunkData b!"HEA", .chunkBegin, .chunkLength 0,
          .headersFinished, .bodyFinished] <|
        Read.say [.version 1 1, .statusCode 200, .status b!"OK", .initialFinished, .headersFinished]
          ⟨[.urlEncodedBegin, .urlEncodedName b!"H"], .wrong (.urlEncodedName (c! 'x')) []⟩) := by
  refine ⟨fun l l' e => by simp only [headsAndBodies, e], fun l m e => ?_, by decide +kernel, fun _ _ _ => rfl, ?_⟩
  · unfold headsAndBodies at e
    split at e <;> cases e <;> trivial
  · refine .more (lossy := false) ⟨rfl, fun _ => by unfold HWord; decide +kernel⟩
      (r' := b!"3\r\nHEA\r\n0\r\n\r\nHTTP/1.1 200 OK\r\n\r\nH%x")
      (m' := .chunked) (by decide +kernel) (by decide +kernel) ?_
    refine .more (lossy := false) ⟨rfl, nofun⟩ (r' := b!"HTTP/1.1 200 OK\r\n\r\nH%x") (m' := .head) (by decide +kernel)
      (by decide +kernel) ?_
    refine .more (lossy := false) ⟨rfl, fun _ => by unfold HWord; decide +kernel⟩ (r' := b!"H%x") (m' := .form 3)
      (by decide +kernel) (by decide +kernel) ?_
    have e : Read.mode (fun es => goOn.contentLength (flat [] ++ es)) false (.form 3) b!"H%x" =
        ⟨[.urlEncodedBegin, .urlEncodedName b!"H"], .wrong (.urlEncodedName (c! 'x')) []⟩ := by decide +kernel
    rw [← e]
    refine .broken (lossy := false) ⟨rfl, nofun⟩ fun r' => ?_
    change (Read.mode (fun es => goOn.contentLength (flat [] ++ es)) false (.form 3) b!"H%x").ending ≠ _
    rw [e]
    exact nofun

end Verif.Http1
