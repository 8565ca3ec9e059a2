import Verif.Http1.ForwardConn
import Verif.Props.Http1Conn
import Verif.Props.Http1Forward
import Verif.Props.Http1ForwardBody

/-!
# A connection can be passed on

C106. `forwardConn` is defined in `Verif.Http1.ForwardConnSpec`: a handler that writes down heads and bodies as their
callbacks come.
-/

namespace Verif.Http1

/-! ## Helper lemmas -/

theorem no_method_end {m : Mode} {d : Bytes} : Ev.method d ≠ m.ends := by cases m <;> simp [Mode.ends]

theorem line_no_end {m : Mode} {ls : List Line} : m.ends ∉ ls.flatMap Line.events := by
  intro h
  obtain ⟨y, _, h⟩ := List.mem_flatMap.1 h
  cases y <;> cases m <;> simp [Line.events, Mode.ends] at h

theorem head_no_end (x : Head) : Mode.head.ends ∉ x.start.events ++ x.lines.flatMap Line.events := by
  intro h
  rcases List.mem_append.1 h with h | h
  · obtain ⟨st, ls⟩ := x
    cases st <;> simp [StartLine.events, Mode.ends] at h
  · exact line_no_end h

theorem chunk_no_end (x : Chunk) : Ev.bodyFinished ∉ x.events := by
  intro h
  simp only [Chunk.events, List.mem_append, List.mem_cons, List.mem_flatMap, List.not_mem_nil, or_false,
    reduceCtorEq, false_or] at h
  obtain ⟨y, _, h⟩ := h
  simp only [Extension.events] at h
  cases hv : y.value <;> simp [hv] at h

theorem part_no_end (ps : List LoosePart) : Ev.bodyFinished ∉ ps.flatMap LoosePart.events := by
  intro h
  obtain ⟨x, _, h⟩ := List.mem_flatMap.1 h
  simp only [LoosePart.events, LoosePart.headEvents, List.mem_append, List.mem_cons, List.not_mem_nil, or_false, reduceCtorEq, false_or] at h
  exact line_no_end (m := .chunked) h

/-- A head that is written is not misread. -/
theorem tidy_not_short {x : Head} (hx : x.OK) {ks : List Nat} {t : List Ev} (ht : flat t = flat x.events) (hs : Suits ks t)
    (hk : ks ≠ []) (rest : Bytes) : ¬ Short (x.tidy.write ++ rest) ks := by
  obtain ⟨st, ls⟩ := x
  obtain ⟨k, ks, rfl⟩ := List.exists_cons_of_ne_nil hk
  cases st with
  | response ma mi c re =>
    obtain ⟨r, e⟩ : ∃ r, (Head.tidy ⟨.response ma mi c re, ls⟩).write ++ rest = c! 'H' :: (b!"TTP/" ++ r) :=
      ⟨_, by simp only [Head.write, Head.tidy, StartLine.tidy, StartLine.write, List.append_assoc]; rfl⟩
    rintro ⟨⟨_, h2, _⟩, _⟩
    rw [e, List.dropWhile_cons, if_neg (by decide)] at h2
    exact h2 ⟨r, rfl⟩
  | request m u ma mi =>
    obtain ⟨⟨⟨h1, h2⟩, h3, -⟩, -⟩ := hx
    obtain ⟨b, m, rfl⟩ := List.exists_cons_of_ne_nil h1
    have hb : lead b = false := by rw [← isBlank_lead]; exact upper_not_blank (h2 b (by simp))
    obtain ⟨r, e⟩ : ∃ r, (Head.tidy ⟨.request (b :: m) u ma mi, ls⟩).write ++ rest = b :: r :=
      ⟨_, by simp only [Head.write, Head.tidy, StartLine.tidy, StartLine.write, List.append_assoc, List.cons_append]; rfl⟩
    by_cases hH : b = c! 'H'
    · rcases hs with hs | hs
      · have hlen : 9 ≤ (b :: r).length := by
          rw [← e]
          simp only [Head.write, Head.tidy, StartLine.tidy, StartLine.write, List.length_append, List.length_cons]
          omega
        rintro ⟨_, h9⟩
        rw [e] at h9
        have := token_long (ks := ks) hb (hs k (by simp)) hlen
        omega
      · have : Ev.method [b] ∈ flat t := by rw [ht]; simp [Head.events, StartLine.events, flat, flatEv]
        obtain ⟨e', h4, h5⟩ := List.mem_flatMap.1 this
        cases e' <;> simp [flatEv] at h5
        exact absurd (hH ▸ h5) (hs _ h4)
    · rw [e]
      exact not_short_of_word (bl := []) nofun hb hH

theorem Suits.mono {ks ks' : List Nat} {l l' : List Ev} (h : Suits ks l) (hk : ∀ k ∈ ks', k ∈ ks) (hl : ∀ e ∈ l', e ∈ l) :
    Suits ks' l' :=
  h.imp (fun h k hk' => h k (hk k hk')) fun h d hd => h d (hl _ hd)

/-- A head or a body that was accepted, written down and read again. -/
theorem stage_again (h : Handler) (hh : SameLengths h h) (m : Mode) (hm : m.Marked) (q : Parser) (l : List Ev) (ks : List Nat)
    (msg : Bytes) (hf : (drive h .idle ks ⟨m.prepare q, l⟩ msg).last = .finished) :
    ∃ t, (drive h .idle ks ⟨m.prepare q, l⟩ msg).world.log = l ++ t ∧ (∀ e ∈ t, flatEv e ≠ []) ∧
      (∃ t0, t = t0 ++ [m.ends] ∧ m.ends ∉ t0) ∧
      ∀ (h' : Handler) (q' : Parser) (l' : List Ev) (ks' : List Nat) (rest : Bytes), SameLengths h h' → flat l' = flat l →
        Suits ks' t → (drive h' .idle ks' ⟨m.prepare q', l'⟩ (m.passFrom .none t ++ rest)).complete →
        let o := drive h' .idle ks' ⟨m.prepare q', l'⟩ (m.passFrom .none t ++ rest)
        o.last = .finished ∧ o.rest = rest ∧ flat o.world.log = flat l' ++ flat t := by
  obtain ⟨t, h3, h4⟩ := drive_grew h ks .idle ⟨m.prepare q, l⟩ msg
  have nil' : ∀ {h' : Handler} {ks' : List Nat} {w : World} {x : Bytes}, (drive h' .idle ks' w x).complete → ks' ≠ [] := by
    rintro h' ks' w x hc rfl; exact hc
  obtain ⟨k, ks, rfl⟩ : ∃ k ks', ks = k :: ks' := by
    cases ks with
    | nil => exact absurd hf (by simp [drive])
    | cons k ks => exact ⟨_, _, rfl⟩
  refine ⟨t, h3, h4, ?_⟩
  have h3' := congrArg flat h3
  rw [flat_app] at h3'
  cases m with
  | head =>
    obtain ⟨x, h1, h2⟩ := begins_means h (.inl ⟨q, rfl⟩) hf
    have ht : flat t = flat x.events := List.append_cancel_left (h3'.symm.trans h2)
    refine ⟨ends_unique h4 ht (head_no_end x), ?_⟩
    intro h' q' l' ks' rest _ hl hs
    have hw : Mode.head.passFrom .none t = x.tidy.write := by
      rw [← passFrom_flat _ h4, ht, passFrom_head]
      exact Head.forward h1
    rw [hw]
    intro hc o
    have H := (begins_exact h' (.inl ⟨q', rfl⟩) hc).2 (tidy_not_short h1 ht hs (nil' hc) rest)
    have hK : pred headEnv (flat l') .stripDetect (x.tidy.write ++ rest) = (flat l' ++ flat x.tidy.events, .finished rest) := by
      rw [← pred_head (Head.tidy_ok h1) (flat l') rest]
      obtain ⟨b, r, h5, h6⟩ := Head.starts (Head.tidy_ok h1)
      rw [h5]
      exact strip_eq (by rw [isBlank_lead]; exact h6)
    obtain ⟨g1, g2, g3⟩ := complete_fin H hc hK
    exact ⟨g1, g3, by rw [show flat o.world.log = _ from g2, Head.tidy_means h1, ht]⟩
  | chunked =>
    obtain ⟨x, h1, -, h2⟩ := C52_only_chunked_accepted_partial h q l msg k ks hf
    rw [flat_app] at h2
    have ht : flat t = flat x.events := List.append_cancel_left (h3'.symm.trans h2)
    have e : x.events = (x.chunks.flatMap Chunk.events ++ [.chunkBegin, .chunkLength 0] ++ x.trailer.flatMap Line.events ++
      [.headersFinished]) ++ [Mode.chunked.ends] := by simp [LooseBody.events, Mode.ends]
    refine ⟨ends_unique h4 (ht.trans (congrArg flat e)) ?_, ?_⟩
    · intro h5
      simp only [List.mem_append, List.mem_cons, List.not_mem_nil, or_false] at h5
      rcases h5 with ((h5 | h5 | h5) | h5) | h5
      · obtain ⟨c, _, h6⟩ := List.mem_flatMap.1 h5
        exact chunk_no_end c h6
      · cases h5
      · cases h5
      · exact line_no_end h5
      · cases h5
    intro h' q' l' ks' rest _ hl hs
    have hw : Mode.chunked.passFrom .none t = x.tidy.write := by
      rw [← passFrom_flat _ h4, ht, passFrom_chunked]
      exact LooseBody.forward h1
    rw [hw]
    intro hc o
    obtain ⟨k', ks', rfl⟩ := List.exists_cons_of_ne_nil (nil' hc)
    have := C52_all_chunked_accepted h' q' l' x.tidy (LooseBody.tidy_ok h1) rest k' ks' hc
    rwa [flat_app, LooseBody.tidy_means, ← ht] at this
  | form n => exact hm.elim
  | multipart bd =>
    obtain ⟨hb, hb'⟩ := hm
    obtain ⟨ps, h1, -, h2⟩ := Acc.multipart (env := mpEnv h.contentLength bd) rfl rfl (tr := flat l) (m := msg)
      ((same_sim hh q l hb hb' k ks msg).fin hf)
    have ht : flat t = flat (ps.flatMap LoosePart.events ++ [.bodyFinished]) := List.append_cancel_left (h3'.symm.trans h2)
    refine ⟨ends_unique h4 ht (part_no_end ps), ?_⟩
    intro h' q' l' ks' rest hs' hl hs
    have hw : (Mode.multipart bd).passFrom .none t = writeLoose bd (ps.map LoosePart.tidy) := by
      rw [← passFrom_flat _ h4, ht, passFrom_multipart]
      exact parts_forward h1
    rw [hw]
    intro hc o
    obtain ⟨k', ks', rfl⟩ := List.exists_cons_of_ne_nil (nil' hc)
    have H := same_sim hs' q' l' hb hb' k' ks' (writeLoose bd (ps.map LoosePart.tidy) ++ rest)
    have hp := pred_loose_mp (env := mpEnv h.contentLength bd) rfl hb' rfl (flat l') rest _
      (parts_ok ps [] [] rfl (by rw [hl]; exact h1))
    obtain ⟨g1, g2, g3⟩ := complete_fin H hc hp
    exact ⟨g1, g3, by rw [show flat o.world.log = _ from g2, ht, flat_app, flat_app, parts_means]⟩

theorem same_right {h h' : Handler} (hs : SameLengths h h') : SameLengths h' h' :=
  fun l l' e => (hs l l rfl).symm.trans (hs l l' e)

theorem mode_completes {h : Handler} (hs : SameLengths h h) {m : Mode} (hm : m.Marked) (q : Parser) (l : List Ev)
    (msg : Bytes) : ∃ N, ∀ ks, (∀ k ∈ ks, 0 < k) → N ≤ ks.length → (drive h .idle ks ⟨m.prepare q, l⟩ msg).complete := by
  cases m with
  | head => exact C72_runs_complete h q l msg
  | chunked => exact C32_runs_complete h q l msg
  | form n => exact hm.elim
  | multipart bd =>
    obtain ⟨N, hN⟩ := C21_runs_complete h hs q l bd hm.1 hm.2 msg
    refine ⟨N + 1, fun ks hk hl => ?_⟩
    cases ks with
    | nil => simp at hl
    | cons k ks => exact hN k ks hk (by simp only [List.length_cons] at hl; omega)

theorem pass_on (h : Handler) (hh : SameLengths h h) (next : List Ev → Option Mode)
    (hn : ∀ l l', flat l = flat l' → next l = next l') (hm : ∀ l m, next l = some m → m.Marked) :
    ∀ (n : Nat) (ks : List Nat), ks.length ≤ n → ∀ (m : Mode) (q : Parser) (l : List Ev) (msg : Bytes), m.Marked →
    (serve h next .idle ks ⟨m.prepare q, l⟩ msg).last = .finished →
    ∃ t, (serve h next .idle ks ⟨m.prepare q, l⟩ msg).world.log = l ++ t ∧ (∀ e ∈ t, flatEv e ≠ []) ∧
      ∀ (h' : Handler) (q' : Parser) (l' : List Ev) (rest : Bytes), SameLengths h h' → flat l' = flat l →
        (∀ ks', Suits ks' t →
          (serve h' next .idle ks' ⟨m.prepare q', l'⟩ (forwardConnFrom next m l .none t ++ rest)).complete →
          let o := serve h' next .idle ks' ⟨m.prepare q', l'⟩ (forwardConnFrom next m l .none t ++ rest)
          o.last = .finished ∧ o.rest = rest ∧ ∃ t', o.world.log = l' ++ t' ∧ (∀ e ∈ t', flatEv e ≠ []) ∧ flat t' = flat t) ∧
        ∀ σ : Nat → Nat, (∀ i, 0 < σ i) → (∀ n, Suits ((List.range n).map σ) t) →
          ∃ n, (serve h' next .idle ((List.range n).map σ) ⟨m.prepare q', l'⟩
            (forwardConnFrom next m l .none t ++ rest)).complete := by
  intro n
  induction n with
  | zero =>
    intro ks hks m q l msg _ hf
    cases ks with
    | nil => exact absurd hf (by simp [serve])
    | cons k ks => exact absurd hks (by simp)
  | succ n ih =>
    intro ks hks m q l msg hM hf
    rcases serve_stage h next ks .idle ⟨m.prepare q, l⟩ msg nofun with ⟨h1, h2⟩ | ⟨h1, us, ks2, h2, h3, h4, h5⟩
    · rw [h2] at hf; exact absurd hf h1
    obtain ⟨t, a1, a2, ⟨t0, a3, a4⟩, a5⟩ := stage_again h hh m hM q l ks msg h1
    have h5 := h5 ks2
    rw [← h2, a1] at h5
    have hlen : ks2.length ≤ n := by
      have := congrArg List.length h2
      have := List.length_pos_iff.2 h3
      simp only [List.length_append] at *
      omega
    -- the second client, up to the end of this message
    have second : ∀ (h' : Handler) (q' : Parser) (l' : List Ev) (ks' : List Nat) (R : Bytes), SameLengths h h' → flat l' = flat l →
        Suits ks' t → (drive h' .idle ks' ⟨m.prepare q', l'⟩ (m.passFrom .none t ++ R)).complete ∨
          (serve h' next .idle ks' ⟨m.prepare q', l'⟩ (m.passFrom .none t ++ R)).complete →
        ∃ (us ks3 : List Nat) (w : World) (t' : List Ev), ks' = us ++ ks3 ∧ w.log = l' ++ t' ∧ (∀ e ∈ t', flatEv e ≠ []) ∧
          flat t' = flat t ∧
          ∀ more, serve h' next .idle (us ++ more) ⟨m.prepare q', l'⟩ (m.passFrom .none t ++ R) =
            match next (l ++ t) with
            | none => ⟨.finished, w, R⟩
            | some m' => serve h' next .idle more ⟨m'.prepare w.p, w.log⟩ R := by
      intro h' q' l' ks' R hs' hl hs hc
      rcases serve_stage h' next ks' .idle ⟨m.prepare q', l'⟩ (m.passFrom .none t ++ R) nofun with
        ⟨b1, b2⟩ | ⟨b1, us', ks3, b2, b3, b4, b5⟩
      · refine absurd (a5 h' q' l' ks' R hs' hl hs (hc.elim id fun hc => ?_)).1 b1
        rw [b2] at hc; exact hc
      · obtain ⟨-, c2, c3⟩ := a5 h' q' l' ks' R hs' hl hs (by rw [Outcome.complete, b1]; trivial)
        obtain ⟨t', d1, d2⟩ := drive_grew h' ks' .idle ⟨m.prepare q', l'⟩ (m.passFrom .none t ++ R)
        rw [hn _ (l ++ t) (by rw [c3, flat_app, hl])] at b5
        refine ⟨us', ks3, _, t', b2, d1, d2, ?_, fun more => (b5 more).trans ?_⟩
        · have := congrArg flat d1
          rw [c3, flat_app] at this
          exact (List.append_cancel_left this).symm
        · rw [c2]
          cases next (l ++ t) with
          | some m' => rfl
          | none =>
            dsimp only
            generalize drive h' .idle ks' ⟨m.prepare q', l'⟩ (m.passFrom .none t ++ R) = o at b1 c2
            obtain ⟨la, wo, re⟩ := o
            dsimp only at b1 c2
            subst b1 c2
            rfl
    have split := fun u => forwardConn_stage next m u t0 l .none a4
    simp only [← a3] at split
    cases hx : next (l ++ t) with
    | none =>
      rw [hx] at h5 second split
      dsimp only at h5 second split
      refine ⟨t, by rw [h5]; exact a1, a2, ?_⟩
      intro h' q' l' rest hs' hl
      have := split []
      rw [List.append_nil, List.append_nil] at this
      rw [this]
      constructor
      · intro ks' hs hc o
        obtain ⟨us', ks3, w, t', e1, e2, e3, e4, e5⟩ := second h' q' l' ks' rest hs' hl hs (.inr hc)
        rw [show o = _ from (by rw [← e1] : o = serve h' next .idle (us' ++ ks3) _ _).trans (e5 ks3)]
        exact ⟨rfl, rfl, t', e2, e3, e4⟩
      · intro σ hσ hs
        obtain ⟨N, hN⟩ := mode_completes (same_right hs') hM q' l' (m.passFrom .none t ++ rest)
        obtain ⟨us', ks3, w, t', e1, e2, e3, e4, e5⟩ := second h' q' l' _ rest hs' hl (hs N)
          (.inl (hN ((List.range N).map σ) (by simp [hσ]) (by simp)))
        exact ⟨N, by rw [e1, e5]; trivial⟩
    | some m' =>
      rw [hx] at h5 second split
      dsimp only at h5 second split
      rw [h5] at hf ⊢
      obtain ⟨u, f1, f2, f3⟩ := ih ks2 hlen m' _ (l ++ t) _ (hm _ _ hx) hf
      refine ⟨t ++ u, by rw [f1, List.append_assoc], fun e he => (List.mem_append.1 he).elim (a2 e) (f2 e), ?_⟩
      intro h' q' l' rest hs' hl
      rw [split, List.append_assoc]
      constructor
      · intro ks' hs hc o
        obtain ⟨us', ks3, w, t', e1, e2, e3, e4, e5⟩ := second h' q' l' ks' _ hs' hl
          (hs.mono (fun _ h => h) (by simp +contextual)) (.inr hc)
        have ho : o = _ := (by rw [← e1] : o = serve h' next .idle (us' ++ ks3) _ _).trans (e5 ks3)
        change o.complete at hc
        rw [ho] at hc ⊢
        obtain ⟨g1, g2, u', g3, g4, g5⟩ := (f3 h' w.p w.log rest hs' (by rw [e2, flat_app, flat_app, hl, e4])).1 ks3
          (hs.mono (by rw [e1]; simp +contextual) (by simp +contextual)) hc
        exact ⟨g1, g2, t' ++ u', by rw [g3, e2, List.append_assoc], fun e he => (List.mem_append.1 he).elim (e3 e) (g4 e),
          by rw [flat_app, flat_app, e4, g5]⟩
      · intro σ hσ hs
        obtain ⟨N, hN⟩ := mode_completes (same_right hs') hM q' l'
          (m.passFrom .none t ++ (forwardConnFrom next m' (l ++ t) .none u ++ rest))
        obtain ⟨us', ks3, w, t', e1, e2, e3, e4, e5⟩ := second h' q' l' _ _ hs' hl
          ((hs N).mono (fun _ h => h) (by simp +contextual)) (.inl (hN ((List.range N).map σ) (by simp [hσ]) (by simp)))
        obtain ⟨n, hc⟩ := (f3 h' w.p w.log rest hs' (by rw [e2, flat_app, flat_app, hl, e4])).2
          (fun i => σ (us'.length + i)) (fun i => hσ _) (fun n => (hs (us'.length + n)).mono
            (by rw [range_split e1]; simp +contextual) (by simp +contextual))
        exact ⟨us'.length + n, by rw [range_split e1, e5]; exact hc⟩

/-! ## C106 -/

/-- **C106.** A client reads heads, chunked bodies and multipart bodies from a connection, whatever bytes come, in whatever
slices; what it asks for next depends on what was reported, not on how it was cut. A handler writes everything down as
the callbacks come. Another client that asks for the same things after the same callbacks reads what was written, with any
bytes after it: it gets exactly the same callbacks, stops directly after the last message, and writes down the same bytes
again. -/
theorem C106_connection (h h' : Handler) (hh : SameLengths h h) (hs : SameLengths h h') (next : List Ev → Option Mode)
    (hn : ∀ l l', flat l = flat l' → next l = next l') (hm : ∀ l m, next l = some m → m.Marked)
    (m : Mode) (hM : m.Marked) (q q' : Parser) (msg : Bytes) (ks : List Nat)
    (hf : (serve h next .idle ks ⟨m.prepare q, []⟩ msg).last = .finished) (rest : Bytes) (ks' : List Nat) :
    let o := serve h next .idle ks ⟨m.prepare q, []⟩ msg
    let o' := serve h' next .idle ks' ⟨m.prepare q', []⟩ (forwardConn next m o.world.log ++ rest)
    Suits ks' o.world.log → o'.complete →
    o'.last = .finished ∧ o'.rest = rest ∧ flat o'.world.log = flat o.world.log ∧
      forwardConn next m o'.world.log = forwardConn next m o.world.log := by
  intro o o' hsu hc
  obtain ⟨t, h1, h2, h3⟩ := pass_on h hh next hn hm ks.length ks (Nat.le_refl _) m q [] msg hM hf
  have h1 : o.world.log = t := h1
  have e : forwardConn next m o.world.log = forwardConnFrom next m [] .none t := by rw [h1]; rfl
  have ho : o' = serve h' next .idle ks' ⟨m.prepare q', []⟩ (forwardConnFrom next m [] .none t ++ rest) := by rw [← e]
  rw [ho] at hc
  obtain ⟨g1, g2, t', g3, g4, g5⟩ := (h3 h' q' [] rest hs rfl).1 ks' (h1 ▸ hsu) hc
  rw [← ho] at g1 g2 g3
  have g3 : o'.world.log = t' := g3
  refine ⟨g1, g2, by rw [g3, h1, g5], ?_⟩
  rw [g3, h1, forwardConn, forwardConn, ← conn_flat hn t' [] [] m .none g4 rfl, g5, conn_flat hn t [] [] m .none h2 rfl]

/-- **C106.** The second client gets through: for an unlimited supply `σ` of non-empty slices there is a number of calls
after which its run is complete. -/
theorem C106_completes (h h' : Handler) (hh : SameLengths h h) (hs : SameLengths h h') (next : List Ev → Option Mode)
    (hn : ∀ l l', flat l = flat l' → next l = next l') (hm : ∀ l m, next l = some m → m.Marked)
    (m : Mode) (hM : m.Marked) (q q' : Parser) (msg : Bytes) (ks : List Nat)
    (hf : (serve h next .idle ks ⟨m.prepare q, []⟩ msg).last = .finished) (rest : Bytes) (σ : Nat → Nat) (hσ : ∀ i, 0 < σ i) :
    let o := serve h next .idle ks ⟨m.prepare q, []⟩ msg
    (∀ n, Suits ((List.range n).map σ) o.world.log) →
    ∃ n, (serve h' next .idle ((List.range n).map σ) ⟨m.prepare q', []⟩ (forwardConn next m o.world.log ++ rest)).complete := by
  intro o hsu
  obtain ⟨t, h1, -, h3⟩ := pass_on h hh next hn hm ks.length ks (Nat.le_refl _) m q [] msg hM hf
  have h1 : o.world.log = t := h1
  rw [h1] at hsu ⊢
  exact (h3 h' q' [] rest hs rfl).2 σ hσ hsu

/-- A client that asks for a head, a chunked body, another head and a multipart body. -/
def fourTimes (l : List Ev) : Option Mode :=
  match (flat l).count .initialFinished, (flat l).count .bodyFinished with
  | 1, 0 => some .chunked
  | 1, 1 => some .head
  | 2, 1 => some (.multipart b!"XyZ")
  | _, _ => none

/-- What it reads byte by byte is written down, and read again with more bytes after it. -/
example : let x := b!"\r\nPOST /a HTTP/1.1\r\nhost:x\r\n\r\n2;e\r\nhi\r\n0\r\nT:u\r\n v\r\n\r\n" ++
      b!"HEAD /b HTTP/1.00\r\na: b\r\n c\r\n\r\n--XyZ\r\n\r\n\r\n-x\r\n--XyZ--GET"
    let o := serve tells fourTimes .idle (List.replicate 200 1) ⟨Mode.head.prepare .new, []⟩ x
    (∀ l l', flat l = flat l' → fourTimes l = fourTimes l') ∧ (∀ l m, fourTimes l = some m → m.Marked) ∧
      SameLengths tells tells ∧ o.last = .finished ∧ o.rest = b!"GET" ∧
      forwardConn fourTimes .head o.world.log =
        b!"POST /a HTTP/1.1\r\nhost: x\r\n\r\n2;e\r\nhi\r\n0\r\nt: uv\r\n\r\n" ++
        b!"EAD /b HTTP/1.0\r\na: bc\r\n\r\n--XyZ\r\n\r\n\r\n-x\r\n--XyZ--" ∧
      Suits [9, 300, 300, 300, 300] o.world.log ∧
      (serve tells fourTimes .idle [9, 300, 300, 300, 300] ⟨Mode.head.prepare .new, []⟩
        (forwardConn fourTimes .head o.world.log ++ b!"HEAD")).complete := by
  refine ⟨fun l l' e => by simp only [fourTimes, e], fun l m e => ?_, tells_same, by decide +kernel, by decide +kernel,
    by decide +kernel, .inl (by decide), by decide +kernel⟩
  unfold fourTimes at e
  split at e <;> cases e <;> trivial

/-- Slices of nine bytes, for instance, suit every history. -/
example (l : List Ev) : (∀ i, 0 < (fun _ => 9 : Nat → Nat) i) ∧ ∀ n, Suits ((List.range n).map fun _ => 9) l :=
  ⟨fun _ => Nat.succ_pos 8, fun n => .inl (by simp)⟩

end Verif.Http1
