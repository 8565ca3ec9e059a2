import Verif.Http1.ConnSpec
import Verif.Props.Http1Detect
import Verif.Props.Http1Chunked
import Verif.Props.Http1Url
import Verif.Props.Http1Multipart

/-!
# Properties about connections

C73: one parser reads heads and bodies that follow each other on a connection. The client and the messages are
specified in `Verif.Http1.ConnSpec`.
-/

namespace Verif.Http1

/-! ## Helper lemmas -/

/-- A message of a connection is read as if it were alone. -/
theorem serve_stage (h : Handler) (next : List Ev → Option Mode) : ∀ (ks : List Nat) (last : End) (w : World)
    (rem : Bytes), last ≠ .finished →
    ((drive h last ks w rem).last ≠ .finished ∧ serve h next last ks w rem = drive h last ks w rem) ∨
    ((drive h last ks w rem).last = .finished ∧ ∃ us ks', ks = us ++ ks' ∧ us ≠ [] ∧
      (∀ more, drive h last (us ++ more) w rem = drive h last ks w rem) ∧
      ∀ more, serve h next last (us ++ more) w rem =
        match next (drive h last ks w rem).world.log with
        | none => drive h last ks w rem
        | some m => serve h next .idle more
          ⟨m.prepare (drive h last ks w rem).world.p, (drive h last ks w rem).world.log⟩ (drive h last ks w rem).rest)
  | [], last, w, rem, hl => .inl ⟨hl, rfl⟩
  | k :: ks, last, w, rem, hl => by
    have ih := fun la wo re hx => serve_stage h next ks la wo re hx
    have lift : ∀ (la wo re), (∀ more, drive h last (k :: more) w rem = drive h la more wo re) →
        (∀ more, serve h next last (k :: more) w rem = serve h next la more wo re) →
        la ≠ .finished →
        ((drive h last (k :: ks) w rem).last ≠ .finished ∧ serve h next last (k :: ks) w rem = drive h last (k :: ks) w rem) ∨
        ((drive h last (k :: ks) w rem).last = .finished ∧ ∃ us ks', k :: ks = us ++ ks' ∧ us ≠ [] ∧
          (∀ more, drive h last (us ++ more) w rem = drive h last (k :: ks) w rem) ∧
          ∀ more, serve h next last (us ++ more) w rem =
            match next (drive h last (k :: ks) w rem).world.log with
            | none => drive h last (k :: ks) w rem
            | some m => serve h next .idle more
              ⟨m.prepare (drive h last (k :: ks) w rem).world.p, (drive h last (k :: ks) w rem).world.log⟩
              (drive h last (k :: ks) w rem).rest) := by
      intro la wo re e1 e2 hx
      rcases ih la wo re hx with ⟨h1, h2⟩ | ⟨h1, us, ks', h2, h3, h4, h5⟩
      · left
        rw [e1, e2]
        exact ⟨h1, h2⟩
      · right
        rw [e1]
        refine ⟨h1, k :: us, ks', by rw [h2]; rfl, by simp, fun more => ?_, fun more => ?_⟩
        · rw [List.cons_append, e1]; exact h4 more
        · rw [List.cons_append, e2]; exact h5 more
    rcases e : resume h w (rem.take k) with ⟨r, w'⟩
    cases r with
    | ok s =>
      cases s with
      | callback n => exact lift .callback w' (rem.drop n) (fun more => by simp only [drive, e]) (fun more => by simp only [serve, e]) nofun
      | eos n => exact lift .eos w' (rem.drop n) (fun more => by simp only [drive, e]) (fun more => by simp only [serve, e]) nofun
      | finished n =>
        right
        have e1 : ∀ more, drive h last (k :: more) w rem = ⟨.finished, w', rem.drop n⟩ := fun more => by simp only [drive, e]
        rw [e1]
        refine ⟨rfl, [k], ks, rfl, by simp, fun more => e1 more, fun more => ?_⟩
        simp only [List.cons_append, List.nil_append, serve, e]
        cases next w'.log <;> rfl
    | err e' => left; simp only [drive, serve, e]; exact ⟨nofun, trivial⟩
    | panic => left; simp only [drive, serve, e]; exact ⟨nofun, trivial⟩
    | ub => left; simp only [drive, serve, e]; exact ⟨nofun, trivial⟩
    | diverge => left; simp only [drive, serve, e]; exact ⟨nofun, trivial⟩

theorem PartsOK.congr {cl : List Ev → Option Nat} {bd : Bytes} : ∀ {ps : List Part} {l l' : List Ev}, flat l = flat l' →
    PartsOK cl bd l ps → PartsOK cl bd l' ps
  | [], _, _, _, _ => trivial
  | x :: ps, l, l', e, ⟨h1, h2, h3⟩ =>
    ⟨h1, fun m hm => h2 m (by rw [hm, flat_append', flat_append', e]),
      h3.congr (by rw [flat_append', flat_append', e])⟩

theorem Item.OK.congr {cl : List Ev → Option Nat} {l l' : List Ev} {x : Item} (e : flat l = flat l') (h : x.OK cl l) :
    x.OK cl l' := by
  cases x with
  | multipart bd ps => exact ⟨h.1, h.2.1, h.2.2.congr e⟩
  | _ => exact h

theorem token_long {k : Nat} {ks : List Nat} {a : UInt8} {x : Bytes} (ha : lead a = false) (hk : 9 ≤ k)
    (hx : 9 ≤ (a :: x).length) : 9 ≤ (tokenSlice (k :: ks) (a :: x)).length := by
  have e : ((a :: x).take k).dropWhile lead = (a :: x).take k := by
    obtain ⟨k, rfl⟩ : ∃ j, k = j + 1 := ⟨k - 1, by omega⟩
    simp [ha]
  rw [tokenSlice, e, if_neg]
  · simp only [List.length_take]; omega
  · intro h0
    have := congrArg List.length h0
    simp only [List.length_take, List.length_nil] at this
    omega

/-- One message. -/
theorem item_alone (h : Handler) (q : Parser) (l : List Ev) (x : Item) (hx : x.OK h.contentLength l) (rest : Bytes)
    (ks : List Nat) (hf : x.Fits ks)
    (hc : (drive h .idle ks ⟨x.mode.prepare q, l⟩ (x.write ++ rest)).complete) :
    let o := drive h .idle ks ⟨x.mode.prepare q, l⟩ (x.write ++ rest)
    o.last = .finished ∧ o.rest = rest ∧ flat o.world.log = flat (l ++ x.events) := by
  cases ks with
  | nil => exact absurd hc (by simp [drive, Outcome.complete])
  | cons k ks =>
  cases x with
  | request bl x =>
    obtain ⟨hb, hx⟩ := hx
    obtain ⟨hn, hm⟩ := hx.method
    obtain ⟨b, m, e⟩ := List.exists_cons_of_ne_nil hn
    have hbl := upper_not_blank (hm b (by simp [e]))
    obtain ⟨t, e2⟩ : ∃ t, x.write ++ rest = b :: t := ⟨_, by simp [Request.write, e]; rfl⟩
    have hs : ¬ Short (bl ++ (x.write ++ rest)) (k :: ks) := by
      by_cases hH : b = c! 'H'
      · obtain ⟨rfl, hk⟩ := hf (by rw [e, hH]; rfl)
        have hlen : 9 ≤ (x.write ++ rest).length := by simp [Request.write]; omega
        rintro ⟨_, h9⟩
        rw [List.nil_append, e2] at h9
        rw [e2] at hlen
        have := token_long (ks := ks) (by rw [← isBlank_lead]; exact hbl) (hk k (by simp)) hlen
        omega
      · rw [e2]
        exact not_short_of_word hb (by rw [← isBlank_lead]; exact hbl) hH
    have e3 : Item.write (.request bl x) ++ rest = bl ++ (x.write ++ rest) := by simp [Item.write]
    rw [e3] at hc ⊢
    intro o
    have K := (begins_exact h (.inl ⟨q, rfl⟩) hc).2 hs
    have hK : pred headEnv (flat l) .stripDetect (bl ++ (x.write ++ rest)) = (flat l ++ flat x.events, .finished rest) := by
      rw [pred_lead _ hb, ← pred_request hx, e2]
      exact strip_eq hbl
    obtain ⟨h1, h2, h3⟩ := complete_fin K hc hK
    exact ⟨h1, h3, by rw [flat_append']; exact h2⟩
  | response bl x =>
    obtain ⟨hb, hx⟩ := hx
    obtain ⟨t, e2⟩ : ∃ t, x.write ++ rest = b!"HTTP/" ++ t := ⟨_, by simp [Response.write]; rfl⟩
    have e2' : x.write ++ rest = c! 'H' :: (b!"TTP/" ++ t) := e2
    have hs : ¬ Short (bl ++ (x.write ++ rest)) (k :: ks) := by
      rintro ⟨⟨_, h2, _⟩, _⟩
      rw [e2', drop_lead hb (by decide)] at h2
      exact h2 ⟨t, rfl⟩
    have e3 : Item.write (.response bl x) ++ rest = bl ++ (x.write ++ rest) := by simp [Item.write]
    rw [e3] at hc ⊢
    intro o
    have K := (begins_exact h (.inl ⟨q, rfl⟩) hc).2 hs
    have hK : pred headEnv (flat l) .stripDetect (bl ++ (x.write ++ rest)) = (flat l ++ flat x.events, .finished rest) := by
      rw [pred_lead _ hb, ← pred_response hx, e2']
      exact strip_eq (by decide)
    obtain ⟨h1, h2, h3⟩ := complete_fin K hc hK
    exact ⟨h1, h3, by rw [flat_append']; exact h2⟩
  | chunked x => exact C32_chunked_round_trip_partial h q l x hx rest k ks hc
  | form x =>
    intro o
    obtain ⟨h1, h2, h3⟩ := C38_url_encoded_round_trip h q l x hx rest k ks hc
    exact ⟨h1, h2, by rw [Item.events, ← List.append_assoc]; exact h3⟩
  | emptyForm => exact C38_empty h q l rest k ks hc
  | multipart bd ps =>
    intro o
    obtain ⟨h1, h2, h3⟩ := C36_multipart_round_trip_partial h q l bd hx.1 hx.2.1 ps hx.2.2 rest k ks hc
    exact ⟨h1, h2, by rw [Item.events, ← List.append_assoc]; exact h3⟩

theorem item_completes (h : Handler) (hs : SameLengths h h) (q : Parser) (l : List Ev) (x : Item)
    (hx : x.OK h.contentLength l) (msg : Bytes) : ∃ N, ∀ ks, (∀ k ∈ ks, 0 < k) → N ≤ ks.length →
      (drive h .idle ks ⟨x.mode.prepare q, l⟩ msg).complete := by
  have one : ∀ {p : Parser}, (∃ N, ∀ k ks, (∀ x ∈ k :: ks, 0 < x) → N ≤ ks.length → (drive h .idle (k :: ks) ⟨p, l⟩ msg).complete) →
      ∃ N, ∀ ks, (∀ k ∈ ks, 0 < k) → N ≤ ks.length → (drive h .idle ks ⟨p, l⟩ msg).complete := by
    rintro p ⟨N, hN⟩
    refine ⟨N + 1, fun ks hk hl => ?_⟩
    cases ks with
    | nil => simp at hl
    | cons k ks => exact hN k ks hk (by simp only [List.length_cons] at hl; omega)
  cases x with
  | request bl x => exact C72_runs_complete h q l msg
  | response bl x => exact C72_runs_complete h q l msg
  | chunked x => exact C32_runs_complete h q l msg
  | form x => exact one (C20_runs_complete h q l _ msg)
  | emptyForm => exact one (C20_runs_complete h q l _ msg)
  | multipart bd ps => exact one (C21_runs_complete h hs q l bd hx.1 hx.2.1 msg)

theorem Item.Fits.mono {ks ks' : List Nat} {x : Item} (hs : ∀ k ∈ ks', k ∈ ks) (h : x.Fits ks) : x.Fits ks' := by
  cases x with
  | request bl x => exact fun e => ⟨(h e).1, fun k hk => (h e).2 k (hs k hk)⟩
  | _ => trivial

theorem connection (h : Handler) (next : List Ev → Option Mode) (stop : Option Mode) (rest : Bytes) :
    ∀ (xs : List Item) (x : Item) (q : Parser) (l0 l : List Ev) (ks : List Nat), flat l0 = flat l →
    Follows h.contentLength next stop l x xs → (∀ y ∈ x :: xs, y.Fits ks) →
    (serve h next .idle ks ⟨x.mode.prepare q, l0⟩ ((x :: xs).flatMap Item.write ++ rest)).complete →
    ∃ us ks', ∃ w' : World, ks = us ++ ks' ∧ flat w'.log = flat (l ++ (x :: xs).flatMap Item.events) ∧
      ∀ more, serve h next .idle (us ++ more) ⟨x.mode.prepare q, l0⟩ ((x :: xs).flatMap Item.write ++ rest) =
        match stop with
        | none => ⟨.finished, w', rest⟩
        | some m => serve h next .idle more ⟨m.prepare w'.p, w'.log⟩ rest := by
  intro xs
  induction xs with
  | nil =>
    intro x q l0 l ks e hx hf hc
    simp only [List.flatMap_cons, List.flatMap_nil, List.append_nil] at hc ⊢
    have hx0 := hx.1.congr e.symm
    rcases serve_stage h next ks .idle ⟨x.mode.prepare q, l0⟩ (x.write ++ rest) nofun with ⟨h1, h2⟩ | ⟨h1, us, ks', h2, h3, h4, h5⟩
    · rw [h2] at hc
      exact absurd (item_alone h q l0 x hx0 rest ks (hf x (by simp)) hc).1 h1
    · obtain ⟨a1, a2, a3⟩ := item_alone h q l0 x hx0 rest ks (hf x (by simp)) (by rw [Outcome.complete, h1]; trivial)
      generalize drive h .idle ks ⟨x.mode.prepare q, l0⟩ (x.write ++ rest) = o at h5 a1 a2 a3
      obtain ⟨la, wo, re⟩ := o
      dsimp only at h5 a1 a2 a3
      subst a1 a2
      have a4 : flat wo.log = flat (l ++ x.events) := by rw [a3, flat_append', flat_append', e]
      refine ⟨us, ks', wo, h2, a4, fun more => ?_⟩
      rw [h5, hx.2 _ a4]
  | cons y ys ih =>
    intro x q l0 l ks e hx hf hc
    have hx0 := hx.1.congr e.symm
    have e3 : (x :: y :: ys).flatMap Item.write ++ rest = x.write ++ ((y :: ys).flatMap Item.write ++ rest) := by simp
    rw [e3] at hc ⊢
    generalize hR : (y :: ys).flatMap Item.write ++ rest = R at hc ⊢
    rcases serve_stage h next ks .idle ⟨x.mode.prepare q, l0⟩ (x.write ++ R) nofun with ⟨h1, h2⟩ | ⟨h1, us, ks', h2, h3, h4, h5⟩
    · rw [h2] at hc
      exact absurd (item_alone h q l0 x hx0 R ks (hf x (by simp)) hc).1 h1
    · obtain ⟨a1, a2, a3⟩ := item_alone h q l0 x hx0 R ks (hf x (by simp)) (by rw [Outcome.complete, h1]; trivial)
      generalize drive h .idle ks ⟨x.mode.prepare q, l0⟩ (x.write ++ R) = o at h5 a1 a2 a3
      obtain ⟨la, wo, re⟩ := o
      dsimp only at h5 a1 a2 a3
      subst a1 a2
      have a4 : flat wo.log = flat (l ++ x.events) := by rw [a3, flat_append', flat_append', e]
      rw [hx.2.1 _ a4] at h5
      dsimp only at h5
      rw [h2, h5, ← hR] at hc
      obtain ⟨us', ks'', w'', b1, b2, b3⟩ := ih y wo.p wo.log (l ++ x.events) ks' a4 hx.2.2
        (fun z hz => (hf z (by simp only [List.mem_cons] at hz ⊢; tauto)).mono (by rw [h2]; simp +contextual)) hc
      refine ⟨us ++ us', ks'', w'', by rw [h2, b1, List.append_assoc], ?_, fun more => ?_⟩
      · rw [b2, List.flatMap_cons (xs := y :: ys), List.append_assoc]
      · rw [List.append_assoc, h5, ← hR, b3]

theorem range_split {σ : Nat → Nat} {n : Nat} {us ks' : List Nat} (e : (List.range n).map σ = us ++ ks') (m : Nat) :
    (List.range (us.length + m)).map σ = us ++ (List.range m).map fun i => σ (us.length + i) := by
  have hl : us.length ≤ n := by
    have := congrArg List.length e
    simp at this
    omega
  have hu : us = (List.range us.length).map σ := by
    have := congrArg (List.take us.length) e
    rw [List.take_left' rfl, ← List.map_take, List.take_range, Nat.min_eq_left hl] at this
    exact this.symm
  rw [List.range_add, List.map_append, List.map_map]
  conv_rhs => rw [hu]
  simp

theorem connection_completes (h : Handler) (hs : SameLengths h h) (next : List Ev → Option Mode) (rest : Bytes) :
    ∀ (xs : List Item) (x : Item) (q : Parser) (l0 l : List Ev) (σ : Nat → Nat), flat l0 = flat l →
    Follows h.contentLength next none l x xs → (∀ i, 0 < σ i) → (∀ n, ∀ y ∈ x :: xs, y.Fits ((List.range n).map σ)) →
    ∃ n, (serve h next .idle ((List.range n).map σ) ⟨x.mode.prepare q, l0⟩
      ((x :: xs).flatMap Item.write ++ rest)).complete := by
  intro xs
  induction xs with
  | nil =>
    intro x q l0 l σ e hx hσ hf
    have hx0 := hx.1.congr e.symm
    simp only [List.flatMap_cons, List.flatMap_nil, List.append_nil]
    obtain ⟨N, hN⟩ := item_completes h hs q l0 x hx0 (x.write ++ rest)
    refine ⟨N, ?_⟩
    have c := hN ((List.range N).map σ) (by simp [hσ]) (by simp)
    rcases serve_stage h next ((List.range N).map σ) .idle ⟨x.mode.prepare q, l0⟩ (x.write ++ rest) nofun with
      ⟨h1, h2⟩ | ⟨h1, us, ks', h2, h3, h4, h5⟩
    · rw [h2]; exact c
    · have a3 := (item_alone h q l0 x hx0 rest _ (hf N x (by simp)) c).2.2
      have a4 : flat (drive h .idle ((List.range N).map σ) ⟨x.mode.prepare q, l0⟩ (x.write ++ rest)).world.log =
        flat (l ++ x.events) := by rw [a3, flat_append', flat_append', e]
      have h6 := h5 ks'
      rw [hx.2 _ a4, ← h2] at h6
      rw [h6]
      exact c
  | cons y ys ih =>
    intro x q l0 l σ e hx hσ hf
    have hx0 := hx.1.congr e.symm
    have e3 : (x :: y :: ys).flatMap Item.write ++ rest = x.write ++ ((y :: ys).flatMap Item.write ++ rest) := by simp
    rw [e3]
    generalize hR : (y :: ys).flatMap Item.write ++ rest = R
    obtain ⟨N, hN⟩ := item_completes h hs q l0 x hx0 (x.write ++ R)
    have c := hN ((List.range N).map σ) (by simp [hσ]) (by simp)
    obtain ⟨a1, a2, a3⟩ := item_alone h q l0 x hx0 R _ (hf N x (by simp)) c
    rcases serve_stage h next ((List.range N).map σ) .idle ⟨x.mode.prepare q, l0⟩ (x.write ++ R) nofun with
      ⟨h1, h2⟩ | ⟨h1, us, ks', h2, h3, h4, h5⟩
    · exact absurd a1 h1
    · generalize drive h .idle ((List.range N).map σ) ⟨x.mode.prepare q, l0⟩ (x.write ++ R) = o at h5 a1 a2 a3
      obtain ⟨la, wo, re⟩ := o
      dsimp only at h5 a1 a2 a3
      subst a1 a2
      have a4 : flat wo.log = flat (l ++ x.events) := by rw [a3, flat_append', flat_append', e]
      rw [hx.2.1 _ a4] at h5
      dsimp only at h5
      obtain ⟨n, hn⟩ := ih y wo.p wo.log (l ++ x.events) (fun i => σ (us.length + i)) a4 hx.2.2 (fun i => hσ _) (by
        intro m z hz
        refine (hf (us.length + m) z (by simp only [List.mem_cons] at hz ⊢; tauto)).mono fun k hk => ?_
        rw [range_split h2]
        exact List.mem_append_right _ hk)
      exact ⟨us.length + n, by rw [range_split h2, h5, ← hR]; exact hn⟩

/-! ## C73 -/

/-- **C73 (partial).** A peer writes well-formed heads and bodies one after the other, and a client reads them
with one parser, in slices of any length that need not respect the borders of the messages, and with
any pauses. When the client stops after them, every complete run ends directly after the last message,
with exactly the callbacks that the messages mean, in order. Missing: the messages that the parser does not
read as HTTP says (C25, C26, C32, C36); methods in `H` after blanks or in slices of less than nine bytes (C72). -/
theorem C73_connection_partial (h : Handler) (next : List Ev → Option Mode) (q : Parser) (l : List Ev) (x : Item)
    (xs : List Item) (hx : Follows h.contentLength next none l x xs) (rest : Bytes) (ks : List Nat)
    (hf : ∀ y ∈ x :: xs, y.Fits ks)
    (hc : (serve h next .idle ks ⟨x.mode.prepare q, l⟩ ((x :: xs).flatMap Item.write ++ rest)).complete) :
    let o := serve h next .idle ks ⟨x.mode.prepare q, l⟩ ((x :: xs).flatMap Item.write ++ rest)
    o.last = .finished ∧ o.rest = rest ∧ flat o.world.log = flat (l ++ (x :: xs).flatMap Item.events) := by
  obtain ⟨us, ks', w', h1, h2, h3⟩ := connection h next none rest xs x q l l ks rfl hx hf hc
  rw [h1, h3]
  exact ⟨rfl, rfl, h2⟩

/-- **C73 (partial).** When the client goes on after these messages and asks for `m`, every complete run comes
to the point where the bytes of the messages are used up exactly, the callbacks are exactly those that
the messages mean, and the parser is prepared for `m`; it then does what it does for the bytes that follow. -/
theorem C73_open_connection_partial (h : Handler) (next : List Ev → Option Mode) (m : Mode) (q : Parser) (l : List Ev)
    (x : Item) (xs : List Item) (hx : Follows h.contentLength next (some m) l x xs) (rest : Bytes) (ks : List Nat)
    (hf : ∀ y ∈ x :: xs, y.Fits ks)
    (hc : (serve h next .idle ks ⟨x.mode.prepare q, l⟩ ((x :: xs).flatMap Item.write ++ rest)).complete) :
    ∃ us ks', ∃ w' : World, ks = us ++ ks' ∧ flat w'.log = flat (l ++ (x :: xs).flatMap Item.events) ∧
      serve h next .idle ks ⟨x.mode.prepare q, l⟩ ((x :: xs).flatMap Item.write ++ rest) =
        serve h next .idle ks' ⟨m.prepare w'.p, w'.log⟩ rest := by
  obtain ⟨us, ks', w', h1, h2, h3⟩ := connection h next (some m) rest xs x q l l ks rfl hx hf hc
  exact ⟨us, ks', w', h1, h2, by rw [h1, h3]⟩

/-- **C73.** The client gets through: for an unlimited supply `σ` of non-empty slices there is a number of
calls after which the run is complete. -/
theorem C73_runs_complete (h : Handler) (hs : SameLengths h h) (next : List Ev → Option Mode) (q : Parser)
    (l : List Ev) (x : Item) (xs : List Item) (hx : Follows h.contentLength next none l x xs) (rest : Bytes)
    (σ : Nat → Nat) (hσ : ∀ i, 0 < σ i) (hf : ∀ n, ∀ y ∈ x :: xs, y.Fits ((List.range n).map σ)) :
    ∃ n, (serve h next .idle ((List.range n).map σ) ⟨x.mode.prepare q, l⟩
      ((x :: xs).flatMap Item.write ++ rest)).complete := by
  exact connection_completes h hs next rest xs x q l l σ rfl hx hσ hf

/-- A client that reads two requests, the first with a chunked body, the second with a form of 16 bytes. -/
def exNext (l : List Ev) : Option Mode :=
  match (flat l).getLast?, (flat l).count .bodyFinished with
  | some .headersFinished, 0 => some .chunked
  | some .headersFinished, _ => some (.form 16)
  | some .bodyFinished, 1 => some .head
  | _, _ => none

theorem exNext_flat {l l' : List Ev} (e : flat l = flat l') : exNext l = exNext l' := by
  simp only [exNext, e]

/-- What its peer writes. -/
def exItems : List Item := [.chunked exBody, .request b!"\r\n" exRequest, .form exUrlBody]

theorem exItems_follow : Follows goOn.contentLength exNext none [] (.request [] exRequest) exItems :=
  ⟨⟨by simp, exRequest_ok⟩, fun l e => (exNext_flat e).trans (by decide +kernel),
    exBody_ok, fun l e => (exNext_flat e).trans (by decide +kernel),
    ⟨by decide, exRequest_ok⟩, fun l e => (exNext_flat e).trans (by decide +kernel),
    exUrlBody_ok, fun l e => (exNext_flat e).trans (by decide +kernel)⟩

/-- Slices of seven bytes, and all bytes at once, with a pause at every callback. -/
example :
    let w : World := ⟨Parser.new.init .head, []⟩
    let msg := (Item.request [] exRequest :: exItems).flatMap Item.write ++ b!"rest"
    (∀ y ∈ Item.request [] exRequest :: exItems, y.Fits [7, 7]) ∧
    (serve goOn exNext .idle (List.replicate 60 7) w msg).complete ∧
    (serve pauses exNext .idle (List.replicate 80 1000) w msg).complete ∧
    (serve pauses exNext .idle (List.replicate 80 1000) w msg).rest = b!"rest" := by
  refine ⟨?_, by decide +kernel, by decide +kernel, by decide +kernel⟩
  intro y hy
  simp only [exItems, List.mem_cons, List.not_mem_nil, or_false] at hy
  rcases hy with rfl | rfl | rfl | rfl
  · exact fun h => absurd h (by decide)
  · trivial
  · exact fun h => absurd h (by decide)
  · trivial

end Verif.Http1
