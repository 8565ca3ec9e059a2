import Verif.Http1.Forward
import Verif.Http1.Lengths
import Verif.Props.Http1End

/-!
# What was reported of a head can be passed on

C102. `forward` is defined in `Verif.Http1.ForwardSpec`: a handler that writes down a head as its callbacks come.
-/

namespace Verif.Http1

/-! ## Helper lemmas -/

theorem fin_means {tr L : List Ev} {msg r : Bytes} (h : pred headEnv tr .stripDetect msg = (L, .finished r)) :
    ∃ x : Head, x.OK ∧ msg.dropWhile lead = x.write ++ r ∧ L = tr ++ flat x.events := by
  obtain ⟨bl, m, h1, h2, h3⟩ := strip_inv (env := headEnv) msg tr h
  obtain ⟨x, h4, h5, h6⟩ := h3.head rfl
  refine ⟨x, h4, ?_, h6⟩
  obtain ⟨b, t, h7, h8⟩ := Head.starts h4
  rw [h2, h5, dropWhile_lead h1, h7, List.cons_append, List.dropWhile_cons, if_neg (by rw [h8]; nofun)]

/-- The method of a request starts with letters that were reported first. -/
theorem method_split : ∀ {p m : Bytes} {t s : List Ev}, (∀ d l, s ≠ .method d :: l) →
    (p.map fun c => Ev.method [c]) ++ t = (m.map fun c => Ev.method [c]) ++ s →
    ∃ m', m = p ++ m' ∧ t = (m'.map fun c => Ev.method [c]) ++ s
  | [], m, t, s, _, h => ⟨m, rfl, h⟩
  | c :: p, [], t, s, hs, h => absurd h.symm (hs _ _)
  | c :: p, d :: m, t, s, hs, h => by
    simp only [List.map_cons, List.cons_append, List.cons.injEq, Ev.method.injEq, and_true] at h
    obtain ⟨rfl, h⟩ := h
    obtain ⟨m', rfl, ht⟩ := method_split hs h
    exact ⟨m', rfl, ht⟩

/-- What was reported of an accepted head is what some head means, in every slicing. -/
theorem begins_means (h : Handler) {p : Parser} {l : List Ev} {msg : Bytes} {ks : List Nat} (hp : Begins p msg ks)
    (hf : (drive h .idle ks ⟨p, l⟩ msg).last = .finished) :
    ∃ x : Head, x.OK ∧ flat (drive h .idle ks ⟨p, l⟩ msg).world.log = flat l ++ flat x.events := by
  have hc : (drive h .idle ks ⟨p, l⟩ msg).complete := by unfold Outcome.complete; rw [hf]; trivial
  have k := begins_exact h hp hc
  by_cases hs : Short msg ks
  · have k := (k.1 hs).fin hf
    obtain ⟨bl, w, b, r, h0, hbl, hd, h1, h2⟩ := short_pred hs.1 (flat l)
    by_cases hb : b = c! ' '
    · rw [h1 hb] at k; exact absurd (congrArg Prod.snd k) nofun
    · obtain ⟨t, f, -, h3, h4⟩ := h2 hb
      rw [h4, Prod.mk.injEq] at k
      obtain ⟨k1, rfl⟩ := k
      obtain ⟨x, h5, h6, h7⟩ := fin_means h3
      rw [List.append_assoc, List.append_cancel_left_eq] at h7
      obtain ⟨st, ls⟩ := x
      cases st with
      | response ma mi c re =>
        obtain ⟨a, w', hw⟩ := List.exists_cons_of_ne_nil hd.ne
        rw [hw] at h7
        simp [Head.events, StartLine.events, flat, flatEv] at h7
      | request m u ma mi =>
        obtain ⟨⟨⟨g1, g2⟩, g3⟩, g4⟩ := h5
        have h7' : (w.map fun c => Ev.method [c]) ++ t = (m.map fun c => Ev.method [c]) ++
            flat ([.url u, .version (decVal ma) (decVal mi), .initialFinished] ++ ls.flatMap Line.events ++ [.headersFinished]) := h7
        obtain ⟨m', rfl, ht⟩ := method_split (by
          intro d l
          obtain ⟨a, u', hu⟩ := List.exists_cons_of_ne_nil g3.1.1
          rw [hu]
          simp [flat, flatEv]) h7'
        have hm : m' ≠ [] := by
          rintro rfl
          obtain ⟨a, w', hw⟩ := List.exists_cons_of_ne_nil hd.ne
          have ha : lead a = false := by
            have := hd.like
            rw [hw] at this
            have := (List.cons_prefix_cons.1 this).1
            rw [this]; decide
          rw [h0, List.append_assoc, dropWhile_lead hbl, hw, List.cons_append, List.dropWhile_cons, if_neg (by rw [ha]; nofun),
            ← List.cons_append] at h6
          simp only [Head.write, StartLine.write, List.append_nil, List.append_assoc] at h6
          have := List.append_cancel_left h6
          exact hb (List.cons.inj this).1
        refine ⟨⟨.request m' u ma mi, ls⟩, ⟨⟨⟨hm, fun b hb => g2 b (by simp [hb])⟩, g3⟩, g4⟩, ?_⟩
        rw [← k1, ht]
        simp [Head.events, StartLine.events, flat, flatEv]
  · obtain ⟨x, h5, -, h7⟩ := fin_means ((k.2 hs).fin hf)
    exact ⟨x, h5, h7⟩

/-! ## C102 -/

/-- **C102.** A handler writes down an accepted head as its callbacks come, in whatever slices it arrives. What it has
written, with any bytes after it, is a head again: every client that gets at least nine bytes of it first (more
precisely: that does not meet the exception of C72) accepts it, leaves the bytes after it alone, and is told the same. -/
theorem C102_forward (h : Handler) (p : Parser) (msg : Bytes) (ks : List Nat) (hp : Begins p msg ks)
    (hf : (drive h .idle ks ⟨p, []⟩ msg).last = .finished)
    (h' : Handler) (p' : Parser) (l' : List Ev) (ks' : List Nat) (rest : Bytes) :
    let o := drive h .idle ks ⟨p, []⟩ msg
    let msg' := forward o.world.log ++ rest
    let o' := drive h' .idle ks' ⟨p', l'⟩ msg'
    Begins p' msg' ks' → ¬ Short msg' ks' → o'.complete →
    o'.last = .finished ∧ o'.rest = rest ∧ flat o'.world.log = flat l' ++ flat o.world.log := by
  intro o msg' o' hp' hs hc
  obtain ⟨x, h1, h2⟩ := begins_means h hp hf
  have hw : forward o.world.log = x.tidy.write := by
    rw [← Head.forward h1]
    show forwardFrom .none o.world.log = forwardFrom .none (flat x.events)
    rw [← fw_flat]
    · rw [show flat o.world.log = _ from h2]; rfl
    · obtain ⟨t, h3, h4⟩ := drive_grew h ks .idle ⟨p, []⟩ msg
      rw [show o.world.log = t from h3]
      exact h4
  have hm : msg' = x.tidy.write ++ rest := by rw [← hw]
  have H := (begins_exact h' hp' hc).2 hs
  have hK : pred headEnv (flat l') .stripDetect msg' = (flat l' ++ flat x.tidy.events, .finished rest) := by
    rw [hm, ← pred_head (Head.tidy_ok h1) (flat l') rest]
    obtain ⟨b, t, h3, h4⟩ := Head.starts (Head.tidy_ok h1)
    rw [h3, List.cons_append, strip_first h4]
  obtain ⟨g1, g2, g3⟩ := complete_fin H hc hK
  refine ⟨g1, g3, g2.trans ?_⟩
  rw [Head.tidy_means h1, show flat o.world.log = _ from h2]
  rfl

/-- A head with folded lines, blanks and leading zeros that arrives byte by byte, and what is written for it. -/
example : let m := b!"\r\nGET /a HTTP/01.1\r\nHost:x\r\nA:  b\r\n c\r\n\r\nrest"
    let p := (Parser.new).init .head
    let o := drive pauses .idle (List.replicate 200 1) ⟨p, []⟩ m
    let m' := forward o.world.log ++ b!"body"
    Begins p m (List.replicate 200 1) ∧ o.last = .finished ∧ m' = b!"GET /a HTTP/1.1\r\nhost: x\r\na: bc\r\n\r\nbody" ∧
    Begins .new m' [100] ∧ ¬ Short m' [100] ∧ (drive goOn .idle [100] ⟨.new, []⟩ m').complete := by
  refine ⟨.inl ⟨_, rfl⟩, by decide +kernel, by decide +kernel, ?_, ?_, by decide +kernel⟩
  · exact .inr ⟨rfl, 100, c! 'G', rfl, by decide +kernel, by decide⟩
  · unfold Short HWord; decide +kernel

/-- **C102**, again: passing a head on a second time gives the same bytes. -/
theorem C102_again (h : Handler) (p : Parser) (msg : Bytes) (ks : List Nat) (hp : Begins p msg ks)
    (hf : (drive h .idle ks ⟨p, []⟩ msg).last = .finished)
    (h' : Handler) (p' : Parser) (ks' : List Nat) (rest : Bytes) :
    let o := drive h .idle ks ⟨p, []⟩ msg
    let msg' := forward o.world.log ++ rest
    let o' := drive h' .idle ks' ⟨p', []⟩ msg'
    Begins p' msg' ks' → ¬ Short msg' ks' → o'.complete → forward o'.world.log = forward o.world.log := by
  intro o msg' o' hp' hs hc
  obtain ⟨-, -, h3⟩ := C102_forward h p msg ks hp hf h' p' [] ks' rest hp' hs hc
  have e1 : forward o'.world.log = forward (flat o'.world.log) := by
    obtain ⟨t, h4, h5⟩ := drive_grew h' ks' .idle ⟨p', []⟩ msg'
    rw [show o'.world.log = t from h4]
    exact (fw_flat _ _ h5).symm
  have e2 : forward o.world.log = forward (flat o.world.log) := by
    obtain ⟨t, h4, h5⟩ := drive_grew h ks .idle ⟨p, []⟩ msg
    rw [show o.world.log = t from h4]
    exact (fw_flat _ _ h5).symm
  rw [e1, e2, show flat o'.world.log = _ from h3]
  rfl

/-- For instance that of the example above. -/
example : let m := b!"GET /a HTTP/1.1\r\nhost: x\r\na: bc\r\n\r\n"
    forward (drive goOn .idle [9, 3, 100] ⟨.new, []⟩ m).world.log = m := by decide +kernel

end Verif.Http1
