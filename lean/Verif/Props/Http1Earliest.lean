import Verif.Http1.Viable
import Verif.Props.Http1Accept
import Verif.Props.Http1AcceptChunked
import Verif.Props.Http1AcceptUrl

/-!
# Errors are found as early as possible

C56: an error names the byte that was read last; what was read before it could have been completed to a
message that is accepted; with this byte it cannot. `PErr.byte` is in `Verif.Http1.LooseSpec`.
-/

namespace Verif.Http1

theorem startK_plain {p : Parser} {msg : Bytes} {k : Nat} (h : Ready p msg k) (l : List Ev) :
    ∃ s : AS, s.plain = true ∧ ∀ m, startK headEnv ⟨p, l⟩ m = pred headEnv (flat l) s m := by
  rcases h with ⟨⟨q, rfl⟩, h⟩ | ⟨rfl, h⟩
  · exact ⟨.stripDetect, rfl, fun _ => rfl⟩
  · exact ⟨.detect1, rfl, fun _ => rfl⟩

theorem DriveSim.error {I : World → Bytes → Prop} {K : List Ev × Fin} {o : Outcome} {e : PErr} (H : DriveSim I K o)
    (hc : o.last = .err e) : (∃ L, K = (L, .err e o.rest)) ∨ ∃ r, r <:+ o.rest ∧ K.2 = .errB r := by
  unfold DriveSim at H
  rw [hc] at H
  rcases H with ⟨d, _, H⟩ | ⟨⟨r, hr, H⟩, _⟩
  · exact .inl ⟨_, H⟩
  · exact .inr ⟨r, hr, by rw [H]⟩

theorem plain_not_errB {env : Env} (hp : env.ptype ≠ .multipart) : ∀ (m : Bytes) (tr : List Ev) (s : AS),
    s.plain = true → ∀ r, (pred env tr s m).2 ≠ .errB r
  | [], tr, s, hs => by simp only [pred]; split <;> simp
  | b :: m, tr, s, hs => by
    simp only [pred]
    split
    · simp
    · cases hb : bstep env (norm env tr s).2 b with
      | next es s' => exact plain_not_errB hp m _ s' (plain_step (plain_norm hp hs) hb)
      | err es e => simp
      | errB =>
        have := plain_norm hp (tr := tr) hs
        revert hb this
        cases (norm env tr s).2 <;> simp only [AS.plain] <;> intro hb hs <;> (try cases hs) <;>
          simp only [bstep, bDetect1, bMethod, bDet, bLDet, bExpect, bVerEnd, bHdrName, bHdrFirst, bHdrCheck, bHdrVal,
            bHdrQuot, bSizeEnd, bExtName, bExtVal, bExtQuot, bStrip] at hb <;>
          (repeat' split at hb) <;> first | (simp only [BRes.pre] at hb; cases hb) | cases hb
      | panic => simp

/-! ## Heads -/

/-- **C56 (partial), heads.** When a run ends with an error, the error names the byte that was read last;
there is a continuation of the bytes before it that is accepted; and whatever comes after it, in whatever
slices, the same error results. Missing: methods that start with `H` when fewer than nine bytes are passed
first (part of `Ready`, see C18). -/
theorem C56_head_errors_partial (h : Handler) (p : Parser) (l : List Ev) (msg : Bytes) (k : Nat) (ks : List Nat)
    (hr : Ready p msg k) (e : PErr) (hc : (drive h .idle (k :: ks) ⟨p, l⟩ msg).last = .err e) :
    ∃ y b, msg = y ++ b :: (drive h .idle (k :: ks) ⟨p, l⟩ msg).rest ∧ e.byte = some b ∧
      (∃ z, ∀ h' k' ks', Ready p (y ++ z) k' → (drive h' .idle (k' :: ks') ⟨p, l⟩ (y ++ z)).complete →
        (drive h' .idle (k' :: ks') ⟨p, l⟩ (y ++ z)).last = .finished ∧
        (drive h' .idle (k' :: ks') ⟨p, l⟩ (y ++ z)).rest = []) ∧
      ∀ z h' k' ks', Ready p (y ++ b :: z) k' → (drive h' .idle (k' :: ks') ⟨p, l⟩ (y ++ b :: z)).complete →
        (drive h' .idle (k' :: ks') ⟨p, l⟩ (y ++ b :: z)).last = .err e := by
  have H := run_sim bdOK_none (clOK_of (by decide)) (h := h) k ks (hr.start l)
  obtain ⟨s, hs, hK⟩ := startK_plain hr l
  rw [hK] at H
  rcases H.error hc with ⟨L, h1⟩ | ⟨_, -, h1⟩
  · obtain ⟨y, b, h2, h3, h4, h5⟩ := pred_blame (env := headEnv) (by decide) msg (flat l) s L e _ hs h1
    obtain ⟨z, L', h6⟩ := pred_viable (env := headEnv) (by decide) y (flat l) s hs h4
    refine ⟨y, b, h2, h3, ⟨z, fun h' k' ks' hr' hc' => ?_⟩, fun z h' k' ks' hr' hc' => ?_⟩
    · have H' := run_sim bdOK_none (clOK_of (by decide)) (h := h') k' ks' (hr'.start l)
      obtain ⟨g1, -, g3⟩ := complete_fin H' hc' ((hK _).trans h6)
      exact ⟨g1, g3⟩
    · have H' := run_sim bdOK_none (clOK_of (by decide)) (h := h') k' ks' (hr'.start l)
      exact (complete_err H' hc' ((hK _).trans (h5 z))).1
  · exact absurd h1 (plain_not_errB (by decide) _ _ _ hs _)

/-- **C56 (partial), heads.** When a complete run ends with `Eos`, there is a continuation that is
accepted. -/
theorem C56_head_eos_partial (h : Handler) (p : Parser) (l : List Ev) (msg : Bytes) (k : Nat) (ks : List Nat)
    (hr : Ready p msg k) (hc : (drive h .idle (k :: ks) ⟨p, l⟩ msg).complete)
    (he : (drive h .idle (k :: ks) ⟨p, l⟩ msg).last = .eos) :
    ∃ z, ∀ h' k' ks', Ready p (msg ++ z) k' → (drive h' .idle (k' :: ks') ⟨p, l⟩ (msg ++ z)).complete →
      (drive h' .idle (k' :: ks') ⟨p, l⟩ (msg ++ z)).last = .finished ∧
      (drive h' .idle (k' :: ks') ⟨p, l⟩ (msg ++ z)).rest = [] := by
  have H := run_sim bdOK_none (clOK_of (by decide)) (h := h) k ks (hr.start l)
  obtain ⟨s, hs, hK⟩ := startK_plain hr l
  rw [hK] at H
  have h1 : (pred headEnv (flat l) s msg).2 = .eos := by
    unfold DriveSim at H
    unfold Outcome.complete at hc
    rw [he] at H hc
    exact congrArg Prod.snd (H.2 hc)
  obtain ⟨z, L', h6⟩ := pred_viable (env := headEnv) (by decide) msg (flat l) s hs h1
  refine ⟨z, fun h' k' ks' hr' hc' => ?_⟩
  have H' := run_sim bdOK_none (clOK_of (by decide)) (h := h') k' ks' (hr'.start l)
  obtain ⟨g1, -, g3⟩ := complete_fin H' hc' ((hK _).trans h6)
  exact ⟨g1, g3⟩

example : (drive goOn .idle [100] ⟨.new, []⟩ b!"GET / HTTX/1.1\r\n\r\n").last = .err (.version (c! 'X')) ∧
    (drive goOn .idle [100] ⟨.new, []⟩ b!"GET / HTTX/1.1\r\n\r\n").rest = b!"/1.1\r\n\r\n" ∧
    (drive pauses .idle (List.replicate 20 3) ⟨.new, []⟩ b!"GET / HTT").last = .eos := by decide +kernel

example : Ready .new b!"GET / HTTX/1.1\r\n\r\n" 100 := .inr ⟨rfl, by decide +kernel, .inr (.inl (by decide +kernel))⟩

/-! ## Chunked bodies -/

/-- **C56, chunked bodies.** -/
theorem C56_chunked_errors (h : Handler) (q : Parser) (l : List Ev) (msg : Bytes) (k : Nat) (ks : List Nat)
    (e : PErr) (hc : (drive h .idle (k :: ks) ⟨q.init .chunked, l⟩ msg).last = .err e) :
    ∃ y b, msg = y ++ b :: (drive h .idle (k :: ks) ⟨q.init .chunked, l⟩ msg).rest ∧ e.byte = some b ∧
      (∃ z, ∀ h' k' ks', (drive h' .idle (k' :: ks') ⟨q.init .chunked, l⟩ (y ++ z)).complete →
        (drive h' .idle (k' :: ks') ⟨q.init .chunked, l⟩ (y ++ z)).last = .finished ∧
        (drive h' .idle (k' :: ks') ⟨q.init .chunked, l⟩ (y ++ z)).rest = []) ∧
      ∀ z h' k' ks', (drive h' .idle (k' :: ks') ⟨q.init .chunked, l⟩ (y ++ b :: z)).complete →
        (drive h' .idle (k' :: ks') ⟨q.init .chunked, l⟩ (y ++ b :: z)).last = .err e := by
  rcases (chunked_sim h q l k ks msg).error hc with ⟨L, h1⟩ | ⟨_, -, h1⟩
  · obtain ⟨y, b, h2, h3, h4, h5⟩ := pred_blame (env := chunkEnv) (by decide) msg (flat l) .size1 L e _ rfl h1
    obtain ⟨z, L', h6⟩ := pred_viable (env := chunkEnv) (by decide) y (flat l) .size1 rfl h4
    refine ⟨y, b, h2, h3, ⟨z, fun h' k' ks' hc' => ?_⟩, fun z h' k' ks' hc' => ?_⟩
    · obtain ⟨g1, -, g3⟩ := complete_fin (chunked_sim h' q l k' ks' (y ++ z)) hc' h6
      exact ⟨g1, g3⟩
    · exact (complete_err (chunked_sim h' q l k' ks' (y ++ b :: z)) hc' (h5 z)).1
  · exact absurd h1 (plain_not_errB (by decide) _ _ _ rfl _)

/-- **C56, chunked bodies.** -/
theorem C56_chunked_eos (h : Handler) (q : Parser) (l : List Ev) (msg : Bytes) (k : Nat) (ks : List Nat)
    (hc : (drive h .idle (k :: ks) ⟨q.init .chunked, l⟩ msg).complete)
    (he : (drive h .idle (k :: ks) ⟨q.init .chunked, l⟩ msg).last = .eos) :
    ∃ z, ∀ h' k' ks', (drive h' .idle (k' :: ks') ⟨q.init .chunked, l⟩ (msg ++ z)).complete →
      (drive h' .idle (k' :: ks') ⟨q.init .chunked, l⟩ (msg ++ z)).last = .finished ∧
      (drive h' .idle (k' :: ks') ⟨q.init .chunked, l⟩ (msg ++ z)).rest = [] := by
  have H := chunked_sim h q l k ks msg
  have h1 : (pred chunkEnv (flat l) .size1 msg).2 = .eos := by
    unfold DriveSim at H
    unfold Outcome.complete at hc
    rw [he] at H hc
    exact congrArg Prod.snd (H.2 hc)
  obtain ⟨z, L', h6⟩ := pred_viable (env := chunkEnv) (by decide) msg (flat l) .size1 rfl h1
  refine ⟨z, fun h' k' ks' hc' => ?_⟩
  obtain ⟨g1, -, g3⟩ := complete_fin (chunked_sim h' q l k' ks' (msg ++ z)) hc' h6
  exact ⟨g1, g3⟩

example : (drive goOn .idle [4, 100] ⟨Parser.new.init .chunked, []⟩ b!"3\r\nabcd\r\n").last =
      .err (.crlfSequence (c! 'd')) ∧
    (drive pauses .idle (List.replicate 20 3) ⟨Parser.new.init .chunked, []⟩ b!"3\r\nabc\r\n").last = .eos := by
  decide +kernel

/-! ## URL-encoded bodies -/

/-- **C56, URL-encoded bodies.** The declared length is `n`. -/
theorem C56_url_errors (h : Handler) (q : Parser) (l : List Ev) (n : Nat) (msg : Bytes) (k : Nat) (ks : List Nat)
    (e : PErr) (hc : (urlRun h q l n (k :: ks) msg).last = .err e) :
    ∃ y b, msg = y ++ b :: (urlRun h q l n (k :: ks) msg).rest ∧ y.length < n ∧ e.byte = some b ∧
      (∃ z, (y ++ z).length = n ∧ ∀ h' k' ks', (urlRun h' q l n (k' :: ks') (y ++ z)).complete →
        (urlRun h' q l n (k' :: ks') (y ++ z)).last = .finished ∧ (urlRun h' q l n (k' :: ks') (y ++ z)).rest = []) ∧
      ∀ z h' k' ks', (urlRun h' q l n (k' :: ks') (y ++ b :: z)).complete →
        (urlRun h' q l n (k' :: ks') (y ++ b :: z)).last = .err e := by
  obtain ⟨x, y, b, hx, hcut, hy, h1, h2, h3, -⟩ := C55_rejected_bodies h q l n msg k ks e hc
  obtain ⟨u, hu, hut⟩ : ∃ u, y = u ++ [b] ∧ (u = [] ∨ CutEscape u) := by
    rcases hy with ⟨rfl, -⟩ | ⟨-, rfl | ⟨a, m, ha, rfl⟩⟩
    · exact ⟨[], rfl, .inl rfl⟩
    · exact ⟨b!"%", rfl, .inr (.inl rfl)⟩
    · exact ⟨[c! '%', a], rfl, .inr (.inr ⟨a, m, ha, rfl⟩)⟩
  have hw : (x.write ++ u).length < n := by
    rw [hu] at h2; simp only [List.length_append, List.length_cons, List.length_nil] at h2 ⊢; omega
  have hw' : (LooseUrl.mk x.fields x.last u).write = x.write ++ u := by
    simp [LooseUrl.write, hcut]
  have h4 : (pred urlEnv (flat l) .uFirst (x.write ++ u)).2 = .eos := by
    rw [← hw', pred_looseUrl (x := ⟨x.fields, x.last, u⟩) ⟨hx.fields, hx.last, hut⟩]
  refine ⟨x.write ++ u, b, ?_, hw, by rw [h3]; split <;> rfl,
    ⟨List.replicate (n - (x.write ++ u).length) (c! '0'), ?_, fun h' k' ks' hc' => ?_⟩, fun z h' k' ks' hc' => ?_⟩
  · have : x.write ++ y = x.write ++ u ++ [b] := by rw [hu, List.append_assoc]
    exact h1.trans (by rw [this]; simp)
  · rw [List.length_append, List.length_replicate]; omega
  · obtain ⟨I, H⟩ := url_sim h' q l n k' ks' (x.write ++ u ++ List.replicate (n - (x.write ++ u).length) (c! '0'))
    have hl : (x.write ++ u ++ List.replicate (n - (x.write ++ u).length) (c! '0')).length = n := by
      rw [List.length_append, List.length_replicate]; omega
    have h5 := url_viable (env := urlEnv) (n - (x.write ++ u).length) _ (flat l) .uFirst rfl h4
    obtain ⟨g1, -, g3⟩ := complete_fin (r := []) H hc' (tr := (pred urlEnv (flat l) .uFirst
        (x.write ++ u ++ List.replicate (n - (x.write ++ u).length) (c! '0'))).1 ++ [.bodyFinished])
      (by rw [List.take_of_length_le (by omega), ← Prod.mk.eta (p := pred _ _ _ _), h5]
          simp only [endU]
          rw [if_pos (by omega), List.drop_of_length_le (by omega)])
    exact ⟨g1, g3⟩
  · have e' : x.write ++ u ++ b :: z = x.write ++ y ++ z := by rw [hu]; simp
    rw [e'] at hc' ⊢
    rw [h3]
    exact (C55_offences_rejected h' q l n x hx hcut y b hy z h2 k' ks' hc').1

/-- **C56, URL-encoded bodies.** -/
theorem C56_url_eos (h : Handler) (q : Parser) (l : List Ev) (n : Nat) (msg : Bytes) (k : Nat) (ks : List Nat)
    (hc : (urlRun h q l n (k :: ks) msg).complete) (he : (urlRun h q l n (k :: ks) msg).last = .eos) :
    ∃ z, (msg ++ z).length = n ∧ ∀ h' k' ks', (urlRun h' q l n (k' :: ks') (msg ++ z)).complete →
      (urlRun h' q l n (k' :: ks') (msg ++ z)).last = .finished ∧ (urlRun h' q l n (k' :: ks') (msg ++ z)).rest = [] := by
  obtain ⟨I, H⟩ := url_sim h q l n k ks msg
  have h1 : (endU n msg (pred urlEnv (flat l) .uFirst (msg.take n))).2 = .eos := by
    unfold DriveSim at H
    unfold Outcome.complete at hc
    rw [he] at H hc
    exact congrArg Prod.snd (H.2 hc)
  obtain ⟨x, hx, ⟨h2, h3⟩ | ⟨y, b, r, -, -, -, -, h3⟩⟩ := url_cases l n msg
  · rw [h3] at h1
    split at h1
    · simp at h1
    rename_i hn
    have hm : msg.take n = msg := List.take_of_length_le (by omega)
    rw [hm] at h2
    have h4 : (pred urlEnv (flat l) .uFirst msg).2 = .eos := by rw [h2, pred_looseUrl hx]
    have hl : (msg ++ List.replicate (n - msg.length) (c! '0')).length = n := by
      rw [List.length_append, List.length_replicate]; omega
    refine ⟨List.replicate (n - msg.length) (c! '0'), hl, fun h' k' ks' hc' => ?_⟩
    obtain ⟨I, H⟩ := url_sim h' q l n k' ks' (msg ++ List.replicate (n - msg.length) (c! '0'))
    have h5 := url_viable (env := urlEnv) (n - msg.length) _ (flat l) .uFirst rfl h4
    obtain ⟨g1, -, g3⟩ := complete_fin (r := []) H hc' (tr := (pred urlEnv (flat l) .uFirst
        (msg ++ List.replicate (n - msg.length) (c! '0'))).1 ++ [.bodyFinished])
      (by rw [List.take_of_length_le (by omega), ← Prod.mk.eta (p := pred _ _ _ _), h5]
          simp only [endU]
          rw [if_pos (by omega), List.drop_of_length_le (by omega)])
    exact ⟨g1, g3⟩
  · rw [h3] at h1
    simp at h1

example : (urlRun pauses .new [] 9 (List.replicate 40 2) b!"a=b&c d=e").last = .err (.urlEncodedName (c! ' ')) ∧
    (urlRun pauses .new [] 9 (List.replicate 40 2) b!"a=b&c").last = .eos := by decide +kernel

end Verif.Http1
