import Verif.Http1.RunsLoose
import Verif.Http1.InvUrl

/-!
# Every beginning that is not rejected can be completed (helper lemmas)
-/

set_option linter.unusedSimpArgs false
set_option linter.unusedVariables false

namespace Verif.Http1

variable {env : Env}

/-- States of heads and chunked bodies. -/
def AS.plain : AS → Bool
  | .dead | .hyphen1 _ | .hyphen2 _ | .bound _ _ | .boundCr | .boundLf | .mpDetect | .mpLen _ | .mpLenCr | .mpLenLf
  | .mpByte | .mpByteLf | .mpEnd | .uFirst | .uName | .uNameH1 | .uNameH2 _ | .uNamePlus
  | .uVal | .uValH1 | .uValH2 _ | .uValPlus | .bodyFin => false
  | _ => true

theorem plain_norm (hp : env.ptype ≠ .multipart) {tr : List Ev} {s : AS} (h : s.plain = true) :
    (norm env tr s).2.plain = true := by
  cases s <;> simp only [AS.plain] at h <;> (try cases h) <;> simp only [norm] <;> (try rfl)
  · cases he : env.ptype <;> simp_all [AS.plain]
  · split <;> rfl

theorem plain_sizeNext (k v : Nat) : (sizeNext k v).plain = true := by
  unfold sizeNext; split <;> rfl

set_option maxHeartbeats 1000000 in
theorem plain_step {s s' : AS} {b : UInt8} {es : List Ev} (h : s.plain = true) (hb : bstep env s b = .next es s') :
    s'.plain = true := by
  cases s <;> simp only [AS.plain] at h <;> (try cases h) <;>
    simp only [bstep, bDetect1, bMethod, bDet, bLDet, bExpect, bVerEnd, bHdrName, bHdrFirst, bHdrCheck, bHdrVal,
      bHdrQuot, bSizeEnd, bExtName, bExtVal, bExtQuot, bStrip] at hb <;>
    (repeat' split at hb) <;> first
      | (simp only [BRes.pre, BRes.next.injEq] at hb; rw [← hb.2]; first | rfl | exact plain_sizeNext _ _)
      | (simp only [BRes.pre] at hb; cases hb)
      | cases hb

set_option maxHeartbeats 1000000 in
theorem plain_err {s : AS} {b : UInt8} {es : List Ev} {e : PErr} (h : s.plain = true)
    (hb : bstep env s b = .err es e) : e.byte = some b := by
  cases s <;> simp only [AS.plain] at h <;> (try cases h) <;>
    simp only [bstep, bDetect1, bMethod, bDet, bLDet, bExpect, bVerEnd, bHdrName, bHdrFirst, bHdrCheck, bHdrVal,
      bHdrQuot, bSizeEnd, bExtName, bExtVal, bExtQuot, bStrip] at hb <;>
    (repeat' split at hb) <;> first
      | (simp only [BRes.pre, BRes.err.injEq] at hb; rw [← hb.2]; rfl)
      | (simp only [BRes.pre] at hb; cases hb)
      | cases hb

/-- From here the message can be completed. -/
def Viable (env : Env) (s : AS) : Prop := ∀ tr, ∃ z L, pred env tr s z = (L, .finished [])

theorem Viable.byte {s s' : AS} {es : List Ev} (b : UInt8) (hn : ∀ tr, norm env tr s = ([], s)) (hf : s ≠ .fin)
    (h : bstep env s b = .next es s') (hl : Viable env s') : Viable env s := by
  intro tr
  obtain ⟨z, L, hz⟩ := hl (tr ++ es)
  exact ⟨b :: z, L, by simp [pred, hn, hf, h, hz]⟩

theorem Viable.eps {s s' : AS} {es : List Ev} (hn : ∀ tr, norm env tr s = (es, s'))
    (hn1 : ∀ tr, norm env tr s' = ([], s')) (hl : Viable env s') : Viable env s := by
  intro tr
  obtain ⟨z, L, hz⟩ := hl (tr ++ es)
  exact ⟨z, L, by rw [pred_eps (hn tr) (hn1 _), hz]⟩

theorem viable_fin : Viable env .fin := fun tr => ⟨[], _, by simp [pred, norm]; rfl⟩

theorem viable_hdrEnd (hp : env.ptype ≠ .multipart) : Viable env .hdrEnd := by
  intro tr
  refine ⟨[], (pred env tr .hdrEnd []).1, ?_⟩
  cases he : env.ptype <;> simp_all [pred, norm]

section
variable (hp : env.ptype ≠ .multipart)
include hp

theorem viable_hdrLf2 : Viable env .hdrLf2 := Viable.byte (c! '\n') (fun _ => rfl) nofun rfl (viable_hdrEnd hp)
theorem viable_hdrCr2 : Viable env .hdrCr2 := Viable.byte (c! '\r') (fun _ => rfl) nofun rfl (viable_hdrLf2 hp)
theorem viable_hdrLf1 : Viable env .hdrLf1 := Viable.byte (c! '\n') (fun _ => rfl) nofun rfl (viable_hdrCr2 hp)
theorem viable_hdrCr1 : Viable env .hdrCr1 := Viable.byte (c! '\r') (fun _ => rfl) nofun rfl (viable_hdrLf1 hp)
theorem viable_hdrVal : Viable env .hdrVal := Viable.byte (c! '\r') (fun _ => rfl) nofun rfl (viable_hdrLf1 hp)
theorem viable_hdrQuot : Viable env .hdrQuot := Viable.byte (c! '"') (fun _ => rfl) nofun rfl (viable_hdrVal hp)
theorem viable_hdrEsc : Viable env .hdrEsc := Viable.byte (c! 'a') (fun _ => rfl) nofun rfl (viable_hdrQuot hp)
theorem viable_hdrStrip : Viable env .hdrStrip := Viable.byte (c! 'a') (fun _ => rfl) nofun rfl (viable_hdrVal hp)
theorem viable_hdrName : Viable env .hdrName := Viable.byte (c! ':') (fun _ => rfl) nofun rfl (viable_hdrStrip hp)
theorem viable_hdrFirst : Viable env .hdrFirst := Viable.byte (c! 'a') (fun _ => rfl) nofun rfl (viable_hdrName hp)
theorem viable_hdrCheck : Viable env .hdrCheck := Viable.byte (c! 'a') (fun _ => rfl) nofun rfl (viable_hdrName hp)
theorem viable_initialLf : Viable env .initialLf := Viable.byte (c! '\n') (fun _ => rfl) nofun rfl (viable_hdrCr2 hp)
theorem viable_initialEnd : Viable env .initialEnd := Viable.eps (fun _ => rfl) (fun _ => rfl) (viable_initialLf hp)
theorem viable_reason2 : Viable env .reason2 := Viable.byte (c! '\r') (fun _ => rfl) nofun rfl (viable_initialEnd hp)
theorem viable_reason1 : Viable env .reason1 := Viable.byte (c! 'a') (fun _ => rfl) nofun rfl (viable_reason2 hp)
theorem viable_codeSp (v : Nat) : Viable env (.codeSp v) := Viable.byte (c! ' ') (fun _ => rfl) nofun rfl (viable_reason1 hp)
theorem viable_code3 (v : Nat) : Viable env (.code3 v) := Viable.byte (c! '0') (fun _ => rfl) nofun rfl (viable_codeSp hp _)
theorem viable_code2 (v : Nat) : Viable env (.code2 v) := Viable.byte (c! '0') (fun _ => rfl) nofun rfl (viable_code3 hp _)
theorem viable_code1 : Viable env .code1 := Viable.byte (c! '2') (fun _ => rfl) nofun rfl (viable_code2 hp _)
theorem viable_verEnd (r : Bool) (v w : Nat) : Viable env (.verEnd r v w) := by
  cases r
  · exact Viable.byte (c! '\r') (fun _ => rfl) nofun rfl (viable_initialEnd hp)
  · exact Viable.byte (c! ' ') (fun _ => rfl) nofun rfl (viable_code1 hp)
theorem viable_min3 (r : Bool) (v w : Nat) : Viable env (.min3 r v w) :=
  Viable.byte (c! '0') (fun _ => rfl) nofun rfl (viable_verEnd hp r v _)
theorem viable_min2 (r : Bool) (v w : Nat) : Viable env (.min2 r v w) :=
  Viable.byte (c! '0') (fun _ => rfl) nofun rfl (viable_min3 hp r v _)
theorem viable_min1 (r : Bool) (v : Nat) : Viable env (.min1 r v) :=
  Viable.byte (c! '0') (fun _ => rfl) nofun rfl (viable_min2 hp r v _)
theorem viable_period (r : Bool) (v : Nat) : Viable env (.period r v) :=
  Viable.byte (c! '.') (fun _ => rfl) nofun rfl (viable_min1 hp r v)
theorem viable_maj3 (r : Bool) (v : Nat) : Viable env (.maj3 r v) :=
  Viable.byte (c! '.') (fun _ => rfl) nofun rfl (viable_min1 hp r v)
theorem viable_maj2 (r : Bool) (v : Nat) : Viable env (.maj2 r v) :=
  Viable.byte (c! '.') (fun _ => rfl) nofun rfl (viable_min1 hp r v)
theorem viable_maj1 (r : Bool) : Viable env (.maj1 r) :=
  Viable.byte (c! '1') (fun _ => rfl) nofun rfl (viable_maj2 hp r _)
theorem viable_http5 : Viable env .http5 := Viable.byte (c! '/') (fun _ => rfl) nofun rfl (viable_maj1 hp _)
theorem viable_http4 : Viable env .http4 := Viable.byte (c! 'P') (fun _ => rfl) nofun rfl (viable_http5 hp)
theorem viable_http3 : Viable env .http3 := Viable.byte (c! 'T') (fun _ => rfl) nofun rfl (viable_http4 hp)
theorem viable_http2 : Viable env .http2 := Viable.byte (c! 'T') (fun _ => rfl) nofun rfl (viable_http3 hp)
theorem viable_http1 : Viable env .http1 := Viable.byte (c! 'H') (fun _ => rfl) nofun rfl (viable_http2 hp)
theorem viable_url2 : Viable env .url2 := Viable.byte (c! ' ') (fun _ => rfl) nofun rfl (viable_http1 hp)
theorem viable_url1 : Viable env .url1 := Viable.byte (c! 'a') (fun _ => rfl) nofun rfl (viable_url2 hp)
theorem viable_method : Viable env .method := Viable.byte (c! ' ') (fun _ => rfl) nofun rfl (viable_url1 hp)
theorem viable_det5 : Viable env .det5 := Viable.byte (c! 'A') (fun _ => rfl) nofun rfl (viable_method hp)
theorem viable_det4 : Viable env .det4 := Viable.byte (c! 'A') (fun _ => rfl) nofun rfl (viable_method hp)
theorem viable_det3 : Viable env .det3 := Viable.byte (c! 'A') (fun _ => rfl) nofun rfl (viable_method hp)
theorem viable_det2 : Viable env .det2 := Viable.byte (c! 'A') (fun _ => rfl) nofun rfl (viable_method hp)
theorem viable_ldet5 : Viable env .ldet5 := Viable.byte (c! 'A') (fun _ => rfl) nofun rfl (viable_method hp)
theorem viable_ldet4 : Viable env .ldet4 := Viable.byte (c! 'A') (fun _ => rfl) nofun rfl (viable_method hp)
theorem viable_ldet3 : Viable env .ldet3 := Viable.byte (c! 'A') (fun _ => rfl) nofun rfl (viable_method hp)
theorem viable_ldet2 : Viable env .ldet2 := Viable.byte (c! 'A') (fun _ => rfl) nofun rfl (viable_method hp)
theorem viable_detect1 : Viable env .detect1 := Viable.byte (c! 'A') (fun _ => rfl) nofun rfl (viable_method hp)
theorem viable_stripDetect : Viable env .stripDetect := Viable.byte (c! 'A') (fun _ => rfl) nofun rfl (viable_method hp)
theorem viable_size1 : Viable env .size1 :=
  Viable.byte (c! '0') (fun _ => rfl) nofun rfl (Viable.byte (c! '\r') (fun _ => rfl) nofun rfl (viable_hdrLf1 hp))
theorem viable_dataLf : Viable env .dataLf := Viable.byte (c! '\n') (fun _ => rfl) nofun rfl (viable_size1 hp)
theorem viable_dataCr : Viable env .dataCr := Viable.byte (c! '\r') (fun _ => rfl) nofun rfl (viable_dataLf hp)
theorem viable_data : ∀ v, Viable env (.data v)
  | 0 => Viable.eps (fun _ => rfl) (fun _ => rfl) (viable_dataCr hp)
  | v + 1 => Viable.byte (s' := .data v) 0 (fun _ => rfl) nofun rfl (viable_data v)
theorem viable_sizeLf (v : Nat) : Viable env (.sizeLf v) := Viable.byte (c! '\n') (fun _ => rfl) nofun rfl (viable_data hp v)
theorem viable_extsFin (v : Nat) : Viable env (.extsFin v) := Viable.eps (fun _ => rfl) (fun _ => rfl) (viable_sizeLf hp v)
theorem viable_sizeEnd (v : Nat) : Viable env (.sizeEnd v) := by
  refine Viable.byte (c! '\r') (fun _ => rfl) nofun rfl ?_
  split
  · exact viable_hdrLf1 hp
  · exact viable_extsFin hp v
theorem viable_size (k v : Nat) : Viable env (.size k v) := by
  refine Viable.byte (c! '\r') (fun _ => rfl) nofun rfl ?_
  split
  · exact viable_hdrLf1 hp
  · exact viable_extsFin hp v
theorem viable_extName (v : Nat) : Viable env (.extName v) := Viable.byte (c! '\r') (fun _ => rfl) nofun rfl (viable_extsFin hp v)
theorem viable_extStrip (v : Nat) : Viable env (.extStrip v) := Viable.byte (c! 'a') (fun _ => rfl) nofun rfl (viable_extName hp v)
theorem viable_extVal (v : Nat) : Viable env (.extVal v) := Viable.byte (c! '\r') (fun _ => rfl) nofun rfl (viable_extsFin hp v)
theorem viable_extVStrip (v : Nat) : Viable env (.extVStrip v) := Viable.byte (c! 'a') (fun _ => rfl) nofun rfl (viable_extVal hp v)
theorem viable_extQuot (v : Nat) : Viable env (.extQuot v) := Viable.byte (c! '"') (fun _ => rfl) nofun rfl (viable_extVal hp v)
theorem viable_extEsc (v : Nat) : Viable env (.extEsc v) := Viable.byte (c! 'a') (fun _ => rfl) nofun rfl (viable_extQuot hp v)
theorem viable_extFin (v : Nat) : Viable env (.extFin v) := Viable.byte (c! '\r') (fun _ => rfl) nofun rfl (viable_extsFin hp v)

theorem viable {s : AS} (h : s.plain = true) : Viable env s := by
  cases s <;> simp only [AS.plain] at h <;> (try cases h)
  all_goals first
    | exact viable_fin
    | exact viable_hdrEnd hp
    | exact viable_hdrLf2 hp
    | exact viable_hdrCr2 hp
    | exact viable_hdrLf1 hp
    | exact viable_hdrCr1 hp
    | exact viable_hdrVal hp
    | exact viable_hdrQuot hp
    | exact viable_hdrEsc hp
    | exact viable_hdrStrip hp
    | exact viable_hdrName hp
    | exact viable_hdrFirst hp
    | exact viable_hdrCheck hp
    | exact viable_initialLf hp
    | exact viable_initialEnd hp
    | exact viable_reason2 hp
    | exact viable_reason1 hp
    | exact viable_codeSp hp _
    | exact viable_code3 hp _
    | exact viable_code2 hp _
    | exact viable_code1 hp
    | exact viable_verEnd hp _ _ _
    | exact viable_min3 hp _ _ _
    | exact viable_min2 hp _ _ _
    | exact viable_min1 hp _ _
    | exact viable_period hp _ _
    | exact viable_maj3 hp _ _
    | exact viable_maj2 hp _ _
    | exact viable_maj1 hp _
    | exact viable_http5 hp
    | exact viable_http4 hp
    | exact viable_http3 hp
    | exact viable_http2 hp
    | exact viable_http1 hp
    | exact viable_url2 hp
    | exact viable_url1 hp
    | exact viable_method hp
    | exact viable_det5 hp
    | exact viable_det4 hp
    | exact viable_det3 hp
    | exact viable_det2 hp
    | exact viable_ldet5 hp
    | exact viable_ldet4 hp
    | exact viable_ldet3 hp
    | exact viable_ldet2 hp
    | exact viable_detect1 hp
    | exact viable_stripDetect hp
    | exact viable_size1 hp
    | exact viable_dataLf hp
    | exact viable_dataCr hp
    | exact viable_data hp _
    | exact viable_sizeLf hp _
    | exact viable_extsFin hp _
    | exact viable_sizeEnd hp _
    | exact viable_size hp _ _
    | exact viable_extName hp _
    | exact viable_extStrip hp _
    | exact viable_extVal hp _
    | exact viable_extVStrip hp _
    | exact viable_extQuot hp _
    | exact viable_extEsc hp _
    | exact viable_extFin hp _

/-- A beginning that is not rejected can be completed. -/
theorem pred_viable : ∀ (m : Bytes) (tr : List Ev) (s : AS), s.plain = true → (pred env tr s m).2 = .eos →
    ∃ z L, pred env tr s (m ++ z) = (L, .finished [])
  | [], tr, s, hs, _ => viable hp hs tr
  | b :: m, tr, s, hs, h => by
    by_cases hf : (norm env tr s).2 = .fin
    · simp [pred, hf] at h
    · simp only [pred, if_neg hf, List.cons_append] at h ⊢
      cases hb : bstep env (norm env tr s).2 b with
      | next es s' =>
        simp only [hb] at h ⊢
        exact pred_viable m _ s' (plain_step (plain_norm hp hs) hb) h
      | err es e => simp [hb] at h
      | errB => simp [hb] at h
      | panic => simp [hb] at h

/-- An error names the byte that was read last. -/
theorem pred_blame : ∀ (m : Bytes) (tr : List Ev) (s : AS) (L : List Ev) (e : PErr) (r : Bytes), s.plain = true →
    pred env tr s m = (L, .err e r) → ∃ y b, m = y ++ b :: r ∧ e.byte = some b ∧ (pred env tr s y).2 = .eos ∧
      ∀ z, pred env tr s (y ++ b :: z) = (L, .err e z)
  | [], tr, s, L, e, r, hs, h => by
    simp only [pred] at h
    split at h <;> simp at h
  | b :: m, tr, s, L, e, r, hs, h => by
    by_cases hf : (norm env tr s).2 = .fin
    · simp [pred, hf] at h
    · simp only [pred, if_neg hf, List.cons_append] at h ⊢
      cases hb : bstep env (norm env tr s).2 b with
      | next es s' =>
        simp only [hb] at h ⊢
        obtain ⟨y, b', h1, h2, h3, h4⟩ := pred_blame m _ s' L e r (plain_step (plain_norm hp hs) hb) h
        refine ⟨b :: y, b', by rw [h1]; rfl, h2, ?_, fun z => ?_⟩
        · simp only [pred, if_neg hf, hb]; exact h3
        · simp only [List.cons_append, pred, if_neg hf, hb]; exact h4 z
      | err es e' =>
        simp only [hb, Prod.mk.injEq, Fin.err.injEq] at h
        obtain ⟨rfl, rfl, rfl⟩ := h
        refine ⟨[], b, rfl, plain_err (plain_norm hp hs) hb, by simp [pred, hf], fun z => by simp [pred, hf, hb]⟩
      | errB => simp [hb] at h
      | panic => simp [hb] at h

end

/-! ## URL-encoded bodies -/

theorem url_zero {s : AS} (h : s.url = true) (hn : ∀ tr, norm env tr s = ([], s)) :
    ∃ es s', bstep env s (c! '0') = .next es s' ∧ s'.url = true := by
  cases s <;> simp only [AS.url] at h <;> (try cases h) <;> (try (simp [norm] at hn; done))
  all_goals exact ⟨_, _, rfl, rfl⟩

theorem url_zeros : ∀ (n : Nat) (tr : List Ev) (s : AS), s.url = true →
    (pred env tr s (List.replicate n (c! '0'))).2 = .eos
  | n, tr, s, hs => by
    have hu : (norm env tr s).2.url = true := (keeps_url (env := env)).norm [] tr s hs
    have hf : (norm env tr s).2 ≠ .fin := by
      intro e; rw [e] at hu; simp [AS.url] at hu
    have hn : ∀ tr', norm env tr' (norm env tr s).2 = ([], (norm env tr s).2) := by
      intro tr'
      cases s <;> simp only [AS.url] at hs <;> (try cases hs) <;> rfl
    cases n with
    | zero => simp [pred, hf]
    | succ n =>
      obtain ⟨es, s', h1, h2⟩ := url_zero hu hn
      rw [List.replicate_succ]
      simp only [pred, if_neg hf, h1]
      exact url_zeros n _ s' h2

theorem url_viable (n : Nat) : ∀ (m : Bytes) (tr : List Ev) (s : AS), s.url = true → (pred env tr s m).2 = .eos →
    (pred env tr s (m ++ List.replicate n (c! '0'))).2 = .eos
  | [], tr, s, hs, _ => url_zeros n tr s hs
  | b :: m, tr, s, hs, h => by
    have hu : (norm env tr s).2.url = true := (keeps_url (env := env)).norm [] tr s hs
    have hf : (norm env tr s).2 ≠ .fin := by
      intro e; rw [e] at hu; simp [AS.url] at hu
    simp only [pred, if_neg hf, List.cons_append] at h ⊢
    cases hb : bstep env (norm env tr s).2 b with
    | next es s' =>
      simp only [hb] at h ⊢
      exact url_viable n m _ s' ((keeps_url (env := env)).step [] _ _ b es s' (norm_idem env tr s) hu hb) h
    | err es e => simp [hb] at h
    | errB => simp [hb] at h
    | panic => simp [hb] at h

end Verif.Http1
