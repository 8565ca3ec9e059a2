import Verif.Format
import Verif.FormatSpec
import Verif.Util.QueryRejectSpec
import Verif.Http1.LooseSpec

/-!
# Lemmas about messages
-/

namespace Verif

/-- The value of a string of digits. -/
def numVal (ds : Bytes) : Nat := ds.foldl (fun v b => 10 * v + (b.toNat - 48)) 0

theorem Numeral.val {ds : Bytes} {n : Nat} (h : Numeral ds n) : numVal ds = n := by
  induction h with
  | digit _ _ => simp [numVal]
  | more _ _ _ _ ih => simp only [numVal, List.foldl_append, List.foldl_cons, List.foldl_nil] at ih ⊢; rw [ih]

theorem Numeral.digits {ds : Bytes} {n : Nat} (h : Numeral ds n) : ∀ b ∈ ds, isDigit b = true := by
  induction h with
  | digit h1 h2 => simp [isDigit, h1, h2]
  | more _ _ h1 h2 ih =>
    intro b hb
    rcases List.mem_append.1 hb with hb | hb
    · exact ih b hb
    · simp only [List.mem_singleton] at hb; subst hb; simp [isDigit, h1, h2]

theorem ofNat_digit {k : Nat} (h : k < 10) : c! '0' ≤ UInt8.ofNat (48 + k) ∧ UInt8.ofNat (48 + k) ≤ c! '9' ∧
    (UInt8.ofNat (48 + k)).toNat - 48 = k := by
  have : ∀ k : _root_.Fin 10, c! '0' ≤ UInt8.ofNat (48 + k.1) ∧ UInt8.ofNat (48 + k.1) ≤ c! '9' ∧
    (UInt8.ofNat (48 + k.1)).toNat - 48 = k.1 := by decide
  exact this ⟨k, h⟩

theorem numeral_decimal (n : Nat) : Numeral (decimal n) n := by
  induction n using Nat.strongRecOn with
  | ind n ih =>
    rw [decimal]
    split
    · rename_i h
      obtain ⟨a, b, c⟩ := ofNat_digit h
      have := Numeral.digit a b
      rwa [c] at this
    · rename_i h
      obtain ⟨a, b, c⟩ := ofNat_digit (k := n % 10) (by omega)
      have := Numeral.more (ih (n / 10) (by omega)) (by omega) a b
      rw [c] at this
      have e : 10 * (n / 10) + n % 10 = n := by omega
      rwa [e] at this

theorem decimal_inj {n m : Nat} (h : decimal n = decimal m) : n = m := by
  rw [← (numeral_decimal n).val, h, (numeral_decimal m).val]

/-- Two texts that go up to the first byte of another kind. -/
theorem split_at {P : UInt8 → Bool} : ∀ {x x' r r' : Bytes} {c c' : UInt8}, (∀ b ∈ x, P b = true) →
    (∀ b ∈ x', P b = true) → P c = false → P c' = false → x ++ c :: r = x' ++ c' :: r' → x = x' ∧ c = c' ∧ r = r'
  | [], [], _, _, _, _, _, _, _, _, h => by simpa using h
  | [], b :: x', r, r', c, c', _, h2, h3, _, h => by
    simp only [List.nil_append, List.cons_append, List.cons.injEq] at h
    have := h2 b List.mem_cons_self
    rw [← h.1, h3] at this; cases this
  | b :: x, [], r, r', c, c', h1, _, _, h4, h => by
    simp only [List.nil_append, List.cons_append, List.cons.injEq] at h
    have := h1 b List.mem_cons_self
    rw [h.1, h4] at this; cases this
  | b :: x, b' :: x', r, r', c, c', h1, h2, h3, h4, h => by
    simp only [List.cons_append, List.cons.injEq] at h
    obtain ⟨a, b, c⟩ := split_at (fun y hy => h1 y (List.mem_cons_of_mem _ hy))
      (fun y hy => h2 y (List.mem_cons_of_mem _ hy)) h3 h4 h.2
    exact ⟨by rw [h.1, a], b, c⟩

theorem decimal_split {n m : Nat} {c c' : UInt8} {r r' : Bytes} (hc : isDigit c = false) (hc' : isDigit c' = false)
    (h : decimal n ++ c :: r = decimal m ++ c' :: r') : n = m ∧ r = r' := by
  obtain ⟨a, _, b⟩ := split_at (numeral_decimal n).digits (numeral_decimal m).digits hc hc' h
  exact ⟨decimal_inj a, b⟩

/-- A byte that is neither a colon, a parenthesis nor a closing angle bracket. -/
def plain (b : UInt8) : Bool := !(b == c! ':' || b == c! '(' || b == c! '>')

/-- The text of a name and perhaps a number: `sep` is what stands between them. -/
def tagged (sep : Bytes → Bytes) (name : Bytes) : Option Nat → Bytes
  | some n => name ++ sep name ++ decimal n ++ b!">"
  | none => name ++ b!">"

theorem tagged_inj {sep : Bytes → Bytes} (hsep : ∀ t, ∃ s, sep t = c! ':' :: s) {a b : Bytes} {x y : Option Nat}
    (ha : ∀ c ∈ a, plain c = true) (hb : ∀ c ∈ b, plain c = true) (h : tagged sep a x = tagged sep b y) :
    a = b ∧ x = y := by
  obtain ⟨s, hs⟩ := hsep a
  obtain ⟨t, ht⟩ := hsep b
  cases x <;> cases y <;> simp only [tagged, hs, ht, List.append_assoc, List.cons_append, List.nil_append] at h
  · exact ⟨(split_at ha hb (by decide) (by decide) h).1, rfl⟩
  · exact absurd (split_at ha hb (by decide) (by decide) h).2.1 (by decide)
  · exact absurd (split_at ha hb (by decide) (by decide) h).2.1 (by decide)
  · obtain ⟨e, _, r⟩ := split_at ha hb (by decide) (by decide) h
    subst e
    rw [hs] at ht
    cases ht
    exact ⟨rfl, by rw [(decimal_split (by decide) (by decide) (List.append_cancel_left r)).1]⟩

end Verif

namespace Verif.Http1

/-- The name of an error. -/
def PErr.tag : PErr → Bytes
  | .chunkExtensionName _ => b!"ChunkExtensionName"
  | .chunkExtensionValue _ => b!"ChunkExtensionValue"
  | .chunkLength _ => b!"ChunkLength"
  | .chunkLengthOverflow => b!"ChunkLengthOverflow"
  | .crlfSequence _ => b!"CrlfSequence"
  | .dead => b!"Dead"
  | .headerName _ => b!"HeaderName"
  | .headerValue _ => b!"HeaderValue"
  | .method _ => b!"Method"
  | .multipart _ => b!"Multipart"
  | .multipartBoundary _ => b!"MultipartBoundary"
  | .status _ => b!"Status"
  | .statusCode _ => b!"StatusCode"
  | .url _ => b!"Url"
  | .urlEncodedName _ => b!"UrlEncodedName"
  | .urlEncodedValue _ => b!"UrlEncodedValue"
  | .version _ => b!"Version"

theorem PErr.format_eq (e : PErr) : e.format = b!"<ParserError::" ++
    tagged (fun _ => b!": ") e.tag (e.byte.map UInt8.toNat) := by
  cases e <;> rfl

theorem PErr.tag_plain (e : PErr) : ∀ c ∈ e.tag, plain c = true := by
  cases e <;> simp only [PErr.tag] <;> decide

theorem PErr.tag_inj {e e' : PErr} (h : e.tag = e'.tag) (h' : e.byte = e'.byte) : e = e' := by
  cases e <;> cases e' <;> first
    | (simp only [PErr.byte, Option.some.injEq] at h'; subst h'; rfl)
    | rfl
    | exact absurd h (by simp only [PErr.tag]; decide)

theorem PErr.format_inj {e e' : PErr} (h : e.format = e'.format) : e = e' := by
  rw [e.format_eq, e'.format_eq] at h
  obtain ⟨a, b⟩ := tagged_inj (fun _ => ⟨_, rfl⟩) e.tag_plain e'.tag_plain (List.append_cancel_left h)
  refine PErr.tag_inj a ?_
  revert b
  cases e.byte <;> cases e'.byte <;> simp [UInt8.toNat_inj]

end Verif.Http1

namespace Verif.Http1

theorem Success.debug_inj {r r' : Success} (h : r.debug = r'.debug) : r = r' := by
  cases r <;> cases r' <;> first
    | (simp [Success.debug] at h; done)
    | (simp only [Success.debug, List.append_assoc, List.cons_append, List.nil_append, List.cons.injEq, true_and] at h
       have := (decimal_split (by decide) (by decide) h).1
       rw [this])

end Verif.Http1

namespace Verif.Util

theorem DecodeError.format_inj {e e' : DecodeError} (h : e.format = e'.format) : e = e' := by
  cases e <;> cases e' <;> first
    | (simp [DecodeError.format] at h; done)
    | (simp only [DecodeError.format, List.append_assoc, List.cons_append, List.nil_append, List.cons.injEq, true_and] at h
       have := (decimal_split (by decide) (by decide) h).1
       rw [UInt8.toNat_inj.1 this])

theorem QueryError.format_inj {e e' : QueryError} (h : e.format = e'.format) : e = e' := by
  cases e <;> cases e' <;> first
    | (simp [QueryError.format] at h; done)
    | (simp only [QueryError.format, List.append_assoc, List.cons_append, List.nil_append, List.cons.injEq, true_and] at h
       have := (decimal_split (by decide) (by decide) h).1
       rw [UInt8.toNat_inj.1 this])

theorem FieldError.format_inj {e e' : FieldError} (h : e.format = e'.format) : e = e' := by
  cases e <;> cases e' <;> first
    | (simp [FieldError.format] at h; done)
    | (simp only [FieldError.format, List.append_assoc, List.cons_append, List.nil_append, List.cons.injEq, true_and] at h
       have := (decimal_split (by decide) (by decide) h).1
       rw [UInt8.toNat_inj.1 this])

end Verif.Util

namespace Verif.Http2

theorem ErrorCode.format_inj {e e' : ErrorCode} (h : e.format = e'.format) : e = e' := by
  cases e <;> cases e' <;> first
    | rfl
    | exact absurd h (by simp only [ErrorCode.format]; decide)

theorem FrameType.format_inj {e e' : FrameType} (h : e.format = e'.format) : e = e' := by
  cases e <;> cases e' <;> first
    | rfl
    | exact absurd h (by simp only [FrameType.format]; decide)

theorem Setting.format_inj {e e' : Setting} (h : e.format = e'.format) : e = e' := by
  cases e <;> cases e' <;> first
    | (simp [Setting.format] at h; done)
    | (simp only [Setting.format, List.append_assoc, List.cons_append, List.nil_append, List.cons.injEq, true_and] at h
       have := (decimal_split (by decide) (by decide) h).1
       rw [UInt32.toNat_inj.1 this])

/-- The text of flags without its last byte. -/
def flagsText (a h p q : Bool) : Bytes :=
  b!"<Flags: ack: " ++ word a ++ b!", end_headers: " ++ word h ++ b!", end_stream: " ++ word a ++ b!", padded: " ++
    word p ++ b!", priority: " ++ word q

theorem Flags.format_eq (f : Flags) : f.format = flagsText f.isAck f.isEndHeaders f.isPadded f.isPriority ++ b!">" :=
  rfl

/-- Not a closing angle bracket. -/
def open' (b : UInt8) : Bool := b != c! '>'

theorem flagsText_open (a h p q : Bool) : ∀ b ∈ flagsText a h p q, open' b = true := by
  cases a <;> cases h <;> cases p <;> cases q <;> decide

theorem flagsText_inj {a h p q a' h' p' q' : Bool} (e : flagsText a h p q = flagsText a' h' p' q') :
    a = a' ∧ h = h' ∧ p = p' ∧ q = q' := by
  have : ∀ a h p q a' h' p' q' : Bool, flagsText a h p q = flagsText a' h' p' q' →
    a = a' ∧ h = h' ∧ p = p' ∧ q = q' := by decide +kernel
  exact this _ _ _ _ _ _ _ _ e

/-- The text of a frame type without its last byte. -/
def typeText (t : FrameType) : Bytes := t.format.dropLast

theorem FrameType.format_eq (t : FrameType) : t.format = typeText t ++ b!">" := by cases t <;> decide

theorem typeText_open (t : FrameType) : ∀ b ∈ typeText t, open' b = true := by cases t <;> decide

theorem Flags.format_split {f g : Flags} {r r' : Bytes} (h : f.format ++ r = g.format ++ r') :
    (f.isAck = g.isAck ∧ f.isEndHeaders = g.isEndHeaders ∧ f.isPadded = g.isPadded ∧ f.isPriority = g.isPriority) ∧
    r = r' := by
  rw [f.format_eq, g.format_eq, List.append_assoc, List.append_assoc] at h
  obtain ⟨a, _, b⟩ := split_at (flagsText_open _ _ _ _) (flagsText_open _ _ _ _) (by decide) (by decide) h
  exact ⟨flagsText_inj a, b⟩

theorem FrameType.format_split {f g : FrameType} {r r' : Bytes} (h : f.format ++ r = g.format ++ r') :
    f = g ∧ r = r' := by
  rw [f.format_eq, g.format_eq, List.append_assoc, List.append_assoc] at h
  obtain ⟨a, _, b⟩ := split_at (typeText_open _) (typeText_open _) (by decide) (by decide) h
  exact ⟨FrameType.format_inj (by rw [f.format_eq, g.format_eq, a]), b⟩

theorem FrameFormat.format_split {f g : FrameFormat} (h : f.format = g.format) :
    (f.flags.isAck = g.flags.isAck ∧ f.flags.isEndHeaders = g.flags.isEndHeaders ∧
      f.flags.isPadded = g.flags.isPadded ∧ f.flags.isPriority = g.flags.isPriority) ∧
    f.frameType = g.frameType ∧ f.payloadLength = g.payloadLength ∧ f.streamId = g.streamId := by
  simp only [FrameFormat.format, List.append_assoc] at h
  obtain ⟨a, h⟩ := Flags.format_split (List.append_cancel_left h)
  obtain ⟨b, h⟩ := FrameType.format_split (List.append_cancel_left h)
  have h := List.append_cancel_left h
  obtain ⟨c, h⟩ := decimal_split (by decide) (by decide) h
  obtain ⟨d, _⟩ := decimal_split (by decide) (by decide) (List.append_cancel_left (as := b!" stream_id: ") h)
  exact ⟨a, b, UInt32.toNat_inj.1 c, UInt32.toNat_inj.1 d⟩

end Verif.Http2
