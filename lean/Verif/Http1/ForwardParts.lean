import Verif.Http1.Forward
import Verif.Http1.ChunkSpec
import Verif.Http1.MpLooseSpec

/-!
# Helper lemmas: multipart bodies that are passed on
-/

namespace Verif.Http1

variable {bd : Bytes}

theorem fm_cons (k : Last) (e : Ev) (l : List Ev) : forwardPartsFrom bd k (e :: l) = passPart bd k e ++ forwardPartsFrom bd e.last l := rfl

/-! ## Pieces -/

/-- A token in pieces. -/
theorem fm_token {K : Bytes → Ev} {g : Bytes → Bytes} {k : Last} (hg : ∀ b d, g (b :: d) = g [b] ++ g d) (hn : g [] = [])
    (hk : ∀ d, (K d).last = k) (hp : ∀ d, passPart bd k (K d) = g d) (j : Last)
    (hs : ∀ b d, passPart bd j (K (b :: d)) = passPart bd j (K [b]) ++ g d) (r : List Ev) {d : Bytes} (hd : d ≠ []) :
    forwardPartsFrom bd j (d.map (fun b => K [b]) ++ r) = passPart bd j (K d) ++ forwardPartsFrom bd k r := by
  have hr : ∀ d : Bytes, forwardPartsFrom bd k (d.map (fun b => K [b]) ++ r) = g d ++ forwardPartsFrom bd k r := by
    intro d
    induction d with
    | nil => rw [hn]; rfl
    | cons b d ih => rw [List.map_cons, List.cons_append, fm_cons, hp, hk, ih, hg b d, List.append_assoc]
  cases d with
  | nil => exact absurd rfl hd
  | cons b d => rw [List.map_cons, List.cons_append, fm_cons, hk, hr, hs b d, List.append_assoc]

/-- What is written does not depend on the pieces. -/
theorem fm_piece (j : Last) (e : Ev) (r : List Ev) (he : flatEv e ≠ []) :
    forwardPartsFrom bd j (flatEv e ++ r) = passPart bd j e ++ forwardPartsFrom bd e.last r := by
  have hne : ∀ {d : Bytes} {f : UInt8 → Ev}, d.map f ≠ [] → d ≠ [] := by rintro d f h rfl; exact h rfl
  have hid : ∀ (b : UInt8) (d : Bytes), b :: d = [b] ++ d := fun _ _ => rfl
  have none : ∀ {K : Bytes → Ev} {k : Last}, (∀ d, (K d).last = k) → (∀ j d, passPart bd j (K d) = []) → ∀ {d : Bytes}, d ≠ [] →
      forwardPartsFrom bd j (d.map (fun b => K [b]) ++ r) = passPart bd j (K d) ++ forwardPartsFrom bd k r := by
    intro K k hk hp d hd
    exact fm_token (g := fun _ => []) (fun _ _ => rfl) rfl hk (hp k) j (fun _ _ => by rw [hp, hp]; rfl) r hd
  cases e with
  | headerName d =>
    exact fm_token (K := .headerName) hid rfl (fun _ => rfl) (fun _ => rfl) j (fun b d => by cases j <;> rfl) r (hne he)
  | headerValue d =>
    exact fm_token (K := .headerValue) hid rfl (fun _ => rfl) (fun _ => rfl) j (fun b d => by cases j <;> rfl) r (hne he)
  | multipartData d => exact fm_token (K := .multipartData) hid rfl (fun _ => rfl) (fun _ => rfl) j (fun b d => rfl) r (hne he)
  | chunkData d => exact none (K := .chunkData) (fun _ => rfl) (fun _ _ => rfl) (hne he)
  | chunkExtensionName d => exact none (K := .chunkExtensionName) (fun _ => rfl) (fun _ _ => rfl) (hne he)
  | chunkExtensionValue d => exact none (K := .chunkExtensionValue) (fun _ => rfl) (fun _ _ => rfl) (hne he)
  | urlEncodedName d => exact none (K := .urlEncodedName) (fun _ => rfl) (fun _ _ => rfl) (hne he)
  | urlEncodedValue d => exact none (K := .urlEncodedValue) (fun _ => rfl) (fun _ _ => rfl) (hne he)
  | method d => exact none (K := .method) (fun _ => rfl) (fun _ _ => rfl) (hne he)
  | url d => exact none (K := .url) (fun _ => rfl) (fun _ _ => rfl) (hne he)
  | status d => exact none (K := .status) (fun _ => rfl) (fun _ _ => rfl) (hne he)
  | _ => rfl

theorem fm_flat : ∀ (j : Last) (l : List Ev), (∀ e ∈ l, flatEv e ≠ []) →
    forwardPartsFrom bd j (flat l) = forwardPartsFrom bd j l
  | _, [], _ => rfl
  | j, e :: l, h => by
    rw [flat, List.flatMap_cons, fm_piece j e _ (h e (by simp)), fm_cons,
      show List.flatMap flatEv l = flat l from rfl, fm_flat _ l fun x hx => h x (by simp [hx])]

/-! ## Parts -/

/-- Callbacks about header lines. -/
def LineEv : Ev → Prop
  | .headerName _ | .headerValue _ => True
  | _ => False

/-- Header fields are written as in a head. -/
theorem fm_lines (r : List Ev) : ∀ (l : List Ev) (k : Last), (∀ e ∈ l, LineEv e) →
    forwardPartsFrom bd k (l ++ .headersFinished :: r) = forwardFrom k (l ++ [.headersFinished]) ++ forwardPartsFrom bd .other r
  | [], k, _ => by simp [fm_cons, forwardFrom, passPart, Ev.last]
  | e :: l, k, h => by
    have he := h e (by simp)
    rw [List.cons_append, fm_cons, fm_lines r l _ fun x hx => h x (by simp [hx]), List.cons_append, forwardFrom_append, List.append_assoc]
    cases e <;> first | exact False.elim he | rfl

theorem lines_flat (ls : List Line) : ∀ e ∈ flat (ls.flatMap Line.events), LineEv e := by
  intro e he
  obtain ⟨a, ha, hb⟩ := List.mem_flatMap.1 he
  obtain ⟨y, -, hy⟩ := List.mem_flatMap.1 ha
  cases y <;> simp only [Line.events, List.mem_cons, List.not_mem_nil, or_false] at hy
  · rcases hy with rfl | rfl <;> obtain ⟨b, -, rfl⟩ := List.mem_map.1 hb <;> trivial
  · subst hy; obtain ⟨b, -, rfl⟩ := List.mem_map.1 hb; trivial

/-- The part that is written. -/
def LoosePart.tidy (x : LoosePart) : LoosePart := ⟨Http1.tidy x.lines, x.data⟩

theorem LoosePart.tidy_head (x : LoosePart) : flat x.tidy.headEvents = flat x.headEvents := by
  simp only [headEvents, tidy, List.cons_append, flat_cons, flat_app, Http1.tidy_means]

theorem LoosePart.tidy_means (x : LoosePart) : flat x.tidy.events = flat x.events := by
  rw [events, events, flat_app, flat_app, tidy_head]; rfl

theorem parts_means : ∀ ps : List LoosePart,
    flat ((ps.map LoosePart.tidy).flatMap LoosePart.events) = flat (ps.flatMap LoosePart.events)
  | [] => rfl
  | x :: ps => by
    rw [List.map_cons, List.flatMap_cons, List.flatMap_cons, flat_app, flat_app, LoosePart.tidy_means, parts_means ps]

/-- Content lengths depend on the bytes that were reported, so the parts that are written are again fine. -/
theorem parts_ok {cl : List Ev → Option Nat} : ∀ (ps : List LoosePart) (t t' : List Ev), flat t = flat t' →
    LooseParts cl bd t ps → LooseParts cl bd t' (ps.map LoosePart.tidy)
  | [], _, _, _, _ => trivial
  | x :: ps, t, t', ht, h => by
    obtain ⟨h1, h2, h3, h4⟩ := h
    have he : flat (t' ++ x.tidy.headEvents) = flat (t ++ x.headEvents) := by
      rw [flat_app, flat_app, LoosePart.tidy_head, ht]
    refine ⟨Http1.tidy_ok _ h1, fun n hn => h2 n (by rw [← he]; exact hn), fun hn => h3 (by rw [← he]; exact hn),
      parts_ok ps _ _ ?_ h4⟩
    rw [flat_app, flat_app, LoosePart.tidy_means, ht]

theorem lines_of_parts {cl : List Ev → Option Nat} : ∀ (ps : List LoosePart) (t : List Ev), LooseParts cl bd t ps →
    ∀ x ∈ ps, ∀ y ∈ x.lines, y.OK
  | [], _, _, _, hx => absurd hx (by simp)
  | x :: ps, t, h, z, hz => by
    obtain ⟨h1, -, -, h4⟩ := h
    rcases List.mem_cons.1 hz with rfl | hz
    · exact h1
    · exact lines_of_parts ps _ h4 z hz

theorem fm_part {x : LoosePart} (h : ∀ y ∈ x.lines, y.OK) (r : List Ev) (j : Last) :
    forwardPartsFrom bd j (flat x.events ++ r) = (if j = .none then [] else b!"\r\n") ++ b!"--" ++ bd ++ b!"\r\n" ++
      (tidy x.lines).flatMap Line.write ++ b!"\r\n" ++ x.data ++ forwardPartsFrom bd .other r := by
  have he : flat x.events ++ r = .multipartBegin :: (flat (x.lines.flatMap Line.events) ++ .headersFinished ::
      (flatEv (.multipartData x.data) ++ r)) := by
    simp [LoosePart.events, LoosePart.headEvents, flat, flatEv]
  rw [he, fm_cons, show Ev.multipartBegin.last = .other from rfl, fm_lines _ _ _ (lines_flat _), fw_other h]
  have hd : forwardPartsFrom bd .other (flatEv (.multipartData x.data) ++ r) = x.data ++ forwardPartsFrom bd .other r := by
    by_cases hd : x.data = []
    · rw [hd]; rfl
    · rw [fm_piece _ _ _ (by simpa [flatEv] using hd)]; rfl
  rw [hd]
  simp only [passPart, List.append_assoc]

theorem fm_parts : ∀ (ps : List LoosePart), (∀ x ∈ ps, ∀ y ∈ x.lines, y.OK) → ∀ j,
    forwardPartsFrom bd j (flat (ps.flatMap LoosePart.events) ++ [.bodyFinished]) =
      (if j = .none then [] else b!"\r\n") ++ writeLoose bd (ps.map LoosePart.tidy)
  | [], _, j => by simp [flat, fm_cons, passPart, forwardPartsFrom, writeLoose]
  | x :: ps, h, j => by
    rw [List.flatMap_cons, flat_app, List.append_assoc, fm_part (h x (by simp)),
      fm_parts ps (fun z hz => h z (by simp [hz])) .other, if_neg (show Last.other ≠ .none by nofun)]
    simp [writeLoose, LoosePart.write, LoosePart.tidy, delimiter]

/-- What is written for a multipart body is one. -/
theorem parts_forward {cl : List Ev → Option Nat} {ps : List LoosePart} {t : List Ev} (h : LooseParts cl bd t ps) :
    forwardParts bd (flat (ps.flatMap LoosePart.events ++ [.bodyFinished])) = writeLoose bd (ps.map LoosePart.tidy) := by
  rw [flat_app]
  exact fm_parts ps (lines_of_parts ps t h) .none

end Verif.Http1
