import Verif.Http1.ForwardBody
import Verif.Http1.ForwardParts
import Verif.Http1.Lengths
import Verif.Props.Http1AcceptChunked
import Verif.Props.Http1AcceptMultipart
import Verif.Props.Http1AcceptUrl

/-!
# What was reported of a body can be passed on

C103. `forwardBody` is defined in `Verif.Http1.ForwardSpec`: a handler that writes down a chunked or URL-encoded body as
its callbacks come. `forwardParts` is one for multipart bodies.
-/

namespace Verif.Http1

/-- What is written for a run does not depend on the pieces of the data. -/
theorem forwardBody_run (h : Handler) (p : Parser) (ks : List Nat) (msg : Bytes) :
    forwardBody (drive h .idle ks ⟨p, []⟩ msg).world.log = forwardBody (flat (drive h .idle ks ⟨p, []⟩ msg).world.log) := by
  obtain ⟨t, h3, h4⟩ := drive_grew h ks .idle ⟨p, []⟩ msg
  rw [show (drive h .idle ks ⟨p, []⟩ msg).world.log = t from h3]
  exact (fb_flat _ _ h4).symm

/-! ## C103 -/

/-- **C103**, chunked bodies. A handler writes down an accepted chunked body as its callbacks come, in whatever slices it
arrives. What it has written, with any bytes after it, is a chunked body again: every client that reads it to its end
accepts it, leaves the bytes after it alone, and is told the same. -/
theorem C103_chunked (h : Handler) (q : Parser) (msg : Bytes) (k : Nat) (ks : List Nat)
    (hf : (drive h .idle (k :: ks) ⟨q.init .chunked, []⟩ msg).last = .finished)
    (h' : Handler) (q' : Parser) (l' : List Ev) (k' : Nat) (ks' : List Nat) (rest : Bytes) :
    let o := drive h .idle (k :: ks) ⟨q.init .chunked, []⟩ msg
    let o' := drive h' .idle (k' :: ks') ⟨q'.init .chunked, l'⟩ (forwardBody o.world.log ++ rest)
    o'.complete → o'.last = .finished ∧ o'.rest = rest ∧ flat o'.world.log = flat l' ++ flat o.world.log := by
  intro o o' hc
  obtain ⟨x, h1, -, h3⟩ := C52_only_chunked_accepted_partial h q [] msg k ks hf
  rw [List.nil_append] at h3
  have hw : forwardBody o.world.log = x.tidy.write := by
    rw [show forwardBody o.world.log = _ from forwardBody_run h _ _ _, h3, LooseBody.forward h1]
  have key : ∀ m : Bytes, m = x.tidy.write → (drive h' .idle (k' :: ks') ⟨q'.init .chunked, l'⟩ (m ++ rest)).complete →
      (drive h' .idle (k' :: ks') ⟨q'.init .chunked, l'⟩ (m ++ rest)).last = .finished ∧
      (drive h' .idle (k' :: ks') ⟨q'.init .chunked, l'⟩ (m ++ rest)).rest = rest ∧
      flat (drive h' .idle (k' :: ks') ⟨q'.init .chunked, l'⟩ (m ++ rest)).world.log = flat l' ++ flat x.events := by
    rintro m rfl hc
    have := C52_all_chunked_accepted h' q' l' x.tidy (LooseBody.tidy_ok h1) rest k' ks' hc
    rwa [flat_app, LooseBody.tidy_means] at this
  obtain ⟨g1, g2, g3⟩ := key _ hw hc
  exact ⟨g1, g2, by rw [show flat o'.world.log = _ from g3, show flat o.world.log = _ from h3]⟩

/-- A chunked body with all kinds of extensions that arrives byte by byte, and what is written for it. -/
example : let m := b!"A; x=\"a\\\"b\";;Y= ;=q\r\n0123456789\r\n0;z\r\n\r\n0\r\nT:  v\r\n w\r\n\r\nrest"
    let o := drive pauses .idle (List.replicate 300 1) ⟨Parser.new.init .chunked, []⟩ m
    o.last = .finished ∧
    forwardBody o.world.log =
      b!"a;x=\"a\\\"b\";=\"\";y;=\"q\"\r\n0123456789\r\n0;z\r\n\r\n0\r\nt: vw\r\n\r\n" ∧
    (drive goOn .idle [100] ⟨Parser.new.init .chunked, []⟩ (forwardBody o.world.log ++ b!"more")).complete := by
  decide +kernel

/-- **C103**, URL-encoded bodies. The same; the client of the second reader tells it how long the body is that was
written. -/
theorem C103_url (h : Handler) (q : Parser) (n : Nat) (msg : Bytes) (k : Nat) (ks : List Nat)
    (hf : (urlRun h q [] n (k :: ks) msg).last = .finished)
    (h' : Handler) (q' : Parser) (l' : List Ev) (k' : Nat) (ks' : List Nat) (rest : Bytes) :
    let o := urlRun h q [] n (k :: ks) msg
    let m' := forwardBody o.world.log
    let o' := urlRun h' q' l' m'.length (k' :: ks') (m' ++ rest)
    o'.complete → o'.last = .finished ∧ o'.rest = rest ∧ flat o'.world.log = flat l' ++ flat o.world.log := by
  intro o m' o' hc
  obtain ⟨x, h1, -, -, h3⟩ := C54_accepted_bodies_partial h q [] n msg k ks hf
  rw [List.nil_append] at h3
  have hw : m' = x.tidy.write := by
    rw [show m' = _ from forwardBody_run h _ _ _, h3, LooseUrl.forward]
  have key : ∀ m : Bytes, m = x.tidy.write → (urlRun h' q' l' m.length (k' :: ks') (m ++ rest)).complete →
      (urlRun h' q' l' m.length (k' :: ks') (m ++ rest)).last = .finished ∧
      (urlRun h' q' l' m.length (k' :: ks') (m ++ rest)).rest = rest ∧
      flat (urlRun h' q' l' m.length (k' :: ks') (m ++ rest)).world.log = flat l' ++ flat (x.events ++ [.bodyFinished]) := by
    rintro m rfl hc
    have := C54_all_bodies_accepted h' q' l' x.tidy x.tidy_ok rest k' ks' hc
    rwa [List.append_assoc, flat_app, flat_app, LooseUrl.tidy_means, ← flat_app] at this
  obtain ⟨g1, g2, g3⟩ := key _ hw hc
  exact ⟨g1, g2, by rw [show flat o'.world.log = _ from g3, show flat o.world.log = _ from h3]⟩

/-- A URL-encoded body with blanks, escapes, empty fields and a field without a name, in slices of two bytes. -/
example : let m := b!"a+b=%3d%26&&;=x&;c"
    let o := urlRun pauses Parser.new [] m.length (List.replicate 300 2) (m ++ b!"rest")
    o.last = .finished ∧ forwardBody o.world.log = b!"a%20b=%3d%26&=&=&=x&=&c" ∧
    (urlRun goOn Parser.new [] (forwardBody o.world.log).length [100] (forwardBody o.world.log ++ b!"more")).complete := by
  decide +kernel

/-- **C103**, multipart bodies. The same; both readers are told the same lengths of parts, and these depend on the header
fields only, not on how these were cut. -/
theorem C103_multipart (h h' : Handler) (hs : SameLengths h h) (hs' : SameLengths h h') (q q' : Parser) (bd : Bytes)
    (hb : bd.length < 16384) (hb' : c! '\r' ∉ bd) (msg : Bytes) (k : Nat) (ks : List Nat)
    (hf : (mpRun h q [] bd (k :: ks) msg).last = .finished) (k' : Nat) (ks' : List Nat) (rest : Bytes) :
    let o := mpRun h q [] bd (k :: ks) msg
    let o' := mpRun h' q' [] bd (k' :: ks') (forwardParts bd o.world.log ++ rest)
    o'.complete → o'.last = .finished ∧ o'.rest = rest ∧ flat o'.world.log = flat o.world.log := by
  intro o o' hc
  obtain ⟨ps, h1, -, h3⟩ := Acc.multipart (env := mpEnv h.contentLength bd) rfl rfl (tr := flat []) (m := msg)
    ((same_sim hs q [] hb hb' k ks msg).fin hf)
  have h3 : flat o.world.log = flat (ps.flatMap LoosePart.events ++ [.bodyFinished]) := h3
  have hw : forwardParts bd o.world.log = writeLoose bd (ps.map LoosePart.tidy) := by
    rw [← parts_forward h1, ← h3]
    obtain ⟨t, h4, h5⟩ := drive_grew h (k :: ks) .idle ⟨(q.init .multipart).setBoundary bd, []⟩ msg
    rw [show o.world.log = t from h4]
    exact (fm_flat _ _ h5).symm
  have H := same_sim hs' q' [] hb hb' k' ks' (forwardParts bd o.world.log ++ rest)
  have hp := pred_loose_mp (env := mpEnv h.contentLength bd) rfl hb' rfl (flat []) rest _ (parts_ok ps [] [] rfl h1)
  rw [← hw] at hp
  obtain ⟨g1, g2, g3⟩ := complete_fin H hc hp
  refine ⟨g1, g3, ?_⟩
  rw [show flat o'.world.log = _ from g2, h3, flat_app, flat_app, parts_means]
  rfl

/-- A part with a nameless field and data with pieces of delimiters, and one of known length; byte by byte. -/
example : let m := b!"--XyZ\r\n x\r\n:v\r\n\r\na\r\r\n-b\r\n--Xy\r\n--X\r\n--XyZ\r\nContent-Length:12\r\n\r\n" ++
      b!"\r\n--XyZ\r\n\r\n\r\r\n--XyZ--rest"
    let o := mpRun tells .new [] b!"XyZ" (List.replicate 200 1) m
    SameLengths tells tells ∧ o.last = .finished ∧
    forwardParts b!"XyZ" o.world.log =
      b!"--XyZ\r\n xv\r\n\r\na\r\r\n-b\r\n--Xy\r\n--X\r\n--XyZ\r\ncontent-length: 12\r\n\r\n" ++
      b!"\r\n--XyZ\r\n\r\n\r\r\n--XyZ--" ∧
    (mpRun tells .new [] b!"XyZ" [200] (forwardParts b!"XyZ" o.world.log ++ b!"more")).complete :=
  ⟨tells_same, by decide +kernel⟩

/-- **C103**, again: passing a body on a second time gives the same bytes. -/
theorem C103_again (h : Handler) (q : Parser) (msg : Bytes) (k : Nat) (ks : List Nat) (h' : Handler) (q' : Parser) (k' : Nat)
    (ks' : List Nat) (rest : Bytes) :
    (let o := drive h .idle (k :: ks) ⟨q.init .chunked, []⟩ msg
     let o' := drive h' .idle (k' :: ks') ⟨q'.init .chunked, []⟩ (forwardBody o.world.log ++ rest)
     o.last = .finished → o'.complete → forwardBody o'.world.log = forwardBody o.world.log) ∧
    ∀ n, let o := urlRun h q [] n (k :: ks) msg
     let m' := forwardBody o.world.log
     let o' := urlRun h' q' [] m'.length (k' :: ks') (m' ++ rest)
     o.last = .finished → o'.complete → forwardBody o'.world.log = m' := by
  constructor
  · intro o o' hf hc
    obtain ⟨-, -, h3⟩ := C103_chunked h q msg k ks hf h' q' [] k' ks' rest hc
    exact (forwardBody_run h' _ _ _).trans ((congrArg forwardBody h3).trans (forwardBody_run h _ _ _).symm)
  · intro n o m' o' hf hc
    obtain ⟨-, -, h3⟩ := C103_url h q n msg k ks hf h' q' [] k' ks' rest hc
    exact (forwardBody_run h' _ _ _).trans ((congrArg forwardBody h3).trans (forwardBody_run h _ _ _).symm)

/-- For instance these. -/
example : let m := b!"a;x=\"q\"\r\n0123456789\r\n0\r\nt: vw\r\n\r\n"
    forwardBody (drive goOn .idle [7, 100] ⟨Parser.new.init .chunked, []⟩ m).world.log = m ∧
    forwardBody (urlRun goOn Parser.new [] 8 [100] b!"a=%26&=b").world.log = b!"a=%26&=b" := by decide +kernel

/-- The same for multipart bodies. -/
theorem C103_again_multipart (h h' : Handler) (hs : SameLengths h h) (hs' : SameLengths h h') (q q' : Parser) (bd : Bytes)
    (hb : bd.length < 16384) (hb' : c! '\r' ∉ bd) (msg : Bytes) (k : Nat) (ks : List Nat)
    (hf : (mpRun h q [] bd (k :: ks) msg).last = .finished) (k' : Nat) (ks' : List Nat) (rest : Bytes) :
    let o := mpRun h q [] bd (k :: ks) msg
    let o' := mpRun h' q' [] bd (k' :: ks') (forwardParts bd o.world.log ++ rest)
    o'.complete → forwardParts bd o'.world.log = forwardParts bd o.world.log := by
  intro o o' hc
  obtain ⟨-, -, h3⟩ := C103_multipart h h' hs hs' q q' bd hb hb' msg k ks hf k' ks' rest hc
  have key : ∀ (h : Handler) (q : Parser) (ks : List Nat) (msg : Bytes),
      forwardParts bd (mpRun h q [] bd ks msg).world.log = forwardParts bd (flat (mpRun h q [] bd ks msg).world.log) := by
    intro h q ks msg
    obtain ⟨t, h4, h5⟩ := drive_grew h ks .idle ⟨(q.init .multipart).setBoundary bd, []⟩ msg
    rw [show (mpRun h q [] bd ks msg).world.log = t from h4]
    exact (fm_flat _ _ h5).symm
  exact (key h' q' _ _).trans ((congrArg (forwardParts bd) h3).trans (key h q _ _).symm)

example : let m := b!"--XyZ\r\na: b\r\n\r\nc\r\n--XyZ\r\n\r\n\r\n--XyZ--"
    forwardParts b!"XyZ" (mpRun tells .new [] b!"XyZ" [9, 100] m).world.log = m := by decide +kernel

end Verif.Http1
