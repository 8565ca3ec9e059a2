import Verif.Http1.Client
import Verif.Http1.ChunkSpec
import Verif.Http1.UrlSpec
import Verif.Http1.MpSpec

/-!
# Specification: a connection

A peer writes heads and bodies one after the other; one parser reads them all. After every message the
client decides, from the callbacks so far, what to read next. Used by C73.
-/

namespace Verif.Http1

/-! ## The client -/

/-- What a client may ask of the parser. -/
inductive Mode
  | head | chunked | form (length : Nat) | multipart (boundary : Bytes)
deriving DecidableEq, Repr

/-- The calls with which it asks: `init` and, depending on the kind, `set_length` or `set_boundary`
(src/http1/parser.rs lines 170-196 and 322-330). -/
def Mode.prepare : Mode → Parser → Parser
  | .head, p => p.init .head
  | .chunked, p => p.init .chunked
  | .form n, p => (p.init .urlEncoded).setLength n
  | .multipart bd, p => (p.init .multipart).setBoundary bd

/-- Like `drive`, but when a message ends and `next`, asked with the history of callbacks, wants another
one, the client prepares the same parser for it and goes on with the bytes that were not processed. -/
def serve (h : Handler) (next : List Ev → Option Mode) : End → List Nat → World → Bytes → Outcome
  | last, [], w, rem => ⟨last, w, rem⟩
  | _, k :: ks, w, rem =>
    match resume h w (rem.take k) with
    | (.ok (.callback n), w') => serve h next .callback ks w' (rem.drop n)
    | (.ok (.eos n), w') => serve h next .eos ks w' (rem.drop n)
    | (.ok (.finished n), w') =>
      match next w'.log with
      | none => ⟨.finished, w', rem.drop n⟩
      | some m => serve h next .idle ks ⟨m.prepare w'.p, w'.log⟩ (rem.drop n)
    | (.err e, w') => ⟨.err e, w', rem.drop (w'.p.byteCount - w.p.byteCount)⟩
    | (.panic, w') => ⟨.panic, w', rem⟩
    | (.ub, w') => ⟨.ub, w', rem⟩
    | (.diverge, w') => ⟨.diverge, w', rem⟩

/-! ## The peer -/

/-- What a peer writes; blanks may stand before a head. -/
inductive Item
  | request (blanks : Bytes) (x : Request)
  | response (blanks : Bytes) (x : Response)
  | chunked (x : ChunkedBody)
  | form (x : UrlBody)
  | emptyForm
  | multipart (boundary : Bytes) (ps : List Part)
deriving DecidableEq, Repr

/-- The bytes. -/
def Item.write : Item → Bytes
  | .request bl x => bl ++ x.write
  | .response bl x => bl ++ x.write
  | .chunked x => x.write
  | .form x => x.write
  | .emptyForm => []
  | .multipart bd ps => writeParts bd ps

/-- What it means. -/
def Item.events : Item → List Ev
  | .request _ x => x.events
  | .response _ x => x.events
  | .chunked x => x.events
  | .form x => x.events ++ [.bodyFinished]
  | .emptyForm => [.bodyFinished]
  | .multipart _ ps => ps.flatMap Part.events ++ [.bodyFinished]

/-- What the client has to ask for. -/
def Item.mode : Item → Mode
  | .request _ _ | .response _ _ => .head
  | .chunked _ => .chunked
  | .form x => .form x.write.length
  | .emptyForm => .form 0
  | .multipart bd _ => .multipart bd

/-- Well-formed, after the callbacks `l`; `cl` is what the handler answers when it is asked for the content
length of a part. Restrictions of the parser: those of the kinds of messages; and boundaries are of
less than 2^14 bytes and without CR. -/
def Item.OK (cl : List Ev → Option Nat) (l : List Ev) : Item → Prop
  | .request bl x => (∀ b ∈ bl, b ∈ b!" \t\r\n") ∧ x.OK
  | .response bl x => (∀ b ∈ bl, b ∈ b!" \t\r\n") ∧ x.OK
  | .chunked x => x.OK
  | .form x => x.OK
  | .emptyForm => True
  | .multipart bd ps => bd.length < 16384 ∧ c! '\r' ∉ bd ∧ PartsOK cl bd l ps

/-- A restriction of the parser (C72): a method that starts with `H` has to arrive in a call with nine
bytes of the head. `ks` are the lengths of the slices. -/
def Item.Fits (ks : List Nat) : Item → Prop
  | .request bl x => x.method.head? = some (c! 'H') → bl = [] ∧ ∀ k ∈ ks, 9 ≤ k
  | _ => True

/-- The client, after the callbacks `l`, will ask for each of these items, and for `stop` after them;
however the data was cut into callbacks (`l'`). The items are well-formed. -/
def Follows (cl : List Ev → Option Nat) (next : List Ev → Option Mode) (stop : Option Mode) :
    List Ev → Item → List Item → Prop
  | l, x, [] => x.OK cl l ∧ ∀ l', flat l' = flat (l ++ x.events) → next l' = stop
  | l, x, y :: ys => x.OK cl l ∧ (∀ l', flat l' = flat (l ++ x.events) → next l' = some y.mode) ∧
      Follows cl next stop (l ++ x.events) y ys

end Verif.Http1
