import Verif.Http1.Client

/-!
# Specification: how much is handed to the handler

Used by C98. The measure does not look at the parser.
-/

namespace Verif.Http1

/-- How many bytes of data a callback carries (src/http1/http_handler.rs lines 61-302). -/
def Ev.size : Ev → Nat
  | .method d | .url d | .status d | .headerName d | .headerValue d | .chunkData d | .chunkExtensionName d
  | .chunkExtensionValue d | .multipartData d | .urlEncodedName d | .urlEncodedValue d => d.length
  | _ => 0

/-- How many bytes of data the callbacks carry together. -/
def handed (l : List Ev) : Nat := (l.map Ev.size).sum

/-- A run over `n` bytes that started after the callbacks `l` handed over at most `n` bytes and made at most
`n + extra` callbacks; if it came to an end, only the bytes that were processed count. -/
def Frugal (l : List Ev) (n extra : Nat) (o : Outcome) : Prop :=
  ∃ t, o.world.log = l ++ t ∧ handed t ≤ n ∧ t.length ≤ n + extra ∧
    (o.last = .finished ∨ (∃ e, o.last = .err e ∧ ∀ b, e ≠ .multipartBoundary b) →
      handed t + o.rest.length ≤ n ∧ t.length + o.rest.length ≤ n + extra)

end Verif.Http1
