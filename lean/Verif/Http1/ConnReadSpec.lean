import Verif.Http1.ReadSpec
import Verif.Http1.ConnSpec
import Verif.Http1.DetectSpec

/-!
# What any bytes mean as a connection

Not part of the code: the descriptions of heads and bodies (`Verif.Http1.ReadSpec`), one after the other. Used by C115.
-/

namespace Verif.Http1.Read

/-- What the bytes `r` mean when the client has asked for `m`. `lossy` is for heads as in C74, `cl` tells the lengths of
parts. -/
def mode (cl : List Ev → Option Nat) (lossy : Bool) : Mode → Bytes → Tale
  | .head, r => head lossy r
  | .chunked, r => chunked r
  | .form n, r => form n r
  | .multipart bd, r => multipart cl bd r

/-- The bytes `r` mean `t` when the client, after the callbacks `past`, has asked for `m`, and asks for what `next` says
after each message. `how` tells which readings are possible. -/
inductive Conn (cl : List Ev → Option Nat) (next : List Ev → Option Mode) (how : Mode → Bytes → Bool → Prop) :
    Mode → List Ev → Bytes → Tale → Prop
  /-- a message that does not come to its end -/
  | broken {m past r lossy} : how m r lossy → (∀ r', (mode (fun es => cl (flat past ++ es)) lossy m r).ending ≠ .done r') →
      Conn cl next how m past r (mode (fun es => cl (flat past ++ es)) lossy m r)
  /-- the last message -/
  | last {m past r lossy es r'} : how m r lossy → mode (fun es => cl (flat past ++ es)) lossy m r = ⟨es, .done r'⟩ →
      next (past ++ es) = none → Conn cl next how m past r ⟨es, .done r'⟩
  /-- a message, and others after it -/
  | more {m past r lossy es r' m' t} : how m r lossy → mode (fun es => cl (flat past ++ es)) lossy m r = ⟨es, .done r'⟩ →
      next (past ++ es) = some m' → Conn cl next how m' (past ++ es) r' t → Conn cl next how m past r (say es t)

/-- The boundaries have less than 2^14 bytes and no CR. -/
def Bounded : Mode → Prop
  | .multipart bd => bd.length < 16384 ∧ c! '\r' ∉ bd
  | _ => True

end Verif.Http1.Read
