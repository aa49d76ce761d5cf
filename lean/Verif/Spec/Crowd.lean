import Verif.Model.Crowd
import Verif.Spec.Reception
/-!
# Who has sent what
-/

namespace WS
open Spec

/-- How many have connected. -/
def connected : List Occurs → Nat
  | [] => 0
  | .connects :: es => connected es + 1
  | _ :: es => connected es

/-- What peer `i` has done, if `n` had connected before; a peer does nothing before it has connected. -/
def doings (i : Nat) : Nat → List Occurs → List Brings
  | _, [] => []
  | n, .connects :: es => doings i (n + 1) es
  | n, .bytes j b :: es => if j = i ∧ j < n then .bytes b :: doings i n es else doings i n es
  | n, .finish j :: es => if j = i ∧ j < n then .finish :: doings i n es else doings i n es
  | n, .main :: es => doings i n es
  | n, .thread _ :: es => doings i n es

/-- The bytes peer `i` has sent. -/
def sentBy (i : Nat) (es : List Occurs) : Bytes := came (doings i 0 es)

/-- Peer `i` has closed its side. -/
def hungUp (i : Nat) (es : List Occurs) : Bool := finished (doings i 0 es)

/-- Only the server does something, and both its main thread and the thread of connection `i` do. -/
def Round (i : Nat) (r : List Occurs) : Prop := (∀ e ∈ r, e = .main ∨ ∃ j, e = .thread j) ∧ .main ∈ r ∧ .thread i ∈ r

/-- The peer keeps the main thread waiting: its head is not whole, not hopeless, and it has not hung up. -/
def Dawdles [B64] (preq : ReqParser) (i : Nat) (es : List Occurs) : Prop := reception preq (sentBy i es) = .waits ∧ hungUp i es = false

/-- What may have been written to a peer at any time (see C85). -/
def MayBeWritten (wire : Bytes) : Reception → Prop
  | .waits => wire = []
  | .drops => wire = []
  | .rejects x => wire = [] ∨ wire = x
  | .serves written rest => wire = [] ∨ wire = written ∨
      ∃ ms out, Course (hostHears rest) ms ∧ wire = written ++ out ∧ Says false (screen (ms.map OwnedMsg.spec)) out

/-- What has been written to a peer that the server has hung up on. -/
def HungUpOn (wire : Bytes) (fin : Bool) : Reception → Prop
  | .waits => fin = true ∧ wire = []
  | .drops => wire = []
  | .rejects x => wire = x
  | .serves written rest => ∃ ms out, Course (hostHears rest) ms ∧ wire = written ++ out ∧ Says false (screen (ms.map OwnedMsg.spec)) out ∧
      (Parted ms ∨ hostHears rest ms.length = .failed ∨ (hostHears rest ms.length = .ended ∧ fin = true))

/-- The server has done all that it owes to a peer. -/
def Paid (wire : Bytes) (gone fin : Bool) : Reception → Prop
  | .waits => wire = [] ∧ gone = fin
  | .drops => wire = [] ∧ gone = true
  | .rejects x => wire = x ∧ gone = true
  | .serves written rest => ∃ ms out, Course (hostHears rest) ms ∧ Exhausted (hostHears rest) ms ∧ wire = written ++ out ∧ Says false (screen (ms.map OwnedMsg.spec)) out ∧
      (gone = false ↔ ¬ Parted ms ∧ hostHears rest ms.length = .ended ∧ fin = false)

end WS
