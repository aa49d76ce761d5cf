import Verif.Model.Bureau
import Verif.Spec.Desk
/-!
# Who has sent what, and what each is owed
-/

namespace WS
open Spec

/-- How many have connected. -/
def visitors : List Occasion → Nat
  | [] => 0
  | .connects :: es => visitors es + 1
  | _ :: es => visitors es

/-- What peer `i` has done, if `n` had connected before; a peer does nothing before it has connected. -/
def visitsOf (i : Nat) : Nat → List Occasion → List Befalls
  | _, [] => []
  | n, .connects :: es => visitsOf i (n + 1) es
  | n, .bytes j b :: es => if j = i ∧ j < n then .bytes b :: visitsOf i n es else visitsOf i n es
  | n, .finish j :: es => if j = i ∧ j < n then .finish :: visitsOf i n es else visitsOf i n es
  | n, .main _ :: es => visitsOf i n es
  | n, .task _ _ _ :: es => visitsOf i n es

/-- The bytes peer `i` has sent. -/
def broughtBy (i : Nat) (es : List Occasion) : Bytes := brought (visitsOf i 0 es)

/-- Peer `i` has closed its side. -/
def leftBy (i : Nat) (es : List Occasion) : Bool := endedBy (visitsOf i 0 es)

/-- Anything happens, but peer `i` does nothing, and the server goes on with its connection: the main future polls it at least once, and so does its task; each poll finds something if there is anything,
and some room. -/
structure Attention (i : Nat) (r : List Occasion) : Prop where
  quiet : ∀ e ∈ r, (∀ b, e ≠ .bytes i b) ∧ e ≠ .finish i
  main : ∃ ps, .main ps ∈ r ∧ ∃ n, (i, n) ∈ ps
  task : ∃ n k, .task i n k ∈ r
  found : ∀ ps n, .main ps ∈ r → (i, n) ∈ ps → 0 < n
  room : ∀ n k, .task i n k ∈ r → 0 < n ∧ 0 < k

/-- The first `j` of a sequence of rounds. -/
def roundsOf (rs : Nat → List Occasion) (j : Nat) : List Occasion := ((List.range j).map rs).flatten

/-- What may have been written to a peer at any time (see C88). -/
def MayHaveGot (wire : Bytes) (fin : Bool) : Reception → Prop
  | .waits => wire = []
  | .drops => wire = []
  | .rejects x => wire <+: x
  | .serves written rest => ∃ ms out, Course (deskHears rest) ms ∧ wire <+: written ++ out ∧
      (Says false (welcome (ms.map OwnedMsg.spec)) out ∨
        (Parted ms ∨ deskHears rest ms.length = .ended ∧ fin = true) ∧ Says false (welcome (ms.map OwnedMsg.spec) ++ [.close]) out)

/-- What has been written to a peer that the server has let go of (see C88). -/
def LetGoOf (wire : Bytes) (fin : Bool) : Reception → Prop
  | .waits => fin = true ∧ wire = []
  | .drops => wire = []
  | .rejects x => wire = x
  | .serves written rest => ∃ ms out, Course (deskHears rest) ms ∧
      ((Parted ms ∨ deskHears rest ms.length = .ended ∧ fin = true) ∧ Says false (welcome (ms.map OwnedMsg.spec) ++ [.close]) out ∧ wire = written ++ out ∨
        ¬ Parted ms ∧ deskHears rest ms.length = .failed ∧ Says false (welcome (ms.map OwnedMsg.spec)) out ∧ wire <+: written ++ out)

/-- What the server owes to a peer in the end: it has written this, and let go or not (see C88). -/
def Quits (wire : Bytes) (gone fin : Bool) : Reception → Prop
  | .waits => wire = [] ∧ gone = fin
  | .drops => wire = [] ∧ gone = true
  | .rejects x => wire = x ∧ gone = true
  | .serves written rest => ∃ ms out, Course (deskHears rest) ms ∧ Exhausted (deskHears rest) ms ∧
      (gone = false ∧ fin = false ∧ ¬ Parted ms ∧ Says false (welcome (ms.map OwnedMsg.spec)) out ∧ wire = written ++ out ∨
        gone = true ∧ (Parted ms ∨ deskHears rest ms.length = .ended ∧ fin = true) ∧ Says false (welcome (ms.map OwnedMsg.spec) ++ [.close]) out ∧ wire = written ++ out ∨
        gone = true ∧ ¬ Parted ms ∧ deskHears rest ms.length = .failed ∧ Says false (welcome (ms.map OwnedMsg.spec)) out ∧ wire <+: written ++ out)

end WS
