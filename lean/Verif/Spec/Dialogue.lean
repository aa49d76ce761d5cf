import Verif.Spec.Talk
import Verif.Model.Dialogue
/-!
# Which pairs of programs can be carried out at all

Two lists of calls, and how far each has come. Nothing here knows about bytes.
-/

namespace WS

/-- The program `mine`, which has made `i` calls, can make the next one, when the program `theirs` has made `j`: it speaks, or it listens
and there is something it has not heard yet, or the other has come to its end. -/
def CanGo (mine theirs : List Talk) (i j : Nat) : Prop :=
  (∃ m key extra, mine[i]? = some (.say m key extra)) ∨
    (mine[i]? = some .hear ∧ (hears (mine.take i) < (said (theirs.take j)).length ∨ j = theirs.length))

/-- How far two programs can come together. -/
inductive Reach (cts sts : List Talk) : Nat → Nat → Prop
  | start : Reach cts sts 0 0
  | client {i j} : Reach cts sts i j → CanGo cts sts i j → Reach cts sts (i + 1) j
  | server {i j} : Reach cts sts i j → CanGo sts cts j i → Reach cts sts i (j + 1)

/-- They can both come to their ends. -/
def Matched (cts sts : List Talk) : Prop := Reach cts sts cts.length sts.length

/-- Every program gets turns again and again, and the network carries again and again. -/
def FairNet (f : Nat → Happens) : Prop :=
  ∀ who n, (∃ m, n ≤ m ∧ f m = .act who) ∧ ∃ m k, n ≤ m ∧ f m = .carry who k

end WS
