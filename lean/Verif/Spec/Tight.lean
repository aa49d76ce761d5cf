import Verif.Spec.Dialogue
/-!
# How much two programs leave lying in the network
-/

namespace WS

/-- The length of a frame with `n` bytes of payload (RFC 6455 section 5.2). -/
def onWire (mask : Bool) (n : Nat) : Nat := (if n ≤ 125 then 2 else if n ≤ 65535 then 4 else 10) + (if mask then 4 else 0) + n

/-- The bytes that `mine`, which has made `i` calls, has said and `theirs`, which has made `j`, has not heard. -/
def unheard (mask : Bool) (mine theirs : List Talk) (i j : Nat) : Nat :=
  (((said (mine.take i)).drop (hears (theirs.take j))).map fun x => onWire mask x.1.view.spec.payload.length).sum

/-- The programs can come to their ends without ever going on while they have more lying in the network than there is room for. -/
inductive ReachIn (up down : Nat) (cts sts : List Talk) : Nat → Nat → Prop
  | start : ReachIn up down cts sts 0 0
  | client {i j} : ReachIn up down cts sts i j → CanGo cts sts i j → unheard true cts sts i j ≤ up → ReachIn up down cts sts (i + 1) j
  | server {i j} : ReachIn up down cts sts i j → CanGo sts cts j i → unheard false sts cts j i ≤ down → ReachIn up down cts sts i (j + 1)

/-- They can come to their ends, and what is left at last fits at least on one of the two ways. -/
def FitsIn (up down : Nat) (cts sts : List Talk) : Prop :=
  ReachIn up down cts sts cts.length sts.length ∧
    (unheard true cts sts cts.length sts.length ≤ up ∨ unheard false sts cts sts.length cts.length ≤ down)

/-- Two calls that belong together: one speaks, the other listens. -/
inductive Opposite : Talk → Talk → Prop
  | say (m key extra) : Opposite (.say m key extra) .hear
  | hear (m key extra) : Opposite .hear (.say m key extra)

end WS
