import Verif.Spec.Session
/-! Which messages a stretch of bytes carries; used for what a receiver may deliver. -/

namespace WS.Spec

/-- Unfinished messages a receiver may be holding: fewer than 2^20 frames and, unless there is only one, a payload below the message
limit. -/
def FitsLoosely (maxMsg : Nat) (held : List Frame) : Prop :=
  held.length < 2 ^ 20 ∧ (held.length = 1 ∨ (held.map fun f => f.payload.length).sum + 64 ≤ maxMsg)

/-- After the fragments `held`, the bytes `bs` are complete frames that carry exactly the messages `ms` and leave the
fragments `held'`. -/
def Carried (masked : Bool) (maxDf maxMsg : Nat) (held : List Frame) (bs : List UInt8) (ms : List Message) (held' : List Frame) : Prop :=
  ∃ frames, Wire masked frames bs ∧ (∀ f ∈ frames, f.payload.length ≤ maxDf ∧ ControlOk f) ∧
    Delivers (FitsLoosely maxMsg) held frames ms held'

end WS.Spec
