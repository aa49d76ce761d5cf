import Verif.Spec.Heard
/-! Receiving sometimes whole messages and sometimes single frames. -/

namespace WS.Spec

/-- What a receiving call gives. -/
inductive Got
  | frame (f : Frame)
  | message (m : Message)
  deriving DecidableEq

/-- After the fragments `held`, the bytes fall into consecutive stretches, one for each receiving call: a single frame, or the frames that complete one message
(together with the fragments held before, not counting the frames taken singly). -/
inductive Mixed (masked : Bool) (maxDf maxMsg : Nat) : List Frame → List Got → List UInt8 → List Frame → Prop
  | nil {held} : Mixed masked maxDf maxMsg held [] [] held
  | frame {held f key bs gots rest held'} (h : IsFrame f key bs) (hk : key.isSome = masked) (hl : f.payload.length ≤ maxDf) (hc : ControlOk f)
      (hr : Mixed masked maxDf maxMsg held gots rest held') : Mixed masked maxDf maxMsg held (.frame f :: gots) (bs ++ rest) held'
  | message {held m bs held₁ gots rest held'} (h : Carried masked maxDf maxMsg held bs [m] held₁)
      (hr : Mixed masked maxDf maxMsg held₁ gots rest held') : Mixed masked maxDf maxMsg held (.message m :: gots) (bs ++ rest) held'

/-- The messages among the answers. -/
def messages : List Got → List Message
  | [] => []
  | .frame _ :: gs => messages gs
  | .message m :: gs => m :: messages gs

end WS.Spec
