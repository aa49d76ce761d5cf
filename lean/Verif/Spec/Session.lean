import Verif.Spec.Frame
import Verif.Spec.Message
/-!
# RFC 6455 section 5.4: what a stream of frames delivers

Independent of the model: frames and messages of the specification, byte strings.
-/

namespace WS.Spec

/-- A frame as seen by message assembly. -/
def Frame.fragment (f : Frame) : Fragment := ⟨f.opcode, f.rsv1 || f.rsv2 || f.rsv3, f.payload⟩

/-- The bytes on the wire are the layouts of these frames one after the other, all masked (client
to server) or all unmasked (server to client). -/
inductive Wire (masked : Bool) : List Frame → List UInt8 → Prop
  | nil : Wire masked [] []
  | cons {f : Frame} {fs : List Frame} {key : Option (List UInt8)} {bs rest : List UInt8}
      (h : IsFrame f key bs) (hk : key.isSome = masked) (hr : Wire masked fs rest) :
      Wire masked (f :: fs) (bs ++ rest)

/-- A data frame is allowed here: the first frame of a message has an opcode other than 0 and the
following ones opcode 0. -/
def Allowed (held : List Frame) (f : Frame) : Prop :=
  (held = [] ∧ f.opcode ≠ 0 ∧ f.opcode < 8) ∨ (held ≠ [] ∧ f.opcode = 0)

/-- With the fragments `held` of an unfinished message, the frames `fs` deliver the messages `ms`
in this order and leave the fragments `held'`. Control frames may come in between. `fits` says
which unfinished messages the receiver is ready to hold. -/
inductive Delivers (fits : List Frame → Prop) : List Frame → List Frame → List Message → List Frame → Prop
  | nil {held} : Delivers fits held [] [] held
  | control {held f fs m ms held'} (hc : 8 ≤ f.opcode) (hok : ControlOk f) (hm : Assembles [f.fragment] m)
      (hr : Delivers fits held fs ms held') : Delivers fits held (f :: fs) (m :: ms) held'
  | part {held f fs ms held'} (ha : Allowed held f) (hf : f.fin = false) (hfit : fits (held ++ [f]))
      (hr : Delivers fits (held ++ [f]) fs ms held') : Delivers fits held (f :: fs) ms held'
  | final {held f fs m ms held'} (ha : Allowed held f) (hf : f.fin = true)
      (hm : Assembles ((held ++ [f]).map Frame.fragment) m)
      (hr : Delivers fits [] fs ms held') : Delivers fits held (f :: fs) (m :: ms) held'

/-- Size of an unfinished message as the limits count it: 64 bytes per frame are added. -/
def weight (held : List Frame) : Nat := (held.map fun f => f.payload.length + 64).sum

/-- Unfinished messages that stay within a message limit (blocking receiver: from the second frame
on the size must stay below it). -/
def FitsBlocking (maxMsg : Nat) (held : List Frame) : Prop :=
  held.length < 2 ^ 20 ∧ (held.length = 1 ∨ weight held < maxMsg)

/-- Unfinished messages that stay within a message limit (async codec). -/
def FitsAsync (maxMsg : Nat) (held : List Frame) : Prop :=
  held.length < 2 ^ 20 ∧ weight held ≤ maxMsg

end WS.Spec
