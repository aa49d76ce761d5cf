import Verif.Spec.Utf8
/-!
# RFC 6455 sections 5.4–5.6: what a sequence of frames means

Written without model definitions: opcodes are numbers, messages an own type.
-/

namespace WS.Spec

/-- A WebSocket message as the user sees it. -/
inductive Message
  | text (s : List UInt8)
  | binary (b : List UInt8)
  | ping (b : List UInt8)
  | pong (b : List UInt8)
  | close
  | closeWith (code : Nat) (reason : List UInt8)
  deriving DecidableEq, Repr

/-- The message that a payload received under an opcode stands for. -/
inductive Means : Nat → List UInt8 → Message → Prop
  | text {d} (h : IsUtf8 d) : Means 1 d (.text d)
  | binary {d} : Means 2 d (.binary d)
  | ping {d} : Means 9 d (.ping d)
  | pong {d} : Means 10 d (.pong d)
  | close : Means 8 [] .close
  | closeWith {hi lo : UInt8} {r} (h : IsUtf8 r) :
      Means 8 (hi :: lo :: r) (.closeWith (256 * hi.toNat + lo.toNat) r)

/-- One frame as seen by message assembly. -/
structure Fragment where
  opcode : Nat
  reserved : Bool
  payload : List UInt8

/-- "A fragmented message consists of a single frame with … an opcode other than 0, followed by
zero or more frames with … the opcode set to 0 …; reserved bits MUST be 0": the frames `fs`
assemble to the message `m`. -/
def Assembles (fs : List Fragment) (m : Message) : Prop :=
  ∃ first rest, fs = first :: rest ∧ (∀ f ∈ fs, f.reserved = false) ∧
    (∀ f ∈ rest, f.opcode = 0) ∧ Means first.opcode (fs.flatMap Fragment.payload) m

end WS.Spec
