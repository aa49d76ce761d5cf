import Verif.Model.DataFrame
import Verif.Spec.Frame
/-! Reading model values as the objects the specifications talk about. -/

namespace WS

/-- A data frame as an RFC frame. -/
def DataFrame.spec (f : DataFrame) : Spec.Frame :=
  ⟨f.finished, f.rsv1, f.rsv2, f.rsv3, f.opcode.toU8.toNat, f.data⟩

/-- What a frame-like object announces, as an RFC frame. -/
def FrameView.spec (v : FrameView) : Spec.Frame :=
  ⟨v.isLast, v.rsv1, v.rsv2, v.rsv3, v.opcode.toNat, v.payload⟩

/-- The contract between the methods of the `DataFrame` trait: `size` is the number of payload
bytes, and `write_payload` writes what `take_payload` returns. -/
structure FrameView.Lawful (v : FrameView) : Prop where
  size_eq : v.size = v.payload.length
  writes_eq : v.writes.flatten = v.payload

end WS
