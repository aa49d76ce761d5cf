import Verif.Base
/-!
# `bytes::BytesMut` 0.4 (dependency model)

Only contents and capacity. `reserve` may allocate more than asked; how much more is a
parameter.
-/

namespace WS

/-- A `BytesMut`: contents and capacity. -/
structure BytesMut where
  data : Bytes
  cap : Nat
  deriving DecidableEq, Repr

/-- The capacity is at least the length. -/
def BytesMut.WF (b : BytesMut) : Prop := b.data.length ≤ b.cap

/-- `BufMut::remaining_mut` (bytes 0.4): capacity minus length. -/
def BytesMut.remainingMut (b : BytesMut) : Nat := b.cap - b.data.length

/-- `BytesMut::reserve(n)`: afterwards at least `n` more bytes fit; `extra` is the
allocator's generosity. -/
def BytesMut.reserve (n extra : Nat) (b : BytesMut) : BytesMut :=
  if n ≤ b.remainingMut then b else { b with cap := b.data.length + n + extra }

/-- `Write for Writer<&mut BytesMut>` (bytes 0.4): writes as much as fits. -/
def BytesMut.write (bs : Bytes) (b : BytesMut) : Nat × BytesMut :=
  let n := min b.remainingMut bs.length
  (n, { b with data := b.data ++ bs.take n })

/-- `write_all` over that writer: a second `write` after a short one gets `Ok(0)`, hence
`WriteZero`. -/
def BytesMut.writeAll (bs : Bytes) (b : BytesMut) : Except IoKind Unit × BytesMut :=
  if bs = [] then (.ok (), b)
  else
    let (n, b') := b.write bs
    if n < bs.length then (.error .writeZero, b') else (.ok (), b')

end WS
