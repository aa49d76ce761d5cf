import Verif.Model.Mask
/-!
# Data frame headers (websocket-base/src/ws/util/header.rs)
-/

namespace WS

/-- `DataFrameFlags::FIN`, websocket-base/src/ws/util/header.rs:11. -/
def FIN : UInt8 := 0x80
/-- `DataFrameFlags::RSV1`, websocket-base/src/ws/util/header.rs:13. -/
def RSV1 : UInt8 := 0x40
/-- `DataFrameFlags::RSV2`, websocket-base/src/ws/util/header.rs:15. -/
def RSV2 : UInt8 := 0x20
/-- `DataFrameFlags::RSV3`, websocket-base/src/ws/util/header.rs:17. -/
def RSV3 : UInt8 := 0x10

/-- `DataFrameHeader`, websocket-base/src/ws/util/header.rs:22-32.  `flags` are the bits of `DataFrameFlags`; `len`
is a `u64` kept as a natural number. -/
structure Header where
  flags : UInt8
  opcode : UInt8
  mask : Option Key4
  len : Nat
  deriving DecidableEq, Repr

/-- `flags.contains(x)` of the `bitflags` crate. -/
def flagContains (bits x : UInt8) : Bool := bits &&& x == x

/-- `DataFrameFlags::from_bits_truncate`: keeps the four defined bits. -/
def fromBitsTruncate (b : UInt8) : UInt8 := b &&& (FIN ||| RSV1 ||| RSV2 ||| RSV3)

/-- Big-endian bytes of the low `8*n` bits (`write_u16` / `write_u64` of byteorder; the
value is truncated as by an `as` cast). -/
def beBytes : Nat → Nat → Bytes
  | 0, _ => []
  | n + 1, v => UInt8.ofNat (v / 256 ^ n) :: beBytes n v

/-- `write_header`, websocket-base/src/ws/util/header.rs:35-70, writing into a `Vec` (its only use,
websocket-base/src/ws/dataframe.rs:79-80), which never fails. Returns the bytes appended. -/
def writeHeader (h : Header) : Res Bytes :=
  if h.opcode > 0xF then .err (.dataFrame "Invalid data frame opcode")
  else if h.opcode ≥ 8 ∧ h.len ≥ 126 then .err (.dataFrame "Control frame length too long")
  else
    let b0 := h.flags ||| h.opcode
    let b1 : UInt8 :=
      (if h.mask.isSome then 0x80 else 0x00) |||
      (if h.len ≤ 125 then UInt8.ofNat h.len else if h.len ≤ 65535 then 126 else 127)
    let ext :=
      if h.len ≥ 126 ∧ h.len ≤ 65535 then beBytes 2 h.len
      else if h.len > 65535 then beBytes 8 h.len
      else []
    let mask := (h.mask.map Key4.toBytes).getD []
    .ok ([b0, b1] ++ ext ++ mask)

/-- The payload length part of `read_header`, websocket-base/src/ws/util/header.rs:83-101. -/
def readLen (byte1 : UInt8) : Rd Nat :=
  let l7 := byte1 &&& 0x7F
  if l7 ≤ 125 then pure l7.toNat
  else if l7 = 126 then do
    let len ← Rd.u16
    if len ≤ 125 then Rd.fail (.dataFrame "Invalid data frame length") else pure len
  else do
    let len ← Rd.u64
    if len ≤ 65535 then Rd.fail (.dataFrame "Invalid data frame length") else pure len

/-- The masking key part of `read_header`, websocket-base/src/ws/util/header.rs:116-125. -/
def readMask (byte1 : UInt8) : Rd (Option Key4) :=
  if byte1 &&& 0x80 = 0x80 then do
    let a ← Rd.u8
    let b ← Rd.u8
    let c ← Rd.u8
    let d ← Rd.u8
    pure (some ⟨a, b, c, d⟩)
  else pure none

/-- `read_header`, websocket-base/src/ws/util/header.rs:73-132. -/
def readHeader : Rd Header := do
  let byte0 ← Rd.u8
  let byte1 ← Rd.u8
  let len ← readLen byte1
  if (byte0 &&& 0x0F) ≥ 8 ∧ len ≥ 126 then
    Rd.fail (.dataFrame "Control frame length too long")
  else if (byte0 &&& 0x0F) ≥ 8 ∧ flagContains (fromBitsTruncate byte0) FIN = false then
    Rd.fail (.protocol "Illegal fragmented control frame")
  else do
    let mask ← readMask byte1
    pure { flags := fromBitsTruncate byte0, opcode := byte0 &&& 0x0F, mask := mask, len := len }

end WS
