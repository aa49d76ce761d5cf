import Verif.Model.Header
/-!
# Data frames (websocket-base/src/dataframe.rs, websocket-base/src/ws/dataframe.rs)
-/

namespace WS

/-- `Opcode`, websocket-base/src/dataframe.rs:155-188. -/
inductive Opcode
  | continuation | text | binary
  | nonControl1 | nonControl2 | nonControl3 | nonControl4 | nonControl5
  | close | ping | pong
  | control1 | control2 | control3 | control4 | control5
  deriving DecidableEq, Repr

/-- The numeric value (`as u8`), websocket-base/src/dataframe.rs:155-188. -/
def Opcode.toU8 : Opcode → UInt8
  | .continuation => 0 | .text => 1 | .binary => 2
  | .nonControl1 => 3 | .nonControl2 => 4 | .nonControl3 => 5 | .nonControl4 => 6
  | .nonControl5 => 7
  | .close => 8 | .ping => 9 | .pong => 10
  | .control1 => 11 | .control2 => 12 | .control3 => 13 | .control4 => 14 | .control5 => 15

/-- `Opcode::new`, websocket-base/src/dataframe.rs:195-215. -/
def Opcode.new (n : UInt8) : Option Opcode :=
  if n = 0 then some .continuation
  else if n = 1 then some .text
  else if n = 2 then some .binary
  else if n = 3 then some .nonControl1
  else if n = 4 then some .nonControl2
  else if n = 5 then some .nonControl3
  else if n = 6 then some .nonControl4
  else if n = 7 then some .nonControl5
  else if n = 8 then some .close
  else if n = 9 then some .ping
  else if n = 10 then some .pong
  else if n = 11 then some .control1
  else if n = 12 then some .control2
  else if n = 13 then some .control3
  else if n = 14 then some .control4
  else if n = 15 then some .control5
  else none

/-- `DataFrame`, websocket-base/src/dataframe.rs:18-27; `reserved: [bool; 3]` as three fields. -/
structure DataFrame where
  finished : Bool
  rsv1 : Bool
  rsv2 : Bool
  rsv3 : Bool
  opcode : Opcode
  data : Bytes
  deriving DecidableEq, Repr

/-- `DataFrame::new`, websocket-base/src/dataframe.rs:31-38. -/
def DataFrame.new (finished : Bool) (opcode : Opcode) (data : Bytes) : DataFrame :=
  ⟨finished, false, false, false, opcode, data⟩

/-- What a type implementing the trait `ws::dataframe::DataFrame`
(websocket-base/src/ws/dataframe.rs:14-50) presents to the provided methods: `is_last`, `opcode`,
`reserved`, `size`, the sequence of `write_all` calls made by `write_payload`, and the
vector returned by `take_payload`. -/
structure FrameView where
  isLast : Bool
  opcode : UInt8
  rsv1 : Bool
  rsv2 : Bool
  rsv3 : Bool
  size : Nat
  writes : List Bytes
  payload : Bytes
  deriving DecidableEq, Repr

/-- `impl ws::DataFrame for DataFrame`, websocket-base/src/dataframe.rs:120-151. -/
def DataFrame.view (f : DataFrame) : FrameView where
  isLast := f.finished
  opcode := f.opcode.toU8
  rsv1 := f.rsv1
  rsv2 := f.rsv2
  rsv3 := f.rsv3
  size := f.data.length
  writes := [f.data]
  payload := f.data

/-- `frame_size`, websocket-base/src/ws/dataframe.rs:27-44. -/
def FrameView.frameSize (v : FrameView) (masked : Bool) : Nat :=
  1 + (if v.size ≤ 125 then 1 else if v.size ≤ 65535 then 3 else 9)
    + (if masked then 4 else 0) + v.size

/-- Consecutive `write_all` calls on a `Vec<u8>`. -/
def vecWrites (out : Bytes) : List Bytes → Bytes
  | [] => out
  | b :: bs => vecWrites (out ++ b) bs

/-- Consecutive `write_all` calls on a `Masker` over a `Vec<u8>`. -/
def maskerWrites (m : Masker) : List Bytes → Except IoKind Unit × Masker
  | [] => (.ok (), m)
  | b :: bs =>
    match m.writeAll b with
    | (.ok _, m') => maskerWrites m' bs
    | (.error k, m') => (.error k, m')

/-- The header composed by `write_to`, websocket-base/src/ws/dataframe.rs:54-77; `key` is the random masking key,
present iff `mask` was requested (websocket-base/src/ws/dataframe.rs:70). -/
def FrameView.header (v : FrameView) (key : Option Key4) : Header where
  flags := (if v.isLast then FIN else 0) ||| (if v.rsv1 then RSV1 else 0) |||
    (if v.rsv2 then RSV2 else 0) ||| (if v.rsv3 then RSV3 else 0)
  opcode := v.opcode
  mask := key
  len := v.size

/-- The buffer built by `write_to`, websocket-base/src/ws/dataframe.rs:79-88. -/
def FrameView.encode (v : FrameView) (key : Option Key4) : Res Bytes := do
  let hdr ← writeHeader (v.header key)
  match key with
  | some k =>
    match maskerWrites (Masker.new k ⟨hdr, []⟩) v.writes with
    | (.ok _, m) => .ok m.out.wire
    | (.error e, _) => .err (.ofIo e)
  | none => .ok (vecWrites hdr v.writes)

/-- `write_to`, websocket-base/src/ws/dataframe.rs:53-92, into an arbitrary writer. -/
def FrameView.writeTo (v : FrameView) (key : Option Key4) (w : Sink) : Res Unit × Sink :=
  match v.encode key with
  | .ok data =>
    match w.writeAll data with
    | (.ok _, w') => (.ok (), w')
    | (.error k, w') => (.err (.ofIo k), w')
  | .err e => (.err e, w)
  | .panic m => (.panic m, w)

/-- `read_dataframe_body`, websocket-base/src/dataframe.rs:44-82. -/
def readDataframeBody (h : Header) (body : Bytes) (shouldBeMasked : Bool) : Res DataFrame :=
  match Opcode.new h.opcode with
  | none => .panic "Invalid header opcode!"
  | some opcode =>
    let mk (data : Bytes) : DataFrame :=
      { finished := flagContains h.flags FIN
        rsv1 := flagContains h.flags RSV1
        rsv2 := flagContains h.flags RSV2
        rsv3 := flagContains h.flags RSV3
        opcode := opcode
        data := data }
    match h.mask with
    | some mask =>
      if !shouldBeMasked then .err (.dataFrame "Expected unmasked data frame")
      else .ok (mk (maskData mask body))
    | none =>
      if shouldBeMasked then .err (.dataFrame "Expected masked data frame")
      else .ok (mk body)

/-- `isize::MAX` on a 64-bit target: `Vec::with_capacity` above this panics with
"capacity overflow". -/
def isizeMax : Nat := 2 ^ 63 - 1

/-- `Vec::with_capacity(len as usize)`; `usize` is 64 bit so the cast is the identity. -/
def vecWithCapacity (n : Nat) : Rd Unit :=
  if n > isizeMax then Rd.lift (.panic "capacity overflow") else pure ()

/-- `reader.take(len).read_to_end(&mut data)?` followed by the length check,
websocket-base/src/dataframe.rs:92-95 and 111-114. -/
def readPayload (n : Nat) : Rd Bytes := fun s =>
  match takeToEnd n s with
  | (.ok b, s') => if b.length < n then (.err (.ofIo .unexpectedEof), s') else (.ok b, s')
  | (.error k, s') => (.err (.ofIo k), s')

/-- `read_dataframe`, websocket-base/src/dataframe.rs:85-98. -/
def readDataframe (shouldBeMasked : Bool) : Rd DataFrame := do
  let h ← readHeader
  vecWithCapacity h.len
  let data ← readPayload h.len
  Rd.lift (readDataframeBody h data shouldBeMasked)

/-- `read_dataframe_with_limit`, websocket-base/src/dataframe.rs:101-117. -/
def readDataframeWithLimit (shouldBeMasked : Bool) (limit : Nat) : Rd DataFrame := do
  let h ← readHeader
  if h.len > limit then Rd.fail (.ofIo .invalidData)
  else do
    vecWithCapacity h.len
    let data ← readPayload h.len
    Rd.lift (readDataframeBody h data shouldBeMasked)

end WS
