import Verif.Model.Receiver
import Verif.Model.BytesMut
/-!
# The async codecs (websocket-base/src/codec/ws.rs)
-/

namespace WS

/-- `Context`, websocket-base/src/codec/ws.rs:43-50. -/
inductive Context
  | server | client
  deriving DecidableEq, Repr

/-- `DataFrameCodec`, websocket-base/src/codec/ws.rs:67-71. -/
structure DfCodec where
  isServer : Bool
  maxDf : Nat
  deriving DecidableEq, Repr

/-- `DataFrameCodec::new_with_limits`, websocket-base/src/codec/ws.rs:97-104. -/
def DfCodec.newWithLimits (c : Context) (maxDf : Nat) : DfCodec :=
  ⟨decide (c = .server), min maxDf u32Max⟩

/-- `DataFrameCodec::new`, websocket-base/src/codec/ws.rs:93-95. -/
def DfCodec.new (c : Context) : DfCodec := DfCodec.newWithLimits c defaultMaxDataframe

/-- `DataFrameCodec::decode`, websocket-base/src/codec/ws.rs:112-148: the result and what is left in the input
buffer. The cursor over the buffer is the script with one chunk; its position is the
buffer length minus what is left of it. Overflow of `header.len + bytes_read` (debug
builds panic) and out-of-range `split_to` are explicit panics. -/
def DfCodec.decode (c : DfCodec) (src : Bytes) : Res (Option DataFrame) × Bytes :=
  match readHeader [.chunk src] with
  | (.err .noData, _) => (.ok none, src)
  | (.err e, _) => (.err e, src)
  | (.panic e, _) => (.panic e, src)
  | (.ok header, s') =>
    let bytesRead := src.length - s'.flat.length
    if header.len > c.maxDf then
      (.err (.protocol "Exceeded maximum incoming DataFrame size"), src)
    else if header.len + bytesRead ≥ 2 ^ 64 then (.panic "attempt to add with overflow", src)
    else if header.len + bytesRead > src.length then (.ok none, src)
    else if bytesRead > src.length then (.panic "split_to out of bounds", src)
    else
      let src1 := src.drop bytesRead
      if header.len > src1.length then (.panic "split_to out of bounds", src1)
      else
        let body := src1.take header.len
        let src2 := src1.drop header.len
        match readDataframeBody header body c.isServer with
        | .ok f => (.ok (some f), src2)
        | .err e => (.err e, src2)
        | .panic e => (.panic e, src2)

/-- `Encoder::encode`, websocket-base/src/codec/ws.rs:158-165 (data frames) and 336-343 (messages): reserve,
then `write_to`. `key` is the key `gen_mask` returns, `extra` the allocator's generosity. -/
def encodeInto (isServer : Bool) (v : FrameView) (key : Key4) (extra : Nat) (dst : BytesMut) :
    Res Unit × BytesMut :=
  let masked := !isServer
  let frameSize := v.frameSize masked
  let dst := if frameSize > dst.remainingMut then dst.reserve frameSize extra else dst
  match v.encode (if masked then some key else none) with
  | .ok data =>
    match dst.writeAll data with
    | (.ok _, dst') => (.ok (), dst')
    | (.error k, dst') => (.err (.ofIo k), dst')
  | .err e => (.err e, dst)
  | .panic e => (.panic e, dst)

/-- `MessageCodec`, websocket-base/src/codec/ws.rs:219-227. -/
structure MsgCodec where
  buffer : List DataFrame
  df : DfCodec
  maxMsg : Nat
  deriving DecidableEq, Repr

/-- `MessageCodec::new_with_limits`, websocket-base/src/codec/ws.rs:260-268. -/
def MsgCodec.newWithLimits (c : Context) (maxDf maxMsg : Nat) : MsgCodec :=
  ⟨[], DfCodec.newWithLimits c maxDf, min maxMsg u32Max⟩

/-- `MessageCodec::new`, websocket-base/src/codec/ws.rs:256-258. -/
def MsgCodec.new (c : Context) : MsgCodec :=
  MsgCodec.newWithLimits c defaultMaxDataframe defaultMaxMessage

/-- What one turn of the loop in `MessageCodec::decode` does with a frame: leave the loop with
a result, or continue. -/
inductive FrameStep
  | done (r : Res (Option OwnedMsg)) (buffer : List DataFrame)
  | next (buffer : List DataFrame) (cur : Nat)
  deriving DecidableEq, Repr

/-- Body of the loop, websocket-base/src/codec/ws.rs:281-322. -/
def MsgCodec.onFrame (maxMsg : Nat) (buffer : List DataFrame) (cur : Nat) (frame : DataFrame) :
    FrameStep :=
  let isFirst := decide (buffer = [])
  let finished := frame.finished
  if frame.opcode.toU8 = 0 ∧ isFirst = true then
    .done (.err (.protocol "Unexpected continuation data frame opcode")) buffer
  else if 8 ≤ frame.opcode.toU8 ∧ frame.opcode.toU8 ≤ 15 then
    .done (do let m ← OwnedMsg.fromDataframes [frame.view]; pure (some m)) buffer
  else if 1 ≤ frame.opcode.toU8 ∧ frame.opcode.toU8 ≤ 7 ∧ isFirst = false then
    .done (.err (.protocol "Unexpected data frame opcode")) buffer
  else
    let cur' := cur + (frame.data.length + overhead)
    let buffer' := buffer ++ [frame]
    if finished then
      .done (do let m ← OwnedMsg.fromDataframes (buffer'.map DataFrame.view); pure (some m)) []
    else if buffer'.length ≥ maxFrames then
      .done (.err (.protocol "Exceeded count of data frames in one WebSocket message")) buffer'
    else if cur' > maxMsg then
      .done (.err (.protocol "Exceeded maximum WebSocket message size")) buffer'
    else .next buffer' cur'

end WS
