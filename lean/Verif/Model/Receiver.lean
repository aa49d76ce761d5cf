import Verif.Model.Message
import Verif.Lemmas.Measure
/-!
# The blocking receiver and sender (src/receiver.rs, src/sender.rs,
websocket-base/src/ws/receiver.rs, websocket-base/src/ws/sender.rs)
-/

namespace WS

/-- `u32::MAX`. -/
def u32Max : Nat := 2 ^ 32 - 1
/-- `DEFAULT_MAX_DATAFRAME_SIZE`, src/receiver.rs:17 and websocket-base/src/codec/ws.rs:30. -/
def defaultMaxDataframe : Nat := 1024 * 1024 * 100
/-- `DEFAULT_MAX_MESSAGE_SIZE`, src/receiver.rs:18 and websocket-base/src/codec/ws.rs:31. -/
def defaultMaxMessage : Nat := 1024 * 1024 * 200
/-- `MAX_DATAFRAMES_IN_ONE_MESSAGE`, src/receiver.rs:19 and websocket-base/src/codec/ws.rs:32. -/
def maxFrames : Nat := 1024 * 1024
/-- `PER_DATAFRAME_OVERHEAD`, src/receiver.rs:20 and websocket-base/src/codec/ws.rs:33. -/
def overhead : Nat := 64

/-- `Receiver`, src/receiver.rs:79-85. -/
structure Receiver where
  buffer : List DataFrame
  mask : Bool
  maxDf : Nat
  maxMsg : Nat
  deriving DecidableEq, Repr

/-- `Receiver::new_with_limits`, src/receiver.rs:101-110. -/
def Receiver.newWithLimits (mask : Bool) (maxDf maxMsg : Nat) : Receiver :=
  ⟨[], mask, min maxDf u32Max, min maxMsg u32Max⟩

/-- `Receiver::new`, src/receiver.rs:91-93. -/
def Receiver.new (mask : Bool) : Receiver :=
  Receiver.newWithLimits mask defaultMaxDataframe defaultMaxMessage

/-- `recv_dataframe`, src/receiver.rs:119-124. -/
def Receiver.recvDataframe (r : Receiver) : Rd DataFrame :=
  readDataframeWithLimit r.mask r.maxDf

/-- Total payload of the held frames, src/receiver.rs:131 and websocket-base/src/codec/ws.rs:279. -/
def heldLen (fs : List DataFrame) : Nat := (fs.map fun f => f.data.length).sum

/-- The loop `while !finished`, src/receiver.rs:150-183, entered with `finished = false`; on
completion the buffer is taken (src/receiver.rs:185). -/
def recvLoop (r : Receiver) (cur : Nat) (s : Src) : Res (List DataFrame) × Receiver × Src :=
  match h : r.recvDataframe s with
  | (.ok next, s') =>
    if next.opcode.toU8 = 0 then
      let cur' := cur + (next.data.length + overhead)
      let r' := { r with buffer := r.buffer ++ [next] }
      if next.finished then (.ok r'.buffer, { r' with buffer := [] }, s')
      else if r'.buffer.length ≥ maxFrames then
        (.err (.protocol "Exceeded count of data frames in one WebSocket message"), r', s')
      else if cur' ≥ r.maxMsg then
        (.err (.protocol "Exceeded maximum WebSocket message size"), r', s')
      else recvLoop r' cur' s'
    else if next.opcode.toU8 ≥ 8 ∧ next.opcode.toU8 ≤ 15 then (.ok [next], r, s')
    else (.err (.protocol "Unexpected data frame opcode"), r, s')
  | (.err e, s') => (.err e, r, s')
  | (.panic e, s') => (.panic e, r, s')
termination_by s.measure
decreasing_by exact readDataframeWithLimit_lt h

/-- `recv_message_dataframes`, src/receiver.rs:127-186. -/
def Receiver.recvMessageDataframes (r : Receiver) (s : Src) :
    Res (List DataFrame) × Receiver × Src :=
  let cur := heldLen r.buffer
  if r.buffer = [] then
    match r.recvDataframe s with
    | (.ok first, s') =>
      if first.opcode = .continuation then
        (.err (.protocol "Unexpected continuation data frame opcode"), r, s')
      else
        let cur' := cur + (first.data.length + overhead)
        let r' := { r with buffer := r.buffer ++ [first] }
        if first.finished then (.ok r'.buffer, { r' with buffer := [] }, s')
        else recvLoop r' cur' s'
    | (.err e, s') => (.err e, r, s')
    | (.panic e, s') => (.panic e, r, s')
  else recvLoop r cur s

/-- `recv_message`, websocket-base/src/ws/receiver.rs:41-47, with `M = OwnedMessage`. -/
def Receiver.recvMessage (r : Receiver) (s : Src) : Res OwnedMsg × Receiver × Src :=
  match r.recvMessageDataframes s with
  | (.ok fs, r', s') => (OwnedMsg.fromDataframes (fs.map DataFrame.view), r', s')
  | (.err e, r', s') => (.err e, r', s')
  | (.panic e, r', s') => (.panic e, r', s')

/-- `n` successive `recv_message` calls, or `n` items of the `incoming_messages` iterator, which
never ends (websocket-base/src/ws/receiver.rs:71-104). -/
def Receiver.recvMany : Nat → Receiver → Src → List (Res OwnedMsg) × Receiver × Src
  | 0, r, s => ([], r, s)
  | n + 1, r, s =>
    let (x, r', s') := r.recvMessage s
    let (xs, r'', s'') := Receiver.recvMany n r' s'
    (x :: xs, r'', s'')

/-- `Sender`, src/sender.rs:63-79. -/
structure Sender where
  mask : Bool
  deriving DecidableEq, Repr

/-- `send_dataframe` / `send_message`, websocket-base/src/ws/sender.rs:18-35: both end in
`write_to(writer, is_masked)`. `key` is the key `gen_mask` would return. -/
def Sender.send (x : Sender) (v : FrameView) (key : Key4) (w : Sink) : Res Unit × Sink :=
  v.writeTo (if x.mask then some key else none) w

end WS
