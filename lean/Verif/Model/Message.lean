import Verif.Model.DataFrame
import Verif.Model.Utf8
/-!
# Messages (websocket-base/src/message.rs)
-/

namespace WS

/-- `Type`, websocket-base/src/message.rs:17-28. -/
inductive MsgType
  | text | binary | ping | pong | close
  deriving DecidableEq, Repr

/-- `as u8`, websocket-base/src/message.rs:17-28. -/
def MsgType.toU8 : MsgType → UInt8
  | .text => 1 | .binary => 2 | .ping => 9 | .pong => 10 | .close => 8

/-- `Message`, websocket-base/src/message.rs:39-47. `Cow<[u8]>` is its contents. -/
structure Msg where
  opcode : MsgType
  cdStatusCode : Option UInt16
  payload : Bytes
  deriving DecidableEq, Repr

/-- `Message::text`, websocket-base/src/message.rs:59-71; the argument is the UTF-8 bytes of the string. -/
def Msg.text (s : Bytes) : Msg := ⟨.text, none, s⟩
/-- `Message::binary`, websocket-base/src/message.rs:74-79. -/
def Msg.binary (b : Bytes) : Msg := ⟨.binary, none, b⟩
/-- `Message::close`, websocket-base/src/message.rs:83-85. -/
def Msg.closeEmpty : Msg := ⟨.close, none, []⟩
/-- `Message::close_because`, websocket-base/src/message.rs:90-102. -/
def Msg.closeBecause (code : UInt16) (reason : Bytes) : Msg := ⟨.close, some code, reason⟩
/-- `Message::ping`, websocket-base/src/message.rs:106-111. -/
def Msg.ping (b : Bytes) : Msg := ⟨.ping, none, b⟩
/-- `Message::pong`, websocket-base/src/message.rs:115-120. -/
def Msg.pong (b : Bytes) : Msg := ⟨.pong, none, b⟩

/-- `Message::into_pong`, websocket-base/src/message.rs:126-133: success flag and the updated message. -/
def Msg.intoPong (m : Msg) : Bool × Msg :=
  if m.opcode = .ping then (true, { m with opcode := .pong }) else (false, m)

/-- `impl ws::dataframe::DataFrame for Message`, websocket-base/src/message.rs:136-175. -/
def Msg.view (m : Msg) : FrameView where
  isLast := true
  opcode := m.opcode.toU8
  rsv1 := false
  rsv2 := false
  rsv3 := false
  size := m.payload.length + (if m.cdStatusCode.isSome then 2 else 0)
  writes := match m.cdStatusCode with
    | some code => [beBytes 2 code.toNat, m.payload]
    | none => [m.payload]
  payload := match m.cdStatusCode with
    | some code => beBytes 2 code.toNat ++ m.payload
    | none => m.payload

/-- `CloseData`, websocket-base/src/message.rs:489-494; `reason: String` as its UTF-8 bytes. -/
structure CloseData where
  statusCode : UInt16
  reason : Bytes
  deriving DecidableEq, Repr

/-- `CloseData::into_bytes`, websocket-base/src/message.rs:505-512. -/
def CloseData.intoBytes (c : CloseData) : Bytes := beBytes 2 c.statusCode.toNat ++ c.reason

/-- `OwnedMessage`, websocket-base/src/message.rs:256-271; `String`s as their UTF-8 bytes. -/
inductive OwnedMsg
  | text (s : Bytes)
  | binary (b : Bytes)
  | close (c : Option CloseData)
  | ping (b : Bytes)
  | pong (b : Bytes)
  deriving DecidableEq, Repr

/-- `is_close`, websocket-base/src/message.rs:280-285. -/
def OwnedMsg.isClose : OwnedMsg → Bool
  | .close _ => true
  | _ => false
/-- `is_control`, websocket-base/src/message.rs:296-303. -/
def OwnedMsg.isControl : OwnedMsg → Bool
  | .close _ => true
  | .ping _ => true
  | .pong _ => true
  | _ => false
/-- `is_data`, websocket-base/src/message.rs:313-315. -/
def OwnedMsg.isData (m : OwnedMsg) : Bool := !m.isControl
/-- `is_ping`, websocket-base/src/message.rs:325-330. -/
def OwnedMsg.isPing : OwnedMsg → Bool
  | .ping _ => true
  | _ => false
/-- `is_pong`, websocket-base/src/message.rs:339-344. -/
def OwnedMsg.isPong : OwnedMsg → Bool
  | .pong _ => true
  | _ => false

/-- `impl ws::dataframe::DataFrame for OwnedMessage`, websocket-base/src/message.rs:367-437. -/
def OwnedMsg.view (m : OwnedMsg) : FrameView where
  isLast := true
  opcode := match m with
    | .text _ => MsgType.text.toU8
    | .binary _ => MsgType.binary.toU8
    | .close _ => MsgType.close.toU8
    | .ping _ => MsgType.ping.toU8
    | .pong _ => MsgType.pong.toU8
  rsv1 := false
  rsv2 := false
  rsv3 := false
  size := match m with
    | .text s => s.length
    | .binary b => b.length
    | .ping b => b.length
    | .pong b => b.length
    | .close (some c) => c.reason.length + 2
    | .close none => 0
  writes := match m with
    | .text s => [s]
    | .binary b => [b]
    | .ping b => [b]
    | .pong b => [b]
    | .close (some c) => [beBytes 2 c.statusCode.toNat, c.reason]
    | .close none => []
  payload := match m with
    | .text s => s
    | .binary b => b
    | .ping b => b
    | .pong b => b
    | .close (some c) => beBytes 2 c.statusCode.toNat ++ c.reason
    | .close none => []

/-- `impl From<Message> for OwnedMessage`, websocket-base/src/message.rs:451-470. -/
def Msg.toOwned (m : Msg) : OwnedMsg :=
  match m.opcode with
  | .text => .text (utf8Lossy m.payload)
  | .close =>
    match m.cdStatusCode with
    | some code => .close (some ⟨code, utf8Lossy m.payload⟩)
    | none => .close none
  | .binary => .binary m.payload
  | .ping => .ping m.payload
  | .pong => .pong m.payload

/-- `impl From<OwnedMessage> for Message`, websocket-base/src/message.rs:472-485. -/
def OwnedMsg.toMsg : OwnedMsg → Msg
  | .text s => Msg.text s
  | .binary b => Msg.binary b
  | .close (some c) => Msg.closeBecause c.statusCode c.reason
  | .close none => Msg.closeEmpty
  | .ping b => Msg.ping b
  | .pong b => Msg.pong b

/-- The loop of `from_dataframes`, websocket-base/src/message.rs:203-215 (`i > 0` is tracked by `first`). -/
def collectFrames (first : Bool) (data : Bytes) : List FrameView → Res Bytes
  | [] => .ok data
  | f :: fs =>
    if first = false ∧ f.opcode ≠ Opcode.continuation.toU8 then
      .err (.protocol "Unexpected non-continuation data frame")
    else if f.rsv1 = true ∨ f.rsv2 = true ∨ f.rsv3 = true then
      .err (.protocol "Unsupported reserved bits received")
    else collectFrames false (data ++ f.payload) fs

/-- `Message::from_dataframes`, websocket-base/src/message.rs:189-244. `Vec::with_capacity(payload_size)` may
panic (websocket-base/src/message.rs:201); overflow of the sum itself is not modelled (the sizes belong to
vectors that coexist in memory). -/
def Msg.fromDataframes (frames : List FrameView) : Res Msg :=
  match frames with
  | [] => .err (.protocol "No dataframes provided")
  | first :: _ => do
    let opcode := Opcode.new first.opcode
    let payloadSize := (frames.map FrameView.size).sum
    if payloadSize > isizeMax then Res.panic "capacity overflow"
    else do
    let data ← collectFrames true [] frames
    match opcode with
    | some .text => if utf8Valid data then .ok ⟨.text, none, data⟩ else .err .utf8
    | some .binary => .ok (Msg.binary data)
    | some .close =>
      if data = [] then .ok Msg.closeEmpty
      else
        -- `(&data[..]).read_u16::<BigEndian>()?`
        if data.length < 2 then .err (.ofIo .unexpectedEof)
        -- `&data[2..]` panics if out of range
        else if 2 > data.length then .panic "range start index out of range"
        else if utf8Valid (data.drop 2) then
          .ok (Msg.closeBecause (UInt16.ofNat (beNat (data.take 2))) (data.drop 2))
        else .err .utf8
    | some .ping => .ok (Msg.ping data)
    | some .pong => .ok (Msg.pong data)
    | _ => .err (.protocol "Unsupported opcode received")

/-- `OwnedMessage::from_dataframes`, websocket-base/src/message.rs:359-364. -/
def OwnedMsg.fromDataframes (frames : List FrameView) : Res OwnedMsg := do
  let m ← Msg.fromDataframes frames
  pure m.toOwned

end WS
