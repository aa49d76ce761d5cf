import Verif.Model.Base64
import Verif.Model.Sha1
/-!
# `WebSocketKey` and `WebSocketAccept` (websocket-base/src/header.rs, src/header/key.rs,
src/header/accept.rs)

The wrappers in src/header/key.rs:12-42 and src/header/accept.rs:13-38 only delegate to the types of
websocket-base and are identified with them. Texts are byte strings.
-/

namespace WS

/-- `WebSocketKey([u8; 16])`, websocket-base/src/header.rs:24. -/
structure WsKey where
  bytes : Bytes
  len : bytes.length = 16
  deriving DecidableEq, Repr

/-- `WebSocketAccept([u8; 20])`, websocket-base/src/header.rs:71. -/
structure WsAccept where
  bytes : Bytes
  len : bytes.length = 20
  deriving DecidableEq, Repr

/-- `WebSocketKey::serialize`, websocket-base/src/header.rs:61-64. -/
def WsKey.serialize (k : WsKey) : Bytes := b64Encode k.bytes

/-- `WebSocketKey::from_str`, websocket-base/src/header.rs:35-51. -/
def WsKey.fromStr [B64] (t : Bytes) : Res WsKey :=
  match B64.decode t with
  | some vec =>
    if h : vec.length = 16 then .ok ⟨vec, h⟩
    else .err (.protocol "Sec-WebSocket-Key must be 16 bytes")
  | none => .err (.protocol "Invalid Sec-WebSocket-Accept")

/-- `MAGIC_GUID`, websocket-base/src/header.rs:67. -/
def magicGuid : Bytes := ascii "258EAFA5-E914-47DA-95CA-C5AB0DC85B11"

theorem sha1_len (m : Bytes) : (sha1 m).length = 20 := rfl

/-- `WebSocketAccept::new`, websocket-base/src/header.rs:103-110. -/
def WsAccept.new (k : WsKey) : WsAccept :=
  ⟨sha1 (k.serialize ++ magicGuid), sha1_len _⟩

/-- `WebSocketAccept::serialize`, websocket-base/src/header.rs:112-115. -/
def WsAccept.serialize (a : WsAccept) : Bytes := b64Encode a.bytes

/-- `WebSocketAccept::from_str`, websocket-base/src/header.rs:82-98. -/
def WsAccept.fromStr [B64] (t : Bytes) : Res WsAccept :=
  match B64.decode t with
  | some vec =>
    if h : vec.length = 20 then .ok ⟨vec, h⟩
    else .err (.protocol "Sec-WebSocket-Accept must be 20 bytes")
  | none => .err (.protocol "Invalid Sec-WebSocket-Accept ")

end WS
