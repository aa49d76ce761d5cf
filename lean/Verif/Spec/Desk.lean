import Verif.Model.Desk
import Verif.Spec.Reception
/-!
# What examples/async-server.rs owes to anybody

Made on all bytes at once; nothing here knows of cuts, polls or buffers.
-/

namespace WS
open Spec

/-- The bytes that have come, all of them in order; what comes behind the end of the stream does not count. -/
def brought : List Befalls → Bytes
  | [] => []
  | .poll _ _ :: es => brought es
  | .bytes b :: es => b ++ brought es
  | .finish :: _ => []

/-- The end of the stream has come. -/
def endedBy : List Befalls → Bool
  | [] => false
  | .finish :: _ => true
  | _ :: es => endedBy es

/-- What the bytes that came are to the server: a request for the subprotocol `rust-websocket` is granted, another is answered with a 400, and what is no opening handshake is not answered. The
head ends with the first blank line. -/
def asyncReception [B64] (p : ReqParser) (B : Bytes) : Reception :=
  match splitOffHttp B with
  | none => .waits
  | some (head, rest) =>
    match p.parse head with
    | .complete m _ =>
      match validate m.subject.method m.version m.headers, m.headers.getKey with
      | .ok (), some key =>
        if rustWebsocket ∈ m.headers.getProtocol.getD [] then .serves (head101 m.version (responseLines [.useProtocol rustWebsocket] none key)) rest
        else .rejects (head400 m.version [])
      | _, _ => .drops
    | _ => .drops

/-- What the stream says when `rest` comes behind the request and then the end; the limits are the library's. -/
def deskHears (rest : Bytes) : Nat → Heard := asyncHears .server (100 * 2 ^ 20) (200 * 2 ^ 20) rest

/-- What the server has to say to a peer that has said `ms`. -/
def welcome (ms : List Message) : List Message := .text (ascii "Hello World!") :: ms.filterMap Message.reply

/-- The bytes settle what the library makes of them: what comes up to the first blank line is a head or cannot be one (`Clearcut`), and the message limit is not reported (otherwise it depends on how
the bytes are cut what an async program makes of them: C42, C23). -/
structure Unmistakable [B64] (p : ReqParser) (B : Bytes) : Prop where
  head : Clearcut p B
  calm : ∀ written rest, asyncReception p B = .serves written rest →
    ∀ n, .err msgLimitErr ∉ ((Framed.new (MsgCodec.newWithLimits .server (100 * 2 ^ 20) (200 * 2 ^ 20))).nextMany msgDecoder n (allOf rest)).1

/-- A schedule of polls: the `i`-th finds up to `(f i).1` bytes and room for `(f i).2`. -/
def polledBy (f : Nat → Nat × Nat) (j : Nat) : List Befalls := (List.range j).map fun i => .poll (f i).1 (f i).2

/-- What the server sees of the two programs and the network of Model/AsyncWhole. -/
def deskOf (x : AsyncWhole) : Desk := ⟨x.door, x.tasks.server, x.tasks.upTransit, x.tasks.chat.phase.isOver⟩

end WS
