import Verif.Model.Hall
import Verif.Spec.Bureau
/-!
# What examples/async-autobahn-server.rs owes to anybody

Made on all bytes of a peer at once.
-/

namespace WS
open Spec

/-- What the bytes that came are to the server: every opening handshake is granted, and no subprotocol is selected. The head ends with the first blank line. -/
def openReception [B64] (p : ReqParser) (B : Bytes) : Reception :=
  match splitOffHttp B with
  | none => .waits
  | some (head, rest) =>
    match p.parse head with
    | .complete m _ =>
      match validate m.subject.method m.version m.headers, m.headers.getKey with
      | .ok (), some key => .serves (head101 m.version (responseLines [] none key)) rest
      | _, _ => .drops
    | _ => .drops

/-- What the server has to say to a peer that has said `ms`. -/
def echoing (ms : List Message) : List Message := ms.filterMap Message.reply

/-- As `Unmistakable` (C88): the bytes settle what the library makes of them. -/
structure Unclouded [B64] (p : ReqParser) (B : Bytes) : Prop where
  head : Clearcut p B
  calm : ∀ written rest, openReception p B = .serves written rest →
    ∀ n, .err msgLimitErr ∉ ((Framed.new (MsgCodec.newWithLimits .server (100 * 2 ^ 20) (200 * 2 ^ 20))).nextMany msgDecoder n (allOf rest)).1

/-- What may have been written to a peer at any time. -/
def MayHaveEchoed (wire : Bytes) (fin : Bool) : Reception → Prop
  | .serves written rest => ∃ ms out, Course (deskHears rest) ms ∧ wire <+: written ++ out ∧
      (Says false (echoing (ms.map OwnedMsg.spec)) out ∨
        (Parted ms ∨ deskHears rest ms.length = .ended ∧ fin = true) ∧ Says false (echoing (ms.map OwnedMsg.spec) ++ [.close]) out)
  | _ => wire = []

/-- What has been written to a peer that the server has let go of. -/
def EchoLetGo (wire : Bytes) (fin : Bool) : Reception → Prop
  | .serves written rest => ∃ ms out, Course (deskHears rest) ms ∧
      ((Parted ms ∨ deskHears rest ms.length = .ended ∧ fin = true) ∧ Says false (echoing (ms.map OwnedMsg.spec) ++ [.close]) out ∧ wire = written ++ out ∨
        ¬ Parted ms ∧ deskHears rest ms.length = .failed ∧ Says false (echoing (ms.map OwnedMsg.spec)) out ∧ wire <+: written ++ out)
  | .waits => fin = true ∧ wire = []
  | _ => wire = []

/-- What the server owes to a peer in the end: it has written this, and let go or not. -/
def HasEchoed (wire : Bytes) (gone fin : Bool) : Reception → Prop
  | .serves written rest => ∃ ms out, Course (deskHears rest) ms ∧ Exhausted (deskHears rest) ms ∧
      (gone = false ∧ fin = false ∧ ¬ Parted ms ∧ Says false (echoing (ms.map OwnedMsg.spec)) out ∧ wire = written ++ out ∨
        gone = true ∧ (Parted ms ∨ deskHears rest ms.length = .ended ∧ fin = true) ∧ Says false (echoing (ms.map OwnedMsg.spec) ++ [.close]) out ∧ wire = written ++ out ∨
        gone = true ∧ ¬ Parted ms ∧ deskHears rest ms.length = .failed ∧ Says false (echoing (ms.map OwnedMsg.spec)) out ∧ wire <+: written ++ out)
  | .waits => wire = [] ∧ gone = fin
  | _ => wire = [] ∧ gone = true

/-- The peer's bytes are the beginning of an opening handshake or more, and it does not hang up before the end of the head. -/
def Decent (fin : Bool) : Reception → Prop
  | .serves _ _ => True
  | .waits => fin = false
  | _ => False

end WS
