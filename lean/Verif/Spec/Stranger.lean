import Verif.Model.Stranger
import Verif.Spec.Adaptive
import Verif.Lemmas.Talk
import Verif.Props.EndToEnd
/-!
# What a program goes through that is told one thing after the other

`Heeds` knows nothing of bytes, frames, cuts or turns.
-/

namespace WS

/-- The bytes that have come, all of them in order; what comes behind the end of the stream does not count. -/
def came : List Brings → Bytes
  | [] => []
  | .turn :: es => came es
  | .bytes b :: es => b ++ came es
  | .finish :: _ => []

/-- The end of the stream has come. -/
def finished : List Brings → Bool
  | [] => false
  | .finish :: _ => true
  | _ :: es => finished es

/-- What may be sent: a control message carries at most 125 bytes (RFC 6455, 5.5). -/
def mayBeSent : OwnedMsg → Bool
  | .text _ => true
  | .binary _ => true
  | .ping b => decide (b.length ≤ 125)
  | .pong b => decide (b.length ≤ 125)
  | .close none => true
  | .close (some c) => decide (c.reason.length + 2 ≤ 125)

/-- What can have happened to the program `plan` when the `n`-th of its receiving calls, counted from 0, returns `hearing n`, and its sends succeed if the message may be
sent: after each call it does what it does after that. -/
inductive Heeds (plan : Plan) (hearing : Nat → Heard) : List Event → Prop
  | start : Heeds plan hearing []
  | said {past m} : Heeds plan hearing past → plan past = some (.say m) → Heeds plan hearing (past ++ [.said m (mayBeSent m)])
  | heard {past} : Heeds plan hearing past → plan past = some .hear → Heeds plan hearing (past ++ [.heard (hearing (hearsIn past))])

/-- The messages sent with success. -/
def sentIn : List Event → List OwnedMsg
  | [] => []
  | .said m true :: es => m :: sentIn es
  | _ :: es => sentIn es

/-- What the program comes to say are values of the Rust type: texts are UTF-8, and they fit into memory. -/
def Plan.Typed (plan : Plan) (hearing : Nat → Heard) : Prop :=
  ∀ past m, Heeds plan hearing past → plan past = some (.say m) → m.Valid ∧ ∀ b, (m = .text b ∨ m = .binary b) → b.length ≤ isizeMax

/-- A transport that has all of `B` at once, and then the end. -/
def allOf (B : Bytes) : Src := if B = [] then [] else [.chunk B]

/-- What the `n`-th of successive calls of `recv_message`, counted from 0, says on a new blocking client when all of `B` is there. -/
def blockingHears (isServer : Bool) (maxDf maxMsg : Nat) (B : Bytes) (n : Nat) : Heard :=
  (((Receiver.newWithLimits isServer maxDf maxMsg).recvMany (n + 1) (allOf B)).1[n]?).elim .failed .ofRes

/-- What the `n`-th item of a new async stream says when all of `B` is there. -/
def asyncHears (ctx : Context) (maxDf maxMsg : Nat) (B : Bytes) (n : Nat) : Heard :=
  (((Framed.new (MsgCodec.newWithLimits ctx maxDf maxMsg)).nextMany msgDecoder (n + 1) (allOf B)).1[n]?).elim .failed .ofItem

/-- A client that has just been handed over, to a program that will get the bytes `B`, on a transport that takes what it is given: what it sends is masked or not, and what its
receiving calls say. An async client must not report its message limit, because where it does depends on how the bytes are cut (C23). -/
inductive Stands (B : Bytes) : Party → Bool → (Nat → Heard) → Prop
  | blocking (isServer : Bool) (maxDf maxMsg : Nat) (w : Sink) (hw : w.Willing) :
    Stands B (.blocking isServer maxDf maxMsg [] w) (!isServer) (blockingHears isServer maxDf maxMsg B)
  | async (ctx : Context) (maxDf maxMsg : Nat) (w : Sink) (hw : w.Patient)
    (hl : ∀ n, .err msgLimitErr ∉ ((Framed.new (MsgCodec.newWithLimits ctx maxDf maxMsg)).nextMany msgDecoder n (allOf B)).1) :
    Stands B (.async ctx maxDf maxMsg [] w) (!decide (ctx = .server)) (asyncHears ctx maxDf maxMsg B)

end WS
