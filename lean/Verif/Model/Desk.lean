import Verif.Model.AsyncWhole
/-!
# examples/async-server.rs, and a peer that does as it likes

In Model/AsyncWhole the other end of the connection is examples/async-client.rs. Here there is anybody at all: bytes come in, of whatever kind, or the end of the stream does, and the future that
has to do with this connection is polled, from the moment the connection has been accepted by the operating system on. Every poll finds some of the bytes that have come and some room for what it writes.

Simplifications: those of Model/AsyncWhole; the transport does not fail.
-/

namespace WS

/-- One connection of the server. -/
structure Desk where
  door : DoorPhase
  /-- as in `AsyncWhole.tasks.server` -/
  task : ServeTask
  /-- the bytes that have come and have not been read -/
  waiting : Bytes
  /-- the peer has closed its side -/
  ended : Bool

/-- No code of the repository, but the network and tokio's executor. What can happen next. -/
inductive Befalls
  /-- a future is polled; its reads find up to `n` of the bytes that have come, and its writes up to `k` bytes of room -/
  | poll (n k : Nat)
  /-- these bytes arrive -/
  | bytes (b : Bytes)
  /-- the peer has closed its side of the connection -/
  | finish
  deriving DecidableEq, Repr

/-- The connection is let go: a bad client (examples/async-server.rs:28-34), or `reject` is through (examples/async-server.rs:45). -/
def Desk.drops (x : Desk) : Desk := { x with door := .dropped, task := { x.task with phase := .over .returned } }

/-- As `AsyncWhole.asked`: `validate` (src/server/upgrade/async.rs:246-262) and what examples/async-server.rs:40-50 does about the request, up to the encoding of the response
(src/server/upgrade/async.rs:105-119 and :148-158). -/
def Desk.asked [B64] (x : Desk) (msg : Request) (buffer : Bytes) : Desk :=
  match validate msg.subject.method msg.version msg.headers with
  | .error _ => x.drops
  | .ok () =>
    let u : AsyncUpgrade := ⟨[], ⟨[], ⟨[], []⟩⟩, msg, buffer⟩
    if rustWebsocket ∈ u.protocols then
      match (Upgrade.useProtocol rustWebsocket u).prepareHeaders none with
      | .ok (status, u) =>
        if u.headers.writable = false then x.drops
        else { x with door := .answering true,
                      task := { x.task with
                        read := updateFramedCodec (MsgCodec.newWithLimits .server defaultMaxDataframe defaultMaxMessage) (Framed.fromParts () u.buffer),
                        out := x.task.out.head ((u.response status).fmt resLine) } }
      | _ => x.drops
    else { x with door := .answering false, task := { x.task with out := x.task.out.head ((u.response badRequest).fmt resLine) } }

/-- As `AsyncWhole.serve`: one poll of `into_ws` (src/server/upgrade/async.rs:235-265), of `accept` (src/server/upgrade/async.rs:105-131) or `reject`, or of what comes behind them
(examples/async-server.rs:52-68). -/
def Desk.poll [B64] (preq : ReqParser) (x : Desk) (n k : Nat) : Desk :=
  match x.door with
  | .reading fr =>
    let s := offered x.waiting n x.ended
    match fr.poll (httpDecoder preq) s with
    | (y, fr, s') =>
      let x := { x with waiting := x.waiting.drop (used s s') }
      match y with
      | .notReady => { x with door := .reading fr }
      | .ready (.item msg) => x.asked msg fr.buf
      | .ready _ => x.drops
  | .answering accepted =>
    match x.task.out.flush (granted k k) with
    | (.ready, o) =>
      let x := { x with task := { x.task with out := o } }
      if accepted then { x with door := .through } else x.drops
    | (.notReady, o) => { x with task := { x.task with out := o } }
    | (_, o) => Desk.drops { x with task := { x.task with out := o } }
  | .through =>
    let s := offered x.waiting n x.ended
    match x.task.turn s (granted k k) with
    | (t, s') => { x with task := t, waiting := x.waiting.drop (used s s') }
  | .dropped => x

/-- One thing happens to the connection (examples/async-server.rs:25-68). Nothing comes behind the end of the stream. -/
def Desk.meets [B64] (preq : ReqParser) (x : Desk) : Befalls → Desk
  | .poll n k => x.poll preq n k
  | .bytes b => if x.ended then x else { x with waiting := x.waiting ++ b }
  | .finish => { x with ended := true }

/-- What has become of the connection after all that. -/
def Desk.endures [B64] (preq : ReqParser) (x : Desk) (es : List Befalls) : Desk := es.foldl (Desk.meets preq) x

/-- The connection has just been accepted (src/server/async.rs:64-77). -/
def Desk.start (keys : Nat → Key4) (extra : Nat) : Desk :=
  ⟨.reading (Framed.new ()), ⟨.greet, Framed.new (MsgCodec.newWithLimits .server defaultMaxDataframe defaultMaxMessage), ⟨FramedWrite.new true, [], keys, extra⟩, []⟩, [], false⟩

/-- The server has let go of the connection: a bad client, `reject` is through, or the future given to `spawn_future` is ready (examples/async-server.rs:70). -/
def Desk.gone (x : Desk) : Bool := x.task.phase.isOver

end WS
