import Verif.Model.Tasks
import Verif.Model.Mains
/-!
# examples/async-client.rs and examples/async-server.rs, from the first byte of the request on

Both tasks of Model/Tasks, with the handshake: the client's task begins inside `async_connect_insecure` with a new connection, its typing thread has already started
(examples/async-client.rs:28), and the server's begins inside `into_ws` with the other end of the connection. One move polls one of the futures of the handshake once
(`send` of the head, `into_future` of the stream), with the functions of Model/Framed and Model/HttpCodec; after the handshake a move is one of Model/Tasks. What a poll has
decoded or left in a buffer is where the next one goes on; nothing is tried and forgotten.

The sending half (`Tandem.chat.out`, `Tandem.server.out`) is the one of the connection from its first byte on, so that bytes are counted from there on.
-/

namespace WS

/-- Where the client's task is, examples/async-client.rs:56-59 (src/client/builder.rs:790-811). -/
inductive CallPhase
  /-- `framed.send(request)`, src/client/builder.rs:792 -/
  | asking
  /-- `stream.into_future()`, src/client/builder.rs:795 -/
  | awaiting (fr : Framed Unit)
  /-- the closure, examples/async-client.rs:60-76 -/
  | through
  /-- the future has failed, and `unwrap()` of examples/async-client.rs:78 has panicked; `none` if a poll has -/
  | failed (e : Option ConnectErr)

/-- Where the server's task is, examples/async-server.rs:25-52. -/
inductive DoorPhase
  /-- `into_future()` in `into_ws`, src/server/upgrade/async.rs:238 -/
  | reading (fr : Framed Unit)
  /-- `send` of the response, src/server/upgrade/async.rs:119 (accepted) and :158 -/
  | answering (accepted : Bool)
  /-- the closures behind `accept`, examples/async-server.rs:52-68 -/
  | through
  /-- a bad client (examples/async-server.rs:30), a rejected one, or the future has failed -/
  | dropped

/-- What is given from outside: the nonce, what `gen_mask` will return, and the allocator's generosity on both sides. -/
structure AsyncGiven where
  fresh : WsKey
  keys : Nat → Key4
  skeys : Nat → Key4
  cx : Nat
  sx : Nat

/-- Both programs and the network. -/
structure AsyncWhole where
  call : CallPhase
  door : DoorPhase
  /-- the two tasks as after the handshake; before it only what has been typed, the sending halves and the numbers of bytes read are in use -/
  tasks : Tandem

/-- The builder of examples/async-client.rs:56-58 after `build_request`, src/client/builder.rs:780, and the request. -/
def chatCall (fresh : WsKey) : Builder × Request :=
  match ((Builder.init chatUrl).run chatOps).buildRequest fresh with
  | (resource, b) => (b, ⟨b.version, ⟨.get, resource⟩, b.headers⟩)

/-- A head has been encoded into the sink (`start_send` inside `send`): src/client/builder.rs:792, src/server/upgrade/async.rs:119. -/
def Outbox.head (o : Outbox) (bytes : Bytes) : Outbox := { o with sink := { o.sink with buf := httpEncode bytes o.extra o.sink.buf } }

/-- The connection has been made; the request is in the client's sink (src/client/builder.rs:780-792), and nothing has been written. `writable` is that no header makes `encode` panic
(`formatPanic`). -/
def AsyncWhole.start (g : AsyncGiven) (lines : List Bytes) : AsyncWhole :=
  match chatCall g.fresh with
  | (b, request) =>
    let x := Tandem.start lines b.maxDf b.maxMsg defaultMaxDataframe defaultMaxMessage g.keys g.skeys g.cx g.sx
    if b.headers.writable = false then ⟨.failed none, .reading (Framed.new ()), { x with chat := { x.chat with phase := .over .panicked } }⟩
    else ⟨.asking, .reading (Framed.new ()), { x with chat := { x.chat with out := x.chat.out.head (request.fmt reqLine) } }⟩

/-- The client's future has failed: `block_on(runner).unwrap()`, examples/async-client.rs:78. -/
def AsyncWhole.callFails (x : AsyncWhole) (e : Option ConnectErr) : AsyncWhole :=
  { x with call := .failed e, tasks := { x.tasks with chat := { x.tasks.chat with phase := .over .panicked } } }

/-- The server lets go of the connection. -/
def AsyncWhole.doorDrops (x : AsyncWhole) : AsyncWhole :=
  { x with door := .dropped, tasks := { x.tasks with server := { x.tasks.server with phase := .over .returned } } }

/-- One poll of the client's future: `send`, `into_future`, `validate` and `update_framed_codec` of src/client/builder.rs:790-809, then examples/async-client.rs:60-76. -/
def AsyncWhole.chat [B64] (pres : ResParser) (g : AsyncGiven) (r : Room) (x : AsyncWhole) (n k : Nat) : AsyncWhole :=
  match x.call with
  | .asking =>
    match x.tasks.chat.out.flush (granted (r.up - x.tasks.upTransit.length) k) with
    | (.ready, o) => { x with call := .awaiting (Framed.new ()), tasks := { x.tasks with chat := { x.tasks.chat with out := o } } }
    | (.notReady, o) => { x with tasks := { x.tasks with chat := { x.tasks.chat with out := o } } }
    | (.err e, o) => AsyncWhole.callFails { x with tasks := { x.tasks with chat := { x.tasks.chat with out := o } } } (some (.ofCodec e))
    | (.panic _, o) => AsyncWhole.callFails { x with tasks := { x.tasks with chat := { x.tasks.chat with out := o } } } none
  | .awaiting fr =>
    let s := offered x.tasks.downTransit n x.tasks.server.phase.isOver
    match fr.poll (httpDecoder pres) s with
    | (y, fr, s') =>
      let x := { x with tasks := { x.tasks with down := x.tasks.down + used s s' } }
      match y with
      | .notReady => { x with call := .awaiting fr }
      | .ready (.item message) =>
        match (chatCall g.fresh).1.validate message with
        | .ok () =>
          { x with call := .through,
                   tasks := { x.tasks with chat := { x.tasks.chat with
                     read := updateFramedCodec (MsgCodec.newWithLimits .client (chatCall g.fresh).1.maxDf (chatCall g.fresh).1.maxMsg) fr } } }
        | .error e => x.callFails (some e)
      | .ready .done => x.callFails (some .closed)
      | .ready (.err e) => x.callFails (some (.ofCodec e))
      | .ready (.panic _) => x.callFails none
  | .through => { x with tasks := x.tasks.step r (.chat n k) }
  | .failed _ => x

/-- `validate` and what examples/async-server.rs:40-50 does about the request: src/server/upgrade/async.rs:246-262, then `accept` (src/server/upgrade/async.rs:105-119) or `reject`
(src/server/upgrade/async.rs:148-158). -/
def AsyncWhole.asked [B64] (x : AsyncWhole) (msg : Request) (buffer : Bytes) : AsyncWhole :=
  match validate msg.subject.method msg.version msg.headers with
  | .error _ => x.doorDrops
  | .ok () =>
    let u : AsyncUpgrade := ⟨[], ⟨[], ⟨[], []⟩⟩, msg, buffer⟩
    if rustWebsocket ∈ u.protocols then
      match (Upgrade.useProtocol rustWebsocket u).prepareHeaders none with
      | .ok (status, u) =>
        if u.headers.writable = false then x.doorDrops
        else { x with door := .answering true,
                      tasks := { x.tasks with server := { x.tasks.server with
                        read := updateFramedCodec (MsgCodec.newWithLimits .server defaultMaxDataframe defaultMaxMessage) (Framed.fromParts () u.buffer),
                        out := x.tasks.server.out.head ((u.response status).fmt resLine) } } }
      | _ => x.doorDrops
    else { x with door := .answering false,
                  tasks := { x.tasks with server := { x.tasks.server with out := x.tasks.server.out.head ((u.response badRequest).fmt resLine) } } }

/-- One poll of what the server does about the connection: `into_ws` (src/server/upgrade/async.rs:235-265), `accept` (src/server/upgrade/async.rs:105-131) or `reject`, then
examples/async-server.rs:52-68. -/
def AsyncWhole.serve [B64] (preq : ReqParser) (r : Room) (x : AsyncWhole) (n k : Nat) : AsyncWhole :=
  match x.door with
  | .reading fr =>
    let s := offered x.tasks.upTransit n x.tasks.chat.phase.isOver
    match fr.poll (httpDecoder preq) s with
    | (y, fr, s') =>
      let x := { x with tasks := { x.tasks with up := x.tasks.up + used s s' } }
      match y with
      | .notReady => { x with door := .reading fr }
      | .ready (.item msg) => x.asked msg fr.buf
      | .ready _ => x.doorDrops
  | .answering accepted =>
    match x.tasks.server.out.flush (granted (r.down - x.tasks.downTransit.length) k) with
    | (.ready, o) =>
      let x := { x with tasks := { x.tasks with server := { x.tasks.server with out := o } } }
      if accepted then { x with door := .through } else x.doorDrops
    | (.notReady, o) => { x with tasks := { x.tasks with server := { x.tasks.server with out := o } } }
    | (_, o) => AsyncWhole.doorDrops { x with tasks := { x.tasks with server := { x.tasks.server with out := o } } }
  | .through => { x with tasks := x.tasks.step r (.serve n k) }
  | .dropped => x

/-- One step of the two programs: a line is typed (examples/async-client.rs:31-52), or a task is polled. -/
def AsyncWhole.step [B64] (preq : ReqParser) (pres : ResParser) (g : AsyncGiven) (r : Room) (x : AsyncWhole) : Move → AsyncWhole
  | .type => { x with tasks := x.tasks.step r .type }
  | .chat n k => x.chat pres g r n k
  | .serve n k => x.serve preq r n k

/-- Any number of steps. -/
def AsyncWhole.run [B64] (preq : ReqParser) (pres : ResParser) (g : AsyncGiven) (r : Room) (x : AsyncWhole) (es : List Move) : AsyncWhole :=
  es.foldl (AsyncWhole.step preq pres g r) x

end WS
