import Verif.Model.Bureau
/-!
# examples/async-autobahn-server.rs, and everybody who calls

As Model/Bureau, for the other asynchronous server among the examples. It grants every opening handshake, greets nobody, and does not filter what fails: the first connection that is no opening handshake
is an error of the stream that main blocks on, and the `unwrap` behind it ends the process.

Simplifications: those of Model/Desk and Model/Bureau. The process is gone as soon as the main future has failed; a task that is in the middle of a poll on another thread could still finish it.
-/

namespace WS

/-- `validate` (src/server/upgrade/async.rs:246-262), and `accept` up to the encoding of the response (examples/async-autobahn-server.rs:28, src/server/upgrade/async.rs:105-119). If there is no response
to write then the task is over. -/
def Desk.admitted [B64] (x : Desk) (msg : Request) (buffer : Bytes) : Desk :=
  match validate msg.subject.method msg.version msg.headers with
  | .error _ => x.drops
  | .ok () =>
    let u : AsyncUpgrade := ⟨[], ⟨[], ⟨[], []⟩⟩, msg, buffer⟩
    match u.prepareHeaders none with
    | .ok (status, u) =>
      if u.headers.writable = false then { x with door := .through, task := { x.task with phase := .over .returned } }
      else { x with door := .answering true,
                    task := { x.task with
                      read := updateFramedCodec (MsgCodec.newWithLimits .server defaultMaxDataframe defaultMaxMessage) (Framed.fromParts () u.buffer),
                      out := x.task.out.head ((u.response status).fmt resLine) } }
    | _ => { x with door := .through, task := { x.task with phase := .over .returned } }

/-- One poll of `into_ws` (src/server/upgrade/async.rs:235-265), of `accept` (src/server/upgrade/async.rs:105-131), or of the echo behind it (examples/async-autobahn-server.rs:30-39). -/
def Desk.tick [B64] (preq : ReqParser) (x : Desk) (n k : Nat) : Desk :=
  match x.door with
  | .reading fr =>
    let s := offered x.waiting n x.ended
    match fr.poll (httpDecoder preq) s with
    | (y, fr, s') =>
      let x := { x with waiting := x.waiting.drop (used s s') }
      match y with
      | .notReady => { x with door := .reading fr }
      | .ready (.item msg) => x.admitted msg fr.buf
      | .ready _ => x.drops
  | .answering _ =>
    match x.task.out.flush (granted k k) with
    | (.ready, o) => { x with door := .through, task := { x.task with out := o } }
    | (.notReady, o) => { x with task := { x.task with out := o } }
    | (_, o) => { x with door := .through, task := { x.task with out := o, phase := .over .returned } }
  | .through =>
    let s := offered x.waiting n x.ended
    match x.task.turn s (granted k k) with
    | (t, s') => { x with task := t, waiting := x.waiting.drop (used s s') }
  | .dropped => x

/-- One thing happens to a connection (examples/async-autobahn-server.rs:25-39). Nothing comes behind the end of the stream. -/
def Desk.takes [B64] (preq : ReqParser) (x : Desk) : Befalls → Desk
  | .poll n k => x.tick preq n k
  | .bytes b => if x.ended then x else { x with waiting := x.waiting ++ b }
  | .finish => { x with ended := true }

/-- What has become of the connection after all that. -/
def Desk.lasts [B64] (preq : ReqParser) (x : Desk) (es : List Befalls) : Desk := es.foldl (Desk.takes preq) x

/-- The connection has just been accepted (src/server/async.rs:64-77). No greeting comes before the echo (examples/async-autobahn-server.rs:28-31). -/
def Desk.opened (keys : Nat → Key4) (extra : Nat) : Desk :=
  ⟨.reading (Framed.new ()), ⟨.forward none, Framed.new (MsgCodec.newWithLimits .server defaultMaxDataframe defaultMaxMessage), ⟨FramedWrite.new true, [], keys, extra⟩, []⟩, [], false⟩

/-- `into_ws` has failed (src/server/upgrade/async.rs:241-262). -/
def Desk.isDropped (x : Desk) : Bool :=
  match x.door with
  | .dropped => true
  | _ => false

/-- All connections of the server. -/
structure Hall where
  /-- how many have been made -/
  made : Nat
  conns : Nat → Desk
  /-- main has panicked (examples/async-autobahn-server.rs:48), and the process has ended -/
  crashed : Bool

/-- One connection has changed. -/
def Hall.put (x : Hall) (i : Nat) (d : Desk) : Hall := { x with conns := fun j => if j = i then d else x.conns j }

/-- The main future goes on with one of the connections that it has in hand (src/server/async.rs:64-89). If `into_ws` is ready then `for_each` makes a task of it
(examples/async-autobahn-server.rs:25-45), or fails with its error (examples/async-autobahn-server.rs:24) and so does `block_on` (examples/async-autobahn-server.rs:48). -/
def Hall.reads [B64] (preq : ReqParser) (x : Hall) (p : Nat × Nat) : Hall :=
  if x.crashed = false ∧ p.1 < x.made ∧ (x.conns p.1).isReading = true then
    { x.put p.1 ((x.conns p.1).tick preq p.2 0) with crashed := ((x.conns p.1).tick preq p.2 0).isDropped }
  else x

/-- One thing happens (examples/async-autobahn-server.rs:20-48). A task is there when the head has been read, as long as there is a process. -/
def Hall.meets [B64] (preq : ReqParser) (x : Hall) : Occasion → Hall
  | .connects => { x with made := x.made + 1 }
  | .main ps => ps.foldl (Hall.reads preq) x
  | .task i n k => if x.crashed = false ∧ i < x.made ∧ (x.conns i).isReading = false then x.put i ((x.conns i).tick preq n k) else x
  | .bytes i b => if i < x.made then x.put i ((x.conns i).takes preq (.bytes b)) else x
  | .finish i => if i < x.made then x.put i ((x.conns i).takes preq .finish) else x

/-- What has become of the connections after all that. -/
def Hall.endures [B64] (preq : ReqParser) (x : Hall) (es : List Occasion) : Hall := es.foldl (Hall.meets preq) x

/-- The server has been bound (examples/async-autobahn-server.rs:15). -/
def Hall.start (keys : Nat → Nat → Key4) (extra : Nat → Nat) : Hall := ⟨0, fun i => Desk.opened (keys i) (extra i), false⟩

end WS
