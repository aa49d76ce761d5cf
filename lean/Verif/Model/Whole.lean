import Verif.Model.Live
import Verif.Model.Meeting
import Verif.Model.Mains
/-!
# examples/client.rs and examples/server.rs, from the first byte of the request on

Both programs of Model/Live, with the handshake: the client begins inside `connect_insecure` with a new connection, and the server inside
`Iterator::next` with the other end of it. An operating system decides who moves next and how many bytes are carried at a time; the network holds a bounded number of bytes.

A call that waits for the other half of the handshake is tried on what has arrived and forgotten, but for what it had written, if it has read the mark behind it (Model/Meeting;
that this comes to the same is C52). After the handshake everything is as in Model/Live.

Simplifications: `try_clone` (in `split`) and `peer_addr` succeed. What a refused peer is sent after the refusal, and how the server goes on with other connections, is C45 and C50.
-/

namespace WS

/-- `main` of examples/client.rs. -/
inductive Guest
  /-- inside `connect_insecure`, examples/client.rs:15-19: what has arrived, and what has been written -/
  | dialling (arrived : Src) (output : Sink)
  /-- after the threads have started, examples/client.rs:59 -/
  | chatting (c : Chat)
  /-- `unwrap()` has panicked, examples/client.rs:19 -/
  | panicked (output : Sink)

/-- What examples/server.rs does about one connection. -/
inductive Host
  /-- inside `next`, examples/server.rs:10 (src/server/sync.rs:264-270): what has arrived, and whether the end of the stream has -/
  | reading (arrived : Src) (ended : Bool) (output : Sink)
  /-- the thread has started, examples/server.rs:12 -/
  | asked (u : SyncUpgrade) (ended : Bool)
  /-- `accept` has returned, examples/server.rs:18 -/
  | serving (t : ServerThread)
  /-- the connection has been dropped: `filter_map(Result::ok)`, `reject`, or a panic in `accept().unwrap()` -/
  | dropped (output : Sink)

/-- What is given from outside: the connection each side has, the nonce, and what `gen_mask` will return. -/
structure Given where
  fresh : WsKey
  keys : Nat → Key4
  skeys : Nat → Key4
  /-- the client's connection before anything is written -/
  client : Sink
  /-- and the server's -/
  server : Sink

/-- A call goes on reading what has arrived; `mark` is what it must not reach. -/
def readable (arrived : Src) (ended : Bool) : Src := if ended then arrived else arrived ++ [mark]

/-- `connect_insecure().unwrap()`, `split().unwrap()`, and the threads, examples/client.rs:15-59. -/
def dial [B64] (pres : ResParser) (g : Given) (lines : List Bytes) (arrived : Src) (cut : Bool) : Guest :=
  match (((Builder.init chatUrl).run chatOps).connectOn pres g.fresh ⟨readable arrived cut, g.client⟩).1 with
  | .client c =>
    if cut = false ∧ mark ∉ c.stream.inner.input then .dialling arrived c.stream.inner.output
    else match c.split (.ok ()) with
      | .ok (r, w) => .chatting (Chat.start lines r.receiver r.stream.src.left w g.keys)
      | .error _ => .panicked c.stream.inner.output
  | .err (some d) _ => if cut = false ∧ mark ∉ d.input then .dialling arrived d.output else .panicked d.output
  | _ => .panicked g.client

/-- One turn of a thread of the client; before the loops there is only the main one. -/
def Guest.turn [B64] (pres : ResParser) (g : Given) (lines : List Bytes) (cut : Bool) (t : Thread) : Guest → Guest
  | .dialling s w => if t = .main then dial pres g lines s cut else .dialling s w
  | .chatting c =>
    if t = .receive ∧ (c.receiver.recvMessage c.input).1 = .err .noData ∧ cut = false then .chatting c else .chatting (c.turn t)
  | .panicked w => .panicked w

/-- `accept().unwrap()` or `reject().unwrap()`, examples/server.rs:13-18. -/
def Host.answer [B64] (g : Given) (u : SyncUpgrade) (ended : Bool) : Host :=
  if rustWebsocket ∈ u.protocols then
    match SyncUpgrade.accept (Upgrade.useProtocol rustWebsocket u) with
    | .client c => .serving ⟨c.receiver, c.stream.src.left, ended, ⟨c.stream.inner.output, c.sender⟩, g.skeys, false, none, []⟩
    | .err d _ => .dropped d.output
    | .panic _ => .dropped u.stream.output
  else match SyncUpgrade.reject u with
    | (_, d) => .dropped d.output

/-- The server goes on with this connection. -/
def Host.turn [B64] (preq : ReqParser) (g : Given) : Host → Host
  | .reading s ended w =>
    match intoWs preq ⟨readable s ended, g.server⟩ with
    | .ok u => if ended = false ∧ mark ∉ u.stream.input then .reading s ended u.stream.output else .asked u ended
    | .error e => if ended = false ∧ mark ∉ e.stream.input then .reading s ended w else .dropped e.stream.output
  | .asked u ended => Host.answer g u ended
  | .serving t => .serving t.turn
  | .dropped w => .dropped w

/-- What the client has written. -/
def Guest.wire : Guest → Bytes
  | .dialling _ w => w.wire
  | .chatting c => c.writer.stream.wire
  | .panicked w => w.wire

/-- What the server has written. -/
def Host.wire : Host → Bytes
  | .reading _ _ w => w.wire
  | .asked u _ => u.stream.output.wire
  | .serving t => t.writer.stream.wire
  | .dropped w => w.wire

/-- The client has closed the connection. -/
def Guest.gone : Guest → Bool
  | .dialling _ _ => false
  | .chatting c => !(c.talking || c.listening)
  | .panicked _ => true

/-- The server has. -/
def Host.gone : Host → Bool
  | .reading _ _ _ => false
  | .asked _ _ => false
  | .serving t => t.ending.isSome
  | .dropped _ => true

/-- Bytes arrive at the client. -/
def Guest.receive (b : Bytes) : Guest → Guest
  | .dialling s w => .dialling (s ++ [.chunk b]) w
  | .chatting c => .chatting { c with input := c.input ++ [.chunk b] }
  | .panicked w => .panicked w

/-- Bytes arrive at the server. -/
def Host.receive (b : Bytes) : Host → Host
  | .reading s ended w => .reading (s ++ [.chunk b]) ended w
  | .serving t => .serving { t with input := t.input ++ [.chunk b] }
  | h => h

/-- The end of the stream arrives at the server. -/
def Host.close : Host → Host
  | .reading s _ w => .reading s true w
  | .asked u _ => .asked u true
  | .serving t => .serving { t with ended := true }
  | .dropped w => .dropped w

/-- Both programs and the network. -/
structure Whole where
  guest : Guest
  host : Host
  /-- the end of the stream has arrived at the client -/
  cut : Bool
  up : Nat
  down : Nat

def Whole.upTransit (x : Whole) : Bytes := x.guest.wire.drop x.up

def Whole.downTransit (x : Whole) : Bytes := x.host.wire.drop x.down

/-- Who can move: a call that writes returns when all but so many bytes as the network holds have been taken, and bytes are taken inside receiving calls only. -/
def Whole.allows (r : Room) (x : Whole) : Beat → Bool
  | .turn .main => match x.guest with
    | .dialling _ _ => decide (x.upTransit.length ≤ r.up)
    | _ => true
  | .turn .receive => true
  | .turn .send => decide (x.upTransit.length ≤ r.up)
  | .serve => decide (x.downTransit.length ≤ r.down)
  | .up _ => match x.host with
    | .reading _ _ _ => true
    | .serving t => t.ending.isNone && t.greeted && decide (x.downTransit.length ≤ r.down)
    | _ => false
  | .down _ => match x.guest with
    | .dialling _ _ => decide (x.upTransit.length ≤ r.up)
    | .chatting c => c.listening
    | .panicked _ => false

/-- One event, if it can happen. -/
def Whole.step [B64] (preq : ReqParser) (pres : ResParser) (g : Given) (lines : List Bytes) (r : Room) (x : Whole) (e : Beat) : Whole :=
  if x.allows r e then
    match e with
    | .turn t => { x with guest := x.guest.turn pres g lines x.cut t }
    | .serve => { x with host := x.host.turn preq g }
    | .up n =>
      if x.upTransit = [] then if x.guest.gone then { x with host := x.host.close } else x
      else { x with up := x.up + (x.upTransit.take (n + 1)).length, host := x.host.receive (x.upTransit.take (n + 1)) }
    | .down n =>
      if x.downTransit = [] then if x.host.gone then { x with cut := true } else x
      else { x with down := x.down + (x.downTransit.take (n + 1)).length, guest := x.guest.receive (x.downTransit.take (n + 1)) }
  else x

def Whole.run [B64] (preq : ReqParser) (pres : ResParser) (g : Given) (lines : List Bytes) (r : Room) (x : Whole) (es : List Beat) : Whole :=
  es.foldl (Whole.step preq pres g lines r) x

/-- The connection has been made, and nothing has been said. -/
def Whole.start (g : Given) : Whole := ⟨.dialling [] g.client, .reading [] false g.server, false, 0, 0⟩

end WS
