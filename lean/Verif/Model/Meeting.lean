import Verif.Model.Dialogue
import Verif.Model.Builder
/-!
# Two programs from before the handshake

Model/Dialogue begins with an open connection. Here both programs begin with a bare transport: one connects, the other
accepts, and then they talk; an operating system decides at every moment who moves next and how many bytes the network carries.

A call that opens a connection waits while the other side's half of the handshake is incomplete. It is modelled as in Model/Dialogue:
the call is made on what has arrived so far, with a mark behind it, and if it has read the mark, it has not returned
yet and the attempt is forgotten but for what it had written by then. That this comes to the same is C52.

Simplifications: those of Model/Dialogue; a program whose connection was refused does nothing more, and what it may have
written after reading the other side's half is not shown.
-/

namespace WS

/-- How a program opens its connection: `connect_on` (src/client/builder.rs:502-519), `async_connect_on` (src/client/builder.rs:767-812), or `into_ws`
and `accept` with limits (src/server/upgrade/sync.rs:185-206 and 84-97, src/server/upgrade/async.rs:235-265 and 105-131); `prep` is what the
server program does to the upgrade in between. -/
inductive Opening
  | client (b : Builder) (fresh : WsKey)
  | asyncClient (b : Builder) (fresh : WsKey) (extra : Nat)
  | server (prep : SyncUpgrade → SyncUpgrade) (custom : Option Headers) (maxDf maxMsg : Nat)
  | asyncServer (prep : AsyncUpgrade → AsyncUpgrade) (custom : Option Headers) (maxDf maxMsg extra : Nat)

/-- An open connection: the two halves of the client, the bytes behind the handshake that have been read or have arrived, and the output. -/
structure Line where
  ear : Ear
  voice : Voice
  arrived : Src
  output : Sink

/-- What came of a call: what is left of the input and what had been written when it had read what it wanted, and the connection if it got one. -/
structure Attempt where
  rest : Src
  wrote : Sink
  line : Option Line

/-- The client in the hands of a blocking program (src/client/sync.rs:55-63). -/
def Client.line (c : Client) : Line := ⟨.blocking c.receiver, .blocking c.sender, c.stream.src.left, c.stream.inner.output⟩

/-- The framed stream in the hands of an async one. -/
def AsyncClient.line (c : AsyncClient) : Line := ⟨.async c.read, .async c.write, c.stream.input.left, c.stream.output⟩

/-- The call on a transport. -/
def Opening.attempt [B64] (preq : ReqParser) (pres : ResParser) (d : Duplex) : Opening → Attempt
  | .client b fresh =>
    match (b.connectOn pres fresh d).1 with
    | .client c => ⟨c.stream.inner.input, c.stream.inner.output, some c.line⟩
    | .err (some d) _ => ⟨d.input, d.output, none⟩
    | .err none _ => ⟨d.input, d.output, none⟩
    | .panic _ => ⟨d.input, d.output, none⟩
  | .asyncClient b fresh extra =>
    match b.asyncConnectOn pres fresh extra d with
    | .client c => ⟨c.stream.input, c.stream.output, some c.line⟩
    | .err (some d) _ => ⟨d.input, d.output, none⟩
    | .err none _ => ⟨d.input, d.output, none⟩
    | .panic _ => ⟨d.input, d.output, none⟩
  | .server prep custom maxDf maxMsg =>
    match intoWs preq d with
    | .error e => ⟨e.stream.input, e.stream.output, none⟩
    | .ok u =>
      ⟨u.stream.input, u.stream.output,
        match SyncUpgrade.internalAcceptWithLimits (prep u) custom maxDf maxMsg with
        | .client c => some c.line
        | _ => none⟩
  | .asyncServer prep custom maxDf maxMsg extra =>
    match asyncIntoWs preq d with
    | .error e => ⟨e.stream.input, e.stream.output, none⟩
    | .ok u =>
      ⟨u.stream.input, u.stream.output,
        match AsyncUpgrade.internalAcceptWithLimits (prep u) custom maxDf maxMsg extra with
        | .client c => some c.line
        | _ => none⟩

/-- A program that is opening its connection. -/
structure Lobby where
  how : Opening
  todo : List Talk
  arrived : Src
  ended : Bool
  /-- the output before the call -/
  first : Sink
  /-- and now -/
  output : Sink
  carried : Nat

inductive Agent
  | opening (l : Lobby)
  | talking (p : Party)
  | failed (l : Lobby)

/-- The mark behind what has arrived. -/
def mark : Ev := .error .wouldBlock

/-- What the call reads. -/
def Lobby.readable (l : Lobby) : Src := if l.ended then l.arrived else l.arrived ++ [mark]

/-- A program at the beginning of its talk. -/
def Line.party (c : Line) (l : Lobby) : Party := ⟨l.todo, c.ear, c.voice, c.arrived, l.ended, c.output, l.carried, [], []⟩

/-- One turn of a program that is opening its connection. -/
def Lobby.act [B64] (preq : ReqParser) (pres : ResParser) (l : Lobby) : Agent :=
  match l.how.attempt preq pres ⟨l.readable, l.first⟩ with
  | ⟨rest, wrote, line⟩ =>
    if l.ended = false ∧ mark ∉ rest then .opening { l with output := wrote }
    else match line with
      | some c => .talking (c.party l)
      | none => .failed { l with output := wrote }

def Agent.act [B64] (preq : ReqParser) (pres : ResParser) : Agent → Agent
  | .opening l => l.act preq pres
  | .talking p => .talking p.act
  | .failed l => .failed l

/-- What the program has written and the network has not carried yet. -/
def Agent.transit : Agent → Bytes
  | .opening l => l.output.wire.drop l.carried
  | .talking p => p.transit
  | .failed l => l.output.wire.drop l.carried

/-- The program has dropped its connection. -/
def Agent.gone : Agent → Bool
  | .opening _ => false
  | .talking p => p.todo.isEmpty
  | .failed _ => true

/-- `n` more bytes have been carried away. -/
def Agent.sent (n : Nat) : Agent → Agent
  | .opening l => .opening { l with carried := l.carried + n }
  | .talking p => .talking { p with carried := p.carried + n }
  | .failed l => .failed { l with carried := l.carried + n }

/-- Bytes arrive. -/
def Agent.receive (b : Bytes) : Agent → Agent
  | .opening l => .opening { l with arrived := l.arrived ++ [.chunk b] }
  | .talking p => .talking { p with arrived := p.arrived ++ [.chunk b] }
  | .failed l => .failed { l with arrived := l.arrived ++ [.chunk b] }

/-- The end of the stream arrives. -/
def Agent.close : Agent → Agent
  | .opening l => .opening { l with ended := true }
  | .talking p => .talking { p with ended := true }
  | .failed l => .failed { l with ended := true }

/-- The network carries bytes from `p` to `q`, or the end of the stream if `p` is gone and nothing is left. -/
def Agent.carry (n : Nat) (p q : Agent) : Agent × Agent :=
  if p.transit = [] then (p, if p.gone then q.close else q)
  else (p.sent (p.transit.take (n + 1)).length, q.receive (p.transit.take (n + 1)))

structure Meeting where
  client : Agent
  server : Agent

def Meeting.step [B64] (preq : ReqParser) (pres : ResParser) (m : Meeting) : Happens → Meeting
  | .act .client => { m with client := m.client.act preq pres }
  | .act .server => { m with server := m.server.act preq pres }
  | .carry .client n => match Agent.carry n m.client m.server with | (c, s) => ⟨c, s⟩
  | .carry .server n => match Agent.carry n m.server m.client with | (s, c) => ⟨c, s⟩

def Meeting.run [B64] (preq : ReqParser) (pres : ResParser) (m : Meeting) (hs : List Happens) : Meeting := hs.foldl (Meeting.step preq pres) m

/-- A program before the call. -/
def Agent.start (how : Opening) (todo : List Talk) (w : Sink) : Agent := .opening ⟨how, todo, [], false, w, w, 0⟩

end WS
