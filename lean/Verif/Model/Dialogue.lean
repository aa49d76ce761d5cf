import Verif.Model.Talk
/-!
# Two programs and the network between them

Model/Talk runs a program against a script that says beforehand what its peer will send. Here two programs run side by side
and what one reads is what the other has written. An operating system decides who moves next and how many bytes the
network carries at a time; a schedule is a list of such decisions. All functions called are those of the other
modules.

Blocking calls: a thread inside `recv_message` (src/client/sync.rs:192-194) goes on when bytes arrive. It is modelled by calling
`recvMessage` on what has arrived so far and forgetting the attempt if it ran out of bytes; that this comes to the same is
C51 (`C51_blocking_answers_at_once`). Async calls: one turn is one poll, with a transport that says "not ready" when
what has arrived is used up; nothing is forgotten.

Simplifications: the network holds any number of bytes; a program that has done everything on its list drops its client, and the
peer finds the end of the stream behind the last byte.
-/

namespace WS

/-- The receiving half of a program's client: `Receiver` (src/receiver.rs:79-85) or a framed stream. -/
inductive Ear
  | blocking (r : Receiver)
  | async (fr : Framed MsgCodec)

/-- The sending half: `Sender` (src/sender.rs:64-66) or a framed sink. -/
inductive Voice
  | blocking (s : Sender)
  | async (fw : FramedWrite)

/-- One program. -/
structure Party where
  /-- what is left of its list -/
  todo : List Talk
  ear : Ear
  voice : Voice
  /-- bytes that have arrived and are not read yet, as they came -/
  arrived : Src
  /-- the end of the stream has arrived -/
  ended : Bool
  /-- everything written so far, and how the transport will take what comes -/
  output : Sink
  /-- how much of that the network has carried away -/
  carried : Nat
  heard : List Heard
  sent : List Bool

/-- What a poll reads: the bytes that have arrived, and then "not ready". -/
def Party.readable (p : Party) : Src := if p.ended then p.arrived else p.arrived ++ [.error .wouldBlock]

/-- What is left of them (`wouldBlock` was not an event of the network). -/
def Src.left (s : Src) : Src := s.filter fun e => decide (e ≠ .error .wouldBlock)

/-- `send_message` (src/client/sync.rs:162-167). -/
def Party.sayBlocking (p : Party) (s : Sender) (m : OwnedMsg) (key : Key4) (ts : List Talk) : Party :=
  match s.send m.view key p.output with
  | (r, w) => { p with todo := ts, output := w, sent := p.sent ++ [decide (r = .ok ())] }

/-- `sink.send(m)` awaited. -/
def Party.sayAsync (p : Party) (fw : FramedWrite) (m : OwnedMsg) (key : Key4) (extra : Nat) (ts : List Talk) : Party :=
  match fw.sendAwait m.view key extra p.output with
  | (r, fw', w) => { p with todo := ts, voice := .async fw', output := w, sent := p.sent ++ [decide (r = .ready)] }

/-- `recv_message` (src/client/sync.rs:192-194). `NoDataAvailable` before the end of the stream means that the call
has not returned yet. -/
def Party.hearBlocking (p : Party) (r : Receiver) (ts : List Talk) : Party :=
  match r.recvMessage p.arrived with
  | (x, r', s') =>
    if x = .err .noData ∧ p.ended = false then p
    else { p with todo := ts, ear := .blocking r', arrived := s', heard := p.heard ++ [.ofRes x] }

/-- One poll of the stream. -/
def Party.hearAsync (p : Party) (fr : Framed MsgCodec) (ts : List Talk) : Party :=
  match fr.poll msgDecoder p.readable with
  | (.notReady, fr', s') => { p with ear := .async fr', arrived := s'.left }
  | (.ready x, fr', s') => { p with todo := ts, ear := .async fr', arrived := s'.left, heard := p.heard ++ [.ofItem x] }

/-- One turn of a program. -/
def Party.act (p : Party) : Party :=
  match p.todo with
  | [] => p
  | .say m key extra :: ts =>
    match p.voice with
    | .blocking s => p.sayBlocking s m key ts
    | .async fw => p.sayAsync fw m key extra ts
  | .hear :: ts =>
    match p.ear with
    | .blocking r => p.hearBlocking r ts
    | .async fr => p.hearAsync fr ts

/-- Bytes under way. -/
def Party.transit (p : Party) : Bytes := p.output.wire.drop p.carried

inductive Side
  | client
  | server
  deriving DecidableEq, Repr

/-- What happens next: a program takes a turn, or the network carries up to `n + 1` bytes away from it. -/
inductive Happens
  | act (who : Side)
  | carry (who : Side) (n : Nat)
  deriving DecidableEq, Repr

structure Dialogue where
  client : Party
  server : Party

/-- The network carries bytes from `p` to `q`, or the end of the stream if `p` is done and nothing is left. -/
def carry (n : Nat) (p q : Party) : Party × Party :=
  if p.transit = [] then (p, if p.todo = [] then { q with ended := true } else q)
  else ({ p with carried := p.carried + (p.transit.take (n + 1)).length },
    { q with arrived := q.arrived ++ [.chunk (p.transit.take (n + 1))] })

def Dialogue.step (d : Dialogue) : Happens → Dialogue
  | .act .client => { d with client := d.client.act }
  | .act .server => { d with server := d.server.act }
  | .carry .client n => match carry n d.client d.server with | (c, s) => ⟨c, s⟩
  | .carry .server n => match carry n d.server d.client with | (s, c) => ⟨c, s⟩

def Dialogue.run (d : Dialogue) (hs : List Happens) : Dialogue := hs.foldl Dialogue.step d

/-- A blocking client at the beginning of its program (src/client/sync.rs, `Client`). `mask`: what it receives is masked, which is
so for a server; what it sends is masked if it is a client. -/
def Party.blocking (isServer : Bool) (maxDf maxMsg : Nat) (ts : List Talk) (w : Sink) : Party :=
  ⟨ts, .blocking (Receiver.newWithLimits isServer maxDf maxMsg), .blocking ⟨!isServer⟩, [], false, w, 0, [], []⟩

/-- An async one. -/
def Party.async (ctx : Context) (maxDf maxMsg : Nat) (ts : List Talk) (w : Sink) : Party :=
  ⟨ts, .async (Framed.new (MsgCodec.newWithLimits ctx maxDf maxMsg)), .async (FramedWrite.new (decide (ctx = .server))), [], false, w, 0, [], []⟩

end WS
