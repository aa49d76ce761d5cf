import Verif.Model.Chat
import Verif.Model.Tight
/-!
# examples/client.rs and examples/server.rs, running side by side

The three threads of the client (Model/Chat) and the thread of the server that serves it, from the end of the handshake on, with a network that holds a
bounded number of bytes between them. An operating system decides who moves next and how many bytes are carried at a time. As in Model/Dialogue a thread
inside `recv_message` goes on when bytes arrive: the call is tried on what has arrived and forgotten if it ran out of bytes before the end of the stream. As in Model/Tight a
`send_message` returns when all but so many bytes as the network holds have been taken by the peer, and bytes are taken only inside receiving calls.
-/

namespace WS

/-- The thread of one connection of examples/server.rs:12-46. -/
structure ServerThread where
  receiver : Receiver
  /-- bytes that have arrived and are not read yet -/
  input : Src
  /-- the end of the stream has arrived -/
  ended : Bool
  writer : Writer
  /-- what `gen_mask` will return (not used by a server) -/
  keys : Nat → Key4
  /-- the greeting has been sent -/
  greeted : Bool
  /-- how the thread ended -/
  ending : Option Ending
  /-- messages received (not read by the thread) -/
  heard : List OwnedMsg

/-- `send_message(&message).unwrap()` -/
def ServerThread.say (t : ServerThread) (m : OwnedMsg) : ServerThread :=
  match t.writer.send m.view (t.keys 0) with
  | (.ok _, w) => { t with writer := w, keys := fun n => t.keys (n + 1) }
  | (_, w) => { t with writer := w, ending := some .panicked }

/-- The body of the loop, examples/server.rs:32-44, for a message. -/
def ServerThread.answer (t : ServerThread) (m : OwnedMsg) : ServerThread :=
  match m with
  | .close _ =>
    let t := t.say (.close none)
    if t.ending.isNone then { t with ending := some .returned } else t
  | .ping d => t.say (.pong d)
  | m => t.say m

/-- The thread goes on: the greeting (examples/server.rs:24-25), then one round of the loop (examples/server.rs:29-45). `message.unwrap()` panics on an error. -/
def ServerThread.turn (t : ServerThread) : ServerThread :=
  if t.ending.isSome then t
  else if t.greeted = false then { t.say (.text (ascii "Hello")) with greeted := true }
  else
    match t.receiver.recvMessage t.input with
    | (x, r, s) =>
      if x = .err .noData ∧ t.ended = false then t
      else
        match x with
        | .ok m => { t with receiver := r, input := s, heard := t.heard ++ [m] }.answer m
        | _ => { t with receiver := r, input := s, ending := some .panicked }

def ServerThread.turns : Nat → ServerThread → ServerThread
  | 0, t => t
  | n + 1, t => turns n t.turn

/-- Both programs and the network. -/
structure Duo where
  chat : Chat
  /-- the end of the stream has arrived at the client -/
  cut : Bool
  server : ServerThread
  /-- how many bytes of the client's the network has carried -/
  up : Nat
  /-- how many of the server's -/
  down : Nat

def Duo.upTransit (x : Duo) : Bytes := x.chat.writer.stream.wire.drop x.up

def Duo.downTransit (x : Duo) : Bytes := x.server.writer.stream.wire.drop x.down

/-- What happens next: a thread of the client takes a turn, the server does, or the network carries up to `n + 1` bytes. -/
inductive Beat
  | turn (t : Thread)
  | serve
  | up (n : Nat)
  | down (n : Nat)
  deriving DecidableEq, Repr

/-- Whether it can: a thread inside a send cannot take a turn, and bytes are taken by a thread in a receiving call only. -/
def Duo.allows (r : Room) (x : Duo) : Beat → Bool
  | .turn .main => true
  | .turn .receive => true
  | .turn .send => decide (x.upTransit.length ≤ r.up)
  | .serve => decide (x.downTransit.length ≤ r.down)
  | .up _ => x.server.ending.isNone && x.server.greeted && decide (x.downTransit.length ≤ r.down)
  | .down _ => x.chat.listening

/-- The receive thread of the client goes on, if its call returns. -/
def Duo.receive (x : Duo) : Duo :=
  if (x.chat.receiver.recvMessage x.chat.input).1 = .err .noData ∧ x.cut = false then x else { x with chat := x.chat.receiveTurn }

/-- To the server; the end of the stream, when the client's threads that hold it are done and nothing is left. -/
def Duo.carryUp (n : Nat) (x : Duo) : Duo :=
  if x.upTransit = [] then
    if x.chat.talking || x.chat.listening then x else { x with server := { x.server with ended := true } }
  else { x with up := x.up + (x.upTransit.take (n + 1)).length, server := { x.server with input := x.server.input ++ [.chunk (x.upTransit.take (n + 1))] } }

/-- To the client; the end of the stream, when the server's thread is done and nothing is left. -/
def Duo.carryDown (n : Nat) (x : Duo) : Duo :=
  if x.downTransit = [] then
    if x.server.ending.isNone then x else { x with cut := true }
  else { x with down := x.down + (x.downTransit.take (n + 1)).length, chat := { x.chat with input := x.chat.input ++ [.chunk (x.downTransit.take (n + 1))] } }

def Duo.step (r : Room) (x : Duo) (e : Beat) : Duo :=
  if x.allows r e then
    match e with
    | .turn .receive => x.receive
    | .turn t => { x with chat := x.chat.turn t }
    | .serve => { x with server := x.server.turn }
    | .up n => x.carryUp n
    | .down n => x.carryDown n
  else x

def Duo.run (r : Room) (x : Duo) (es : List Beat) : Duo := es.foldl (Duo.step r) x

/-- After the handshake, of which everything has arrived (that the greeting may have arrived with it is no loss: that state is reached from this one by
the server's first turn and the network's). -/
def Duo.start (lines : List Bytes) (cr sr : Receiver) (cw sw : Writer) (keys skeys : Nat → Key4) : Duo :=
  ⟨Chat.start lines cr [] cw keys, false, ⟨sr, [], false, sw, skeys, false, none, []⟩, cw.stream.wire.length, sw.stream.wire.length⟩

end WS
