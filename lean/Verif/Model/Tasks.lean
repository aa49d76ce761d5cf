import Verif.Model.AsyncChat
import Verif.Model.Tight
/-!
# examples/async-client.rs and examples/async-server.rs, running side by side

The task and the typing thread of the client, and the task of the server that serves it, from the end of the handshake on, with a network that holds a bounded
number of bytes between them. One move is one round of the loop inside `Forward::poll` (or of the `send` around it), with the functions of Model/AsyncChat and
Model/Framed. An executor decides who moves next, how many bytes a read finds, and how many of the free bytes of the network a flush can fill. A move of a task that
waits changes nothing, so that it does not matter whether the executor has been told to make it. Bytes are counted from the end of the handshake on.
-/

namespace WS

/-- No code of the repository: the network as `read` of examples/async-client.rs:61 and examples/async-server.rs:55 sees it. What the reads of one poll find: some of the bytes on their way, then nothing more for now; or the end of the stream, when the peer is done and everything was read. -/
def offered (transit : Bytes) (n : Nat) (closed : Bool) : Src :=
  if transit.take n ≠ [] then [.chunk (transit.take n), .error .wouldBlock]
  else if closed ∧ transit = [] ∧ 0 < n then [] else [.error .wouldBlock]

/-- No code of the repository: the same for `write`. What the writes of one poll find: at most `k` bytes of room. -/
def granted (free k : Nat) : List WEv := if min free k = 0 then [.error .wouldBlock] else [.accept (min free k), .error .wouldBlock]

/-- The sending half of a task, `sink` of examples/async-client.rs:61 and examples/async-server.rs:55. -/
structure Outbox where
  sink : FramedWrite
  /-- all bytes the network has been given -/
  wire : Bytes
  /-- what `gen_mask` will return -/
  keys : Nat → Key4
  /-- the allocator's generosity -/
  extra : Nat

/-- `poll_complete` of tokio-codec's `FramedWrite` (`FramedWrite.pollComplete`), called by `forward`, examples/async-client.rs:75 and examples/async-server.rs:66, and by
`send`, examples/async-server.rs:52 and :67. -/
def Outbox.flush (o : Outbox) (script : List WEv) : SendRes × Outbox :=
  match o.sink.pollComplete ⟨o.wire, script⟩ with
  | (x, fw, w) => (x, { o with sink := fw, wire := w.wire })

/-- `start_send` (`FramedWrite.startSend`), called in the same places. -/
def Outbox.push (o : Outbox) (m : OwnedMsg) (script : List WEv) : SendRes × Outbox :=
  match o.sink.startSend m.view (o.keys 0) o.extra ⟨o.wire, script⟩ with
  | (.ready, fw, w) => (.ready, { o with sink := fw, wire := w.wire, keys := fun n => o.keys (n + 1) })
  | (x, fw, w) => (x, { o with sink := fw, wire := w.wire })

/-! ## The client -/

/-- Where the client's task is, examples/async-client.rs:59-76. -/
inductive ChatPhase
  /-- inside `forward`, with the item that the sink has not taken yet -/
  | forward (buffered : Option OwnedMsg)
  /-- `forward` closes the sink -/
  | closing
  | over (e : Ending)
  deriving DecidableEq, Repr

/-- examples/async-client.rs:31-76. -/
structure ChatTask where
  /-- lines not typed yet -/
  lines : List Bytes
  /-- the channel of capacity 0: it holds one message, and the thread waits until it is taken -/
  chan : Option OwnedMsg
  /-- the typing thread has ended -/
  gone : Bool
  phase : ChatPhase
  /-- `Select`: the channel goes first -/
  flag : Bool
  /-- `Fuse`: the stream has ended -/
  over : Bool
  read : Framed MsgCodec
  out : Outbox
  /-- lines typed, trimmed (not read by the program) -/
  typed : List Bytes
  /-- messages shown by `println!`, examples/async-client.rs:65 (not read by the program) -/
  seen : List OwnedMsg

/-- examples/async-client.rs:76: `forward` has ended. -/
def ChatPhase.isOver : ChatPhase → Bool
  | .over _ => true
  | _ => false

/-- One round of the typing thread's loop, examples/async-client.rs:31-52. -/
def ChatTask.type (t : ChatTask) : ChatTask :=
  if t.gone || t.chan.isSome || t.phase.isOver then t
  else match asyncLine (trim (t.lines.headD [])) with
    | (close, m) => { t with lines := t.lines.tail, chan := some m, gone := close, typed := t.typed ++ [trim (t.lines.headD [])] }

/-- What a poll of the channel finds, examples/async-client.rs:73. -/
def ChatTask.inbox (t : ChatTask) : List (Option OwnedMsg) :=
  match t.chan with
  | some m => [some m]
  | none => if t.gone then [] else [none]

/-- The messages the closure of `filter_map` is called with during one `filterPoll`, examples/async-client.rs:64-71. -/
def filterSeen (f : OwnedMsg → Option OwnedMsg) (fr : Framed MsgCodec) (s : Src) : List OwnedMsg :=
  match h : fr.poll msgDecoder s with
  | (.ready (.item m), fr', s') => match f m with
    | some _ => [m]
    | none => m :: filterSeen f fr' s'
  | _ => []
termination_by fr.measure s
decreasing_by exact Framed.poll_item_lt h

/-- The same during one poll of the `Select`, examples/async-client.rs:73: none if the channel goes first and has something, or the stream has ended. -/
def ChatTask.shown (t : ChatTask) (s : Src) : List OwnedMsg :=
  if t.over || (t.flag && t.chan.isSome) then [] else filterSeen pingOnly t.read s

/-- examples/async-client.rs:75, after a result of `poll_complete` or `start_send`; `next` if it was ready. -/
def ChatTask.after (t : ChatTask) (next : ChatPhase) : SendRes × Outbox → ChatTask
  | (.ready, o) => { t with out := o, phase := next }
  | (.notReady, o) => { t with out := o }
  | (.err e, o) => { t with out := o, phase := .over (.failed e) }
  | (.panic _, o) => { t with out := o, phase := .over .panicked }

/-- One round of `Forward::poll`, examples/async-client.rs:75, as in `chatForward`. The second component is what has not been read. -/
def ChatTask.turn (t : ChatTask) (s : Src) (script : List WEv) : ChatTask × Src :=
  match t.phase with
  | .over _ => (t, s)
  | .closing => (t.after (.over .returned) (t.out.flush script), s)
  | .forward (some m) => (t.after (.forward none) (t.out.push m script), s)
  | .forward none =>
    match (⟨t.flag, t.over, t.read, s, t.inbox, t.gone⟩ : Selecting).poll pingOnly with
    | (x, c) =>
      let t' := { t with flag := c.flag, over := c.over, read := c.read, seen := t.seen ++ t.shown s,
                         chan := match c.user with
                           | some m :: _ => some m
                           | _ => none }
      match x with
      | .notReady => (t'.after (.forward none) (t'.out.flush script), c.input)
      | .ready (.item m) => ({ t' with phase := .forward (some m) }, c.input)
      | .ready .done => ({ t' with phase := .closing }, c.input)
      | .ready (.err e) => ({ t' with phase := .over (.failed e) }, c.input)
      | .ready (.panic _) => ({ t' with phase := .over .panicked }, c.input)

/-! ## The server -/

/-- Where the server's task is, examples/async-server.rs:48-68. -/
inductive ServePhase
  /-- the greeting is not in the sink yet -/
  | greet
  /-- `send` flushes the greeting -/
  | greeting
  /-- inside `forward`, with the item that the sink has not taken yet -/
  | forward (buffered : Option OwnedMsg)
  /-- `forward` closes the sink -/
  | closing
  /-- the Close is not in the sink yet -/
  | part
  /-- `send` flushes the Close -/
  | parting
  | over (e : Ending)
  deriving DecidableEq, Repr

/-- The task of one connection, examples/async-server.rs:50-68. -/
structure ServeTask where
  phase : ServePhase
  read : Framed MsgCodec
  out : Outbox
  /-- messages received (not read by the program) -/
  heard : List OwnedMsg

/-- The future given to `spawn_future` is ready, examples/async-server.rs:70. -/
def ServePhase.isOver : ServePhase → Bool
  | .over _ => true
  | _ => false

/-- As `ChatTask.after`, for examples/async-server.rs:50-67. -/
def ServeTask.after (t : ServeTask) (next : ServePhase) : SendRes × Outbox → ServeTask
  | (.ready, o) => { t with out := o, phase := next }
  | (.notReady, o) => { t with out := o }
  | (.err e, o) => { t with out := o, phase := .over (.failed e) }
  | (.panic _, o) => { t with out := o, phase := .over .panicked }

/-- `send` of the greeting (examples/async-server.rs:52), one round of `Forward::poll` as in `forwardLoop` (examples/async-server.rs:54-66), `send` of the Close
(examples/async-server.rs:67). -/
def ServeTask.turn (t : ServeTask) (s : Src) (script : List WEv) : ServeTask × Src :=
  match t.phase with
  | .over _ => (t, s)
  | .greet => (t.after .greeting (t.out.push (.text (ascii "Hello World!")) script), s)
  | .greeting => (t.after (.forward none) (t.out.flush script), s)
  | .forward (some m) => (t.after (.forward none) (t.out.push m script), s)
  | .forward none =>
    match t.read.poll msgDecoder s with
    | (.notReady, fr, s') => ({ t with read := fr }.after (.forward none) (t.out.flush script), s')
    | (.ready (.item m), fr, s') =>
      ({ t with read := fr, heard := t.heard ++ [m], phase := if m.isClose then .closing else .forward (filterReply m) }, s')
    | (.ready .done, fr, s') => ({ t with read := fr, phase := .closing }, s')
    | (.ready (.err e), fr, s') => ({ t with read := fr, phase := .over (.failed e) }, s')
    | (.ready (.panic _), fr, s') => ({ t with read := fr, phase := .over .panicked }, s')
  | .closing => (t.after .part (t.out.flush script), s)
  | .part => (t.after .parting (t.out.push (.close none) script), s)
  | .parting => (t.after (.over .returned) (t.out.flush script), s)

/-! ## Both -/

/-- examples/async-client.rs:31-76 connected to examples/async-server.rs:48-68. -/
structure Tandem where
  chat : ChatTask
  server : ServeTask
  /-- how many bytes of the client's the server has read -/
  up : Nat
  /-- how many of the server's the client has read -/
  down : Nat

/-- No code: what the client has given to the network and the server has not read. -/
def Tandem.upTransit (x : Tandem) : Bytes := x.chat.out.wire.drop x.up

/-- No code: the same the other way. -/
def Tandem.downTransit (x : Tandem) : Bytes := x.server.out.wire.drop x.down

/-- No code of the repository, but tokio's executor, the user and the network. What happens next: a line is typed, or a task moves; its reads find up to `n` bytes and its writes up to `k` bytes of room. -/
inductive Move
  | type
  | chat (n k : Nat)
  | serve (n k : Nat)
  deriving DecidableEq, Repr

/-- No code: how many bytes were read. -/
def used (s s' : Src) : Nat := s.flat.length - s'.flat.length

/-- One step of examples/async-client.rs:31-76 or examples/async-server.rs:48-68. -/
def Tandem.step (r : Room) (x : Tandem) : Move → Tandem
  | .type => { x with chat := x.chat.type }
  | .chat n k =>
    let s := offered x.downTransit n x.server.phase.isOver
    match x.chat.turn s (granted (r.up - x.upTransit.length) k) with
    | (t, s') => { x with chat := t, down := x.down + used s s' }
  | .serve n k =>
    let s := offered x.upTransit n x.chat.phase.isOver
    match x.server.turn s (granted (r.down - x.downTransit.length) k) with
    | (t, s') => { x with server := t, up := x.up + used s s' }

/-- Any number of steps of the two. -/
def Tandem.run (r : Room) (x : Tandem) (es : List Move) : Tandem := es.foldl (Tandem.step r) x

/-- examples/async-client.rs:61 and examples/async-server.rs:52, after the handshake, of which everything has arrived. -/
def Tandem.start (lines : List Bytes) (cdf cmsg sdf smsg : Nat) (ckeys skeys : Nat → Key4) (cx sx : Nat) : Tandem :=
  ⟨⟨lines, none, false, .forward none, false, false, Framed.new (MsgCodec.newWithLimits .client cdf cmsg), ⟨FramedWrite.new false, [], ckeys, cx⟩, [], []⟩,
    ⟨.greet, Framed.new (MsgCodec.newWithLimits .server sdf smsg), ⟨FramedWrite.new true, [], skeys, sx⟩, []⟩, 0, 0⟩

end WS
