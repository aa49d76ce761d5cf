import Verif.Model.Echo
import Verif.Model.Text
/-!
# The three threads of examples/client.rs

The program connects, splits the client, and starts two threads: one that sends what comes out of a
channel, one that receives and puts answers into the channel; the main thread reads lines and puts
messages into the channel. The channel (`std::sync::mpsc`) is an unbounded queue; `send` fails exactly
if the receiving end is gone, `recv` fails exactly if the queue is empty and all sending ends are gone, and
waits if the queue is empty and some sending end is left. Each turn of a loop touches the channel once, so a
schedule is a sequence of turns. `println!` is left out. `read_line` succeeds (a line that is not UTF-8
would end the program); after the last line it returns `Ok(0)`, which leaves the empty string. A `Reader` is used through its buffer as everywhere
(`BufReader.src`, Lemmas/BufReader).
-/

namespace WS

/-- The threads. -/
inductive Thread
  | main
  | receive
  | send
  deriving DecidableEq, Repr

/-- The state of the program after examples/client.rs:27, and what has happened so far (the last four fields, which
no thread reads). -/
structure Chat where
  /-- lines not yet read, as they are -/
  lines : List Bytes
  receiver : Receiver
  input : Src
  writer : Writer
  /-- what `gen_mask` will return -/
  keys : Nat → Key4
  channel : List OwnedMsg
  /-- the main thread is in its loop, and holds `tx` -/
  typing : Bool
  /-- the receive thread is in its loop, and holds `tx_1` -/
  listening : Bool
  /-- the send thread is in its loop, and holds `rx` -/
  talking : Bool
  /-- lines the main thread has read, trimmed -/
  typed : List Bytes
  /-- results the receive thread has got -/
  heard : List (Res OwnedMsg)
  /-- messages the channel has taken, and from whom -/
  log : List (Thread × OwnedMsg)
  /-- messages the send thread has taken out -/
  taken : List OwnedMsg

/-- `tx.send(m)` by thread `t`: whether it succeeded. -/
def Chat.put (c : Chat) (t : Thread) (m : OwnedMsg) : Bool × Chat :=
  if c.talking then (true, { c with channel := c.channel ++ [m], log := c.log ++ [(t, m)] })
  else (false, c)

/-- examples/client.rs:99-109. `none`: the line asks to leave. -/
def lineMessage (line : Bytes) : Option OwnedMsg :=
  if line = ascii "/close" then none
  else if line = ascii "/ping" then some (.ping (ascii "PING"))
  else some (.text line)

/-- One turn of the main loop, examples/client.rs:92-118. -/
def Chat.mainTurn (c : Chat) : Chat :=
  if c.typing then
    let line := trim (c.lines.headD [])
    let c := { c with lines := c.lines.tail, typed := c.typed ++ [line] }
    match lineMessage line with
    | none => { (c.put .main (.close none)).2 with typing := false }
    | some m =>
      match c.put .main m with
      | (true, c) => c
      | (false, c) => { c with typing := false }
  else c

/-- One turn of the receive loop, examples/client.rs:61-89. A panic ends the thread. -/
def Chat.receiveTurn (c : Chat) : Chat :=
  if c.listening then
    match c.receiver.recvMessage c.input with
    | (x, r, s) =>
      let c := { c with receiver := r, input := s, heard := c.heard ++ [x] }
      match x with
      | .err _ => { (c.put .receive (.close none)).2 with listening := false }
      | .panic _ => { c with listening := false }
      | .ok (.close _) => { (c.put .receive (.close none)).2 with listening := false }
      | .ok (.ping d) =>
        match c.put .receive (.pong d) with
        | (true, c) => c
        | (false, c) => { c with listening := false }
      | .ok _ => c
  else c

/-- `sender.send_message`. -/
def Chat.say (c : Chat) (v : FrameView) : Res Unit × Chat :=
  match c.writer.send v (c.keys 0) with
  | (x, w) => (x, { c with writer := w, keys := fun n => c.keys (n + 1) })

/-- One turn of the send loop, examples/client.rs:30-56. When the thread ends, the queue is gone. -/
def Chat.sendTurn (c : Chat) : Chat :=
  if c.talking then
    match c.channel with
    | [] => if c.typing || c.listening then c else { c with talking := false }
    | m :: rest =>
      let c := { c with channel := rest, taken := c.taken ++ [m] }
      if m.isClose then { (c.say m.view).2 with talking := false, channel := [] }
      else
        match c.say m.view with
        | (.ok _, c) => c
        | (.err _, c) => { (c.say Msg.closeEmpty.view).2 with talking := false, channel := [] }
        | (.panic _, c) => { c with talking := false, channel := [] }
  else c

/-- One turn. -/
def Chat.turn (c : Chat) : Thread → Chat
  | .main => c.mainTurn
  | .receive => c.receiveTurn
  | .send => c.sendTurn

/-- A schedule. -/
def Chat.run (c : Chat) : List Thread → Chat
  | [] => c
  | t :: ts => (c.turn t).run ts

/-- The three loops start, examples/client.rs:25-29, 59, 92. -/
def Chat.start (lines : List Bytes) (r : Receiver) (s : Src) (w : Writer) (keys : Nat → Key4) : Chat :=
  ⟨lines, r, s, w, keys, [], true, true, true, [], [], [], []⟩

/-- `main` returns: all three are done, examples/client.rs:120-127. -/
def Chat.done (c : Chat) : Bool := !c.typing && !c.listening && !c.talking

/-- The calls on the builder, examples/client.rs:15-18. -/
def chatOps : List BOp := [.addProtocol (ascii "rust-websocket")]

/-- The program up to some point of its run: `connect_insecure` (here: on a given transport), `split`, the loops; examples/client.rs:12-128.
If an `unwrap()` panicked before the loops began: the transport's output. -/
def chatClient [B64] (p : ResParser) (fresh : WsKey) (url : Url) (clone : Except IoKind Unit) (lines : List Bytes) (keys : Nat → Key4)
    (ts : List Thread) (d : Duplex) : Except Sink Chat :=
  match (((Builder.init url).run chatOps).connectOn p fresh d).1 with
  | .client c => match c.split clone with
    | .ok (r, w) => .ok ((Chat.start lines r.receiver r.stream.src w keys).run ts)
    | .error _ => .error c.stream.inner.output
  | .err (some d') _ => .error d'.output
  | _ => .error d.output

/-- What the program has written. -/
def chatWire : Except Sink Chat → Bytes
  | .ok c => c.writer.stream.wire
  | .error w => w.wire

end WS
