import Verif.Model.BufReader
import Verif.Model.Receiver
/-!
# The blocking client and its halves

src/client/sync.rs, src/receiver.rs:24-58, src/sender.rs:16-59, websocket-base/src/stream.rs:126-156.
Receive functions only call `Read::read` on the buffered stream, so running one over a `BufReader`
is running it on `BufReader.src` and storing what is left (`BufReader.restore`; Lemmas/BufReader
proves this for the loops actually used). Accessors to the stream (`stream_ref`, `reader_mut`,
`set_nonblocking`, `shutdown`, …; src/client/sync.rs:65-111, 234-302) hand the stream to the user
and are the subject of Model/Raw.
-/

namespace WS

/-- `Client`, src/client/sync.rs:55-63. -/
structure Client where
  headers : Headers
  stream : BufReader Duplex
  sender : Sender
  receiver : Receiver
  deriving DecidableEq, Repr

/-- `Client::unchecked`, src/client/sync.rs:122-134. -/
def Client.unchecked (stream : BufReader Duplex) (headers : Headers) (outMask inMask : Bool) : Client :=
  ⟨headers, stream, ⟨outMask⟩, Receiver.new inMask⟩

/-- `Client::unchecked_with_limits`, src/client/sync.rs:137-151. -/
def Client.uncheckedWithLimits (stream : BufReader Duplex) (headers : Headers) (outMask inMask : Bool)
    (maxDf maxMsg : Nat) : Client :=
  ⟨headers, stream, ⟨outMask⟩, Receiver.newWithLimits inMask maxDf maxMsg⟩

/-- `send_dataframe` / `send_message`, src/client/sync.rs:154-167: written to the transport below
the buffer. -/
def Client.send (c : Client) (v : FrameView) (key : Key4) : Res Unit × Client :=
  match c.sender.send v key c.stream.inner.output with
  | (r, w) => (r, { c with stream := { c.stream with inner := { c.stream.inner with output := w } } })

/-- `recv_dataframe`, src/client/sync.rs:170-172. -/
def Client.recvDataframe (c : Client) : Res DataFrame × Client :=
  match c.receiver.recvDataframe c.stream.src with
  | (r, s) => (r, { c with stream := c.stream.restore s })

/-- `recv_message`, src/client/sync.rs:192-194. -/
def Client.recvMessage (c : Client) : Res OwnedMsg × Client :=
  match c.receiver.recvMessage c.stream.src with
  | (r, rx, s) => (r, { c with receiver := rx, stream := c.stream.restore s })

/-- `protocols`, src/client/sync.rs:217-222. -/
def Client.protocols (c : Client) : List Bytes := c.headers.getProtocol.getD []

/-- `extensions`, src/client/sync.rs:227-232. -/
def Client.extensions (c : Client) : List Ext := c.headers.getExtensions.getD []

/-- `into_stream`, src/client/sync.rs:311-314. -/
def Client.intoStream (c : Client) : Duplex × Option (Bytes × Nat × Nat) :=
  match c.stream.intoParts with
  | (stream, buf, pos, cap) => (stream, some (buf, pos, cap))

/-- `Reader`, src/receiver.rs:24-32. -/
structure Reader where
  stream : BufReader Src
  receiver : Receiver
  deriving DecidableEq, Repr

/-- `recv_dataframe`, src/receiver.rs:39-41. -/
def Reader.recvDataframe (x : Reader) : Res DataFrame × Reader :=
  match x.receiver.recvDataframe x.stream.src with
  | (r, s) => (r, { x with stream := x.stream.restore s })

/-- `recv_message`, src/receiver.rs:49-51. -/
def Reader.recvMessage (x : Reader) : Res OwnedMsg × Reader :=
  match x.receiver.recvMessage x.stream.src with
  | (r, rx, s) => (r, { x with receiver := rx, stream := x.stream.restore s })

/-- `Writer`, src/sender.rs:16-21. -/
structure Writer where
  stream : Sink
  sender : Sender
  deriving DecidableEq, Repr

/-- `send_dataframe` / `send_message`, src/sender.rs:28-43. -/
def Writer.send (x : Writer) (v : FrameView) (key : Key4) : Res Unit × Writer :=
  match x.sender.send v key x.stream with
  | (r, w) => (r, { x with stream := w })

/-- `Splittable::split`, websocket-base/src/stream.rs:136-156: a `ReadWritePair` always splits; a
`TcpStream` splits if the operating system can duplicate the handle (`clone`). Both handles of a
TCP connection read the same incoming and write the same outgoing stream. -/
def Duplex.split (d : Duplex) (clone : Except IoKind Unit) : Except IoKind (Src × Sink) :=
  match clone with
  | .ok () => .ok (d.input, d.output)
  | .error k => .error k

/-- `Client::split`, src/client/sync.rs:386-404. On an error the client is gone. -/
def Client.split (c : Client) (clone : Except IoKind Unit) : Except IoKind (Reader × Writer) :=
  match c.stream.intoParts with
  | (stream, buf, pos, cap) =>
    match stream.split clone with
    | .error k => .error k
    | .ok (read, write) =>
      .ok ({ stream := .fromParts read buf pos cap, receiver := c.receiver },
           { stream := write, sender := c.sender })

/-! ## Programs using a client -/

/-- A call on a client, or on one of its halves. -/
inductive ClientOp
  | recvMessage
  | recvDataframe
  | send (v : FrameView) (key : Key4)

/-- The answer. -/
inductive OpRes
  | message (r : Res OwnedMsg)
  | dataframe (r : Res DataFrame)
  | sent (r : Res Unit)

/-- One call on a client. -/
def Client.step (c : Client) : ClientOp → OpRes × Client
  | .recvMessage => match c.recvMessage with | (r, c') => (.message r, c')
  | .recvDataframe => match c.recvDataframe with | (r, c') => (.dataframe r, c')
  | .send v key => match c.send v key with | (r, c') => (.sent r, c')

/-- A sequence of calls; the caller goes on after errors. -/
def Client.run : List ClientOp → Client → List OpRes × Client
  | [], c => ([], c)
  | op :: ops, c =>
    match c.step op with
    | (r, c') => match Client.run ops c' with
      | (rs, c'') => (r :: rs, c'')

/-- One call on the halves. -/
def pairStep (p : Reader × Writer) : ClientOp → OpRes × (Reader × Writer)
  | .recvMessage => match p.1.recvMessage with | (r, x) => (.message r, (x, p.2))
  | .recvDataframe => match p.1.recvDataframe with | (r, x) => (.dataframe r, (x, p.2))
  | .send v key => match p.2.send v key with | (r, x) => (.sent r, (p.1, x))

/-- An interleaving of calls on the two halves. -/
def pairRun : List ClientOp → Reader × Writer → List OpRes × (Reader × Writer)
  | [], p => ([], p)
  | op :: ops, p =>
    match pairStep p op with
    | (r, p') => match pairRun ops p' with
      | (rs, p'') => (r :: rs, p'')

end WS
