import Verif.Model.Client
/-!
# Raw access to a client's stream, and shutting it down

src/client/sync.rs:65-111, 234-314 (`reader_mut`, `writer_mut`, `shutdown_sender`, `shutdown_receiver`,
`shutdown`), src/receiver.rs:60-75 and src/sender.rs:45-60 (the same on the halves). `reader_mut` gives the buffered reader,
`writer_mut` the transport below it; what a program does with them are the standard library's loops over `Read::read` and
`Write::write`. `peer_addr`, `local_addr`, `set_nodelay` are calls on the socket that do not concern the bytes;
`set_nonblocking` makes reads answer `WouldBlock`, which the scripts of Model/IO contain anyway.
-/

namespace WS

/-- `std::io::default_read_to_end` without a limit: `read` until `Ok(0)`, retrying on `Interrupted`; what was read before an
error stays in the vector. How many bytes each `read` asks for (`Vec` growth, probing) does not matter (`toEndLoop_any`), so
this is a recursion over the script. -/
def toEnd : Src → Except IoKind Unit × Bytes × Src
  | [] => (.ok (), [], [])
  | .error k :: rest => if k = .interrupted then toEnd rest else (.error k, [], rest)
  | .chunk b :: rest =>
    if b = [] then (.ok (), [], rest)
    else match toEnd rest with
      | (r, bs, s) => (r, b ++ bs, s)

/-- The loop itself: the `i`-th `read` asks for `size i + 1` bytes. -/
def toEndLoop (size : Nat → Nat) (i : Nat) (s : Src) : Except IoKind Unit × Bytes × Src :=
  match h : read1 (size i + 1) s with
  | (.ok [], s') => (.ok (), [], s')
  | (.ok (b :: bs), s') =>
    match toEndLoop size (i + 1) s' with
    | (r, more, s'') => (r, b :: bs ++ more, s'')
  | (.error k, s') => if k = .interrupted then toEndLoop size (i + 1) s' else (.error k, [], s')
termination_by s.measure
decreasing_by
  all_goals exact read1_measure (Nat.succ_ne_zero _) h (by simp)

/-- `client.reader_mut().read(buf)` with a buffer of `n` bytes, src/client/sync.rs:276-302. -/
def Client.rawRead (c : Client) (n : Nat) : Except IoKind Bytes × Client :=
  match c.stream.read n with
  | (r, b) => (r, { c with stream := b })

/-- `client.reader_mut().read_exact(buf)` (`bufExact_src`: the loop over `rawRead`). -/
def Client.rawReadExact (c : Client) (n : Nat) : Except IoKind Bytes × Client :=
  match readExact n c.stream.src with
  | (r, s) => (r, { c with stream := c.stream.restore s })

/-- `client.reader_mut().read_to_end(&mut buf)`: the outcome and what was added to `buf`. -/
def Client.rawToEnd (c : Client) : Except IoKind Unit × Bytes × Client :=
  match toEnd c.stream.src with
  | (r, bs, s) => (r, bs, { c with stream := c.stream.restore s })

/-- The client with another outgoing side. -/
def Client.withOutput (c : Client) (w : Sink) : Client :=
  { c with stream := { c.stream with inner := { c.stream.inner with output := w } } }

/-- The client with another incoming side; the buffer stays. -/
def Client.withInput (c : Client) (s : Src) : Client :=
  { c with stream := { c.stream with inner := { c.stream.inner with input := s } } }

/-- `client.writer_mut().write(bs)`, src/client/sync.rs:249-274. -/
def Client.rawWrite (c : Client) (bs : Bytes) : Except IoKind Nat × Client :=
  match c.stream.inner.output.write bs with
  | (r, w) => (r, c.withOutput w)

/-- `client.writer_mut().write_all(bs)`. -/
def Client.rawWriteAll (c : Client) (bs : Bytes) : Except IoKind Unit × Client :=
  match c.stream.inner.output.writeAll bs with
  | (r, w) => (r, c.withOutput w)

/-- The calls a program can mix. -/
inductive RawOp
  | op (o : ClientOp)
  | read (n : Nat)
  | readExact (n : Nat)
  | toEnd
  | write (bs : Bytes)
  | writeAll (bs : Bytes)

/-- Their answers. -/
inductive RawRes
  | op (r : OpRes)
  | read (r : Except IoKind Bytes)
  | toEnd (r : Except IoKind Unit) (bs : Bytes)
  | write (r : Except IoKind Nat)
  | writeAll (r : Except IoKind Unit)

/-- One call. -/
def Client.rawStep (c : Client) : RawOp → RawRes × Client
  | .op o => match c.step o with | (r, c') => (.op r, c')
  | .read n => match c.rawRead n with | (r, c') => (.read r, c')
  | .readExact n => match c.rawReadExact n with | (r, c') => (.read r, c')
  | .toEnd => match c.rawToEnd with | (r, bs, c') => (.toEnd r bs, c')
  | .write bs => match c.rawWrite bs with | (r, c') => (.write r, c')
  | .writeAll bs => match c.rawWriteAll bs with | (r, c') => (.writeAll r, c')

/-- A sequence of calls. -/
def Client.rawRun : List RawOp → Client → List RawRes × Client
  | [], c => ([], c)
  | o :: ops, c =>
    match c.rawStep o with
    | (r, c') => match Client.rawRun ops c' with
      | (rs, c'') => (r :: rs, c'')

/-! ## Shutting down -/

/-- What `shutdown(Shutdown::Read)` leaves of the future answers of a socket: those the operating system has already got, the
last of them possibly in part; then `Ok(0)`, as at the end of the stream. Trusted; where the cut falls is left open. (Linux
goes on to hand out bytes that arrive still later; those are not modelled.) -/
inductive Src.Shut : Src → Src → Prop
  | now (s) : Shut s []
  | within (b rest n) : 0 < n → Shut (.chunk b :: rest) [.chunk (b.take n)]
  | later (e) {s t} : Shut s t → Shut (e :: s) (e :: t)

/-- What `shutdown(Shutdown::Write)` leaves of the outgoing side: what was accepted is still sent, every later `write` fails
(`EPIPE`, reported as `BrokenPipe`: `IoKind.other`). Scripts being finite, `n` is how often; it has to exceed the number of
calls made. Trusted. -/
def Sink.shut (n : Nat) (w : Sink) : Sink := ⟨w.wire, List.replicate n (.error .other)⟩

/-- `shutdown_sender`, src/client/sync.rs:66-70, and `Writer::shutdown`, src/sender.rs:49-53. -/
def Client.shutdownSender (c : Client) (n : Nat) : Client := c.withOutput (c.stream.inner.output.shut n)

/-- `shutdown_receiver`, src/client/sync.rs:72-76, and `Reader::shutdown`, src/receiver.rs:64-68, where the operating system
leaves `t`: the bytes in the client's own buffer are not touched. -/
def Client.shutdownReceiver (c : Client) (t : Src) : Client := c.withInput t

/-- `shutdown`, src/client/sync.rs:83-87, and `shutdown_all` of both halves, src/receiver.rs:70-74, src/sender.rs:55-59; the
halves of a split client hold the same socket. -/
def Client.shutdown (c : Client) (t : Src) (n : Nat) : Client := (c.shutdownReceiver t).shutdownSender n

end WS
