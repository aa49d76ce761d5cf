import Verif.Model.Echo
/-!
# Accepting connections

The iterator over a blocking server and the stream `incoming` of an async one, and the accept loops of
the examples.
-/

namespace WS

/-! ## Blocking -/

/-- What the operating system and (for a TLS server) the TLS library answer to one call of `accept`. -/
structure Call where
  listener : Except IoKind Duplex
  tls : Option (Except Unit Duplex)

/-- `Iterator::next` of a blocking server, src/server/sync.rs:186-193 (TLS) and 264-270 (plain): there is always
another item. The server has no state of its own. -/
def serverNext [B64] (p : ReqParser) (c : Call) : Option (Except (InvalidConnection Buffer) SyncUpgrade) :=
  some (serverAccept p c.listener c.tls)

/-- The items a `for` loop over the server sees while the operating system gives these answers; `None` would end it. -/
def serverItems [B64] (p : ReqParser) : List Call → List (Except (InvalidConnection Buffer) SyncUpgrade)
  | [] => []
  | c :: cs => match serverNext p c with
    | none => []
    | some x => x :: serverItems p cs

/-- `Result::ok`, as used by examples/server.rs:10 and examples/autobahn-server.rs:10 in `filter_map`. -/
def resultOk {ε α} : Except ε α → Option α
  | .ok a => some a
  | .error _ => none

/-! ## Async -/

abbrev Accepted := Except (InvalidConnection Bytes) AsyncUpgrade

/-- What the listener of an async server comes up with. -/
inductive Arrival
  /-- `accept` fails, src/server/async.rs:67-73 -/
  | refused (k : IoKind)
  /-- `peer_addr` fails, src/server/async.rs:66 and 125 -/
  | noPeer (k : IoKind)
  /-- a connection; `tls` is how often the TLS handshake has to wait, and what it comes to -/
  | conn (tcp : Duplex) (tls : Option (Nat × Except Unit Duplex))

/-- A handshake future: the TLS handshake, then `into_ws`. -/
inductive Handshake
  | tls (waits : Nat) (r : Except Unit Duplex)
  | http (fr : Framed Unit) (io : Duplex)

/-- The futures made for a new connection, src/server/async.rs:74-86 (plain) and 136-158 (TLS). -/
def Handshake.start (tcp : Duplex) : Option (Nat × Except Unit Duplex) → Handshake
  | none => .http (Framed.new ()) tcp
  | some (n, r) => .tls n r

/-- What a poll of a handshake future gives. -/
inductive Polled
  | ready (r : Accepted)
  | wait (h : Handshake)

/-- The combinators after the first item of the HTTP stream, src/server/upgrade/async.rs:243-262, and the `map_err` of
src/server/async.rs:77-82 and 148-153. -/
def finishHandshake [B64] (x : Item Request) (fr : Framed Unit) (io : Duplex) : Accepted :=
  match x with
  | .item msg =>
    match validate msg.subject.method msg.version msg.headers with
    | .ok () => .ok ⟨[], io, msg, fr.buf⟩
    | .error e => .error ⟨some io, some msg, some fr.buf, e⟩
  | .done => .error ⟨some io, none, some fr.buf, .io .connectionReset⟩
  | .err e => .error ⟨some io, none, some fr.buf, .ofCodec e⟩
  | .panic _ => .error ⟨some io, none, some fr.buf, .parsing⟩

/-- One poll of `into_ws`, src/server/upgrade/async.rs:235-265. -/
def pollHttp [B64] (p : ReqParser) (fr : Framed Unit) (io : Duplex) : Polled :=
  match fr.poll (httpDecoder p) io.input with
  | (.ready x, fr', s) => .ready (finishHandshake x fr' { io with input := s })
  | (.notReady, fr', s) => .wait (.http fr' { io with input := s })

/-- One poll of a handshake future; `and_then` polls the second future as soon as the first is done. -/
def Handshake.poll [B64] (p : ReqParser) : Handshake → Polled
  | .tls (n + 1) r => .wait (.tls n r)
  | .tls 0 (.error ()) => .ready (.error ⟨none, none, none, .io .other⟩)
  | .tls 0 (.ok d) => pollHttp p (Framed.new ()) d
  | .http fr io => pollHttp p fr io

/-- The state of `incoming`: `buffer_unordered` (futures 0.1.31, src/stream/buffer_unordered.rs; trusted dependency
model) holds the handshakes that are not done; `out` is what the stream has yielded. Connections are numbered as they
arrive (the code uses the peer address). -/
structure Listening where
  pending : Nat → Option Handshake
  count : Nat
  out : List (Nat × Accepted)

def Listening.new : Listening := ⟨fun _ => none, 0, []⟩

/-- What can happen: the listener has something, or a handshake is polled because its connection has. In which order
is up to the peers and the executor. -/
inductive Act
  | arrive (a : Arrival)
  | wake (n : Nat)

/-- `incoming`, src/server/async.rs:64-89 and 122-161. Errors of the listener are yielded at once, connections are put
among the pending handshakes (there is no limit: `usize::MAX`), a finished handshake is yielded. -/
def Listening.step [B64] (p : ReqParser) (s : Listening) : Act → Listening
  | .arrive (.refused k) => { s with count := s.count + 1, out := s.out ++ [(s.count, .error ⟨none, none, none, .io k⟩)] }
  | .arrive (.noPeer k) => { s with count := s.count + 1, out := s.out ++ [(s.count, .error ⟨none, none, none, .io k⟩)] }
  | .arrive (.conn tcp tls) =>
    { s with count := s.count + 1, pending := fun n => if n = s.count then some (.start tcp tls) else s.pending n }
  | .wake i => match s.pending i with
    | none => s
    | some h => match h.poll p with
      | .ready r => { s with pending := fun n => if n = i then none else s.pending n, out := s.out ++ [(i, r)] }
      | .wait h' => { s with pending := fun n => if n = i then some h' else s.pending n }

def Listening.run [B64] (p : ReqParser) (s : Listening) (acts : List Act) : Listening := acts.foldl (Listening.step p) s

/-! ## The accept loops of the examples -/

/-- `incoming().map_err(..).for_each(..)`, examples/async-autobahn-server.rs:21-25 and examples/parallel-server.rs:32-36:
`ForEach` (futures 0.1) hands every item to the closure and fails at the first error of the stream. -/
def forEach {ε α} : List (Except ε α) → List α × Option ε
  | [] => ([], none)
  | .ok a :: rest => match forEach rest with | (as, e) => (a :: as, e)
  | .error e :: _ => ([], some e)

/-- `.then(future::ok).filter(..).and_then(|event| event)` before `for_each`, examples/async-server.rs:26-39. -/
def ignoreBad {ε α} (xs : List (Except ε α)) : List (Except ε α) :=
  xs.filter fun x => match x with | .ok _ => true | .error _ => false

/-- What examples/autobahn-server.rs does on its connections, those that upgrade: each has a thread. A thread that panics
takes no other with it. -/
def autobahnMain [B64] (p : ReqParser) (clone : Except IoKind Unit) (keys : Nat → Key4) (calls : List Call) : List (Ending × Sink) :=
  ((serverItems p calls).filterMap resultOk).map (serveAutobahn clone keys)

/-- The same for examples/server.rs. -/
def exampleMain [B64] (p : ReqParser) (clone : Except IoKind Unit) (keys : Nat → Key4) (calls : List Call) : List (Ending × Sink) :=
  ((serverItems p calls).filterMap resultOk).map (serveExample clone keys)

/-- examples/async-autobahn-server.rs: what the tasks it spawns do when left to finish, and the error (if any) on which
`runtime.block_on(f).unwrap()` panics; after that no connection is accepted and the process ends. -/
def asyncAutobahnMain [B64] (keys : Nat → Key4) (extra : Nat) (yields : List Accepted) :
    List (Ending × Sink) × Option (InvalidConnection Bytes) :=
  match forEach yields with
  | (us, e) => (us.map (serveAsyncAutobahn keys extra), e)

/-- The same for examples/async-server.rs. -/
def asyncExampleMain [B64] (keys : Nat → Key4) (extra : Nat) (yields : List Accepted) :
    List (Ending × Sink) × Option (InvalidConnection Bytes) :=
  match forEach (ignoreBad yields) with
  | (us, e) => (us.map (serveAsyncExample keys extra), e)

end WS
