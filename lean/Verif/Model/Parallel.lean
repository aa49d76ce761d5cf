import Verif.Model.Accept
/-!
# examples/parallel-server.rs

One program for all clients: a table of the clients' sending halves, a channel of their receiving halves, a channel of
things to send, and a timer. What happens when is up to the clients, the timer and the executor, so a run is a list of
turns. A turn is what a task does without waiting in between; tasks share nothing but the locks and channels shown here.
-/

namespace WS

/-- The sending half of a client, `SplitSink`, examples/parallel-server.rs:49 and 141-145. -/
structure Outlet where
  write : FramedWrite
  output : Sink

/-- The receiving half, `SplitStream`, examples/parallel-server.rs:49. (The halves share the client behind a lock that
is held only while one of them is polled; reading and writing touch different parts of it.) -/
structure Inlet where
  read : Framed MsgCodec
  input : Src

/-- `framed.split()`, examples/parallel-server.rs:49. -/
def AsyncClient.outlet (c : AsyncClient) : Outlet := ⟨c.write, c.stream.output⟩
def AsyncClient.inlet (c : AsyncClient) : Inlet := ⟨c.read, c.stream.input⟩

/-- `HashMap::insert` and `HashMap::remove` (standard library) on an association list. -/
def Table.insert {α} (t : List (Nat × α)) (id : Nat) (a : α) : List (Nat × α) := (id, a) :: t.filter fun p => p.1 ≠ id
def Table.remove {α} (t : List (Nat × α)) (id : Nat) : List (Nat × α) := t.filter fun p => p.1 ≠ id

/-- `Counter::next`, examples/parallel-server.rs:172-183; `Id` is `u32`. -/
def counterNext (count : Nat) : Option Nat := if count ≠ u32Max then some (count + 1) else none

/-- Why the program ended. -/
inductive Stop
  /-- `connection_handler` failed, examples/parallel-server.rs:36 and 58 -/
  | badHandshake
  /-- `receive_handler` failed, examples/parallel-server.rs:67 -/
  | badMessage
  /-- the `expect` of examples/parallel-server.rs:83 -/
  | invalidId
  deriving DecidableEq, Repr

structure Parallel where
  /-- `accept` futures spawned and not finished, examples/parallel-server.rs:43-55 -/
  opening : List AsyncUpgrade
  /-- `conn_id`, line 30 -/
  count : Nat
  /-- `connections`, line 28 -/
  pool : List (Nat × Outlet)
  /-- spawned sends, lines 86-93, with the sinks they own -/
  flying : List (Nat × Outlet)
  /-- spawned `channel.send((id, stream))`, lines 50-51 -/
  handing : List (Nat × Inlet)
  /-- contents of `receive_channel`, line 29 -/
  streams : List (Nat × Inlet)
  /-- the stream `receive_handler` is working on, lines 61-68 -/
  current : Option (Nat × Inlet)
  /-- spawned `channel.send((id, "Hi there!"))`, lines 154-157 -/
  asking : List Nat
  /-- contents of `send_channel`, line 70 -/
  asked : List Nat
  /-- the messages `process_message` was called with, lines 63-66 and 135-139 -/
  heard : List (Nat × OwnedMsg)
  /-- the lines `Sending message ..` on standard output, line 85 -/
  sending : List Nat
  /-- history: the clients as `accept` gave them -/
  opened : List (Nat × AsyncClient)
  /-- history: sinks that were dropped because a send failed, line 92 -/
  lost : List (Nat × Outlet)
  /-- history: streams that ended -/
  closed : List (Nat × Inlet)
  over : Option Stop

/-- `main` before the runtime starts, examples/parallel-server.rs:23-31 and 70. -/
def Parallel.new : Parallel := ⟨[], 0, [], [], [], [], none, [], [], [], [], [], [], [], none⟩

/-- One turn of a task. -/
inductive Turn
  /-- `incoming` yields something (examples/parallel-server.rs:33-37) -/
  | incoming (x : Accepted)
  /-- the `i`-th spawned `accept` is done (lines 43-54) -/
  | accept (i extra : Nat)
  /-- the `i`-th spawned hand-over of a stream is done (line 50) -/
  | hand (i : Nat)
  /-- the timer has fired and the task spawned by `update` runs (lines 99-113 and 147-161) -/
  | tick
  /-- the `i`-th spawned request to send is in the channel (line 155) -/
  | ask (i : Nat)
  /-- `send_handler` takes a request (lines 76-95) -/
  | send
  /-- the `i`-th spawned send is done (lines 86-93) -/
  | sent (i : Nat) (key : Key4) (extra : Nat)
  /-- `receive_handler` is polled (lines 61-68) -/
  | receive

/-- `OwnedMessage::Text("Hi there!".to_owned())`, examples/parallel-server.rs:87 and 155. -/
def hiThere : OwnedMsg := .text (ascii "Hi there!")

/-- What a turn does. Once one of the handlers has ended, `select` and `select2` drop the others, and `main` ends with a panic
(examples/parallel-server.rs:115-121); the tasks that are still running then are not followed any further.

`accept` (lines 43-54) is one turn from the counter to the table: tasks that interleave there end in the same state, since the
ids differ. If the ids have run out the `expect` panics inside the spawned task, which takes only this
connection with it (the lock of the counter is poisoned, so all further connections go the same way, as they do here). -/
def Parallel.step [B64] (st : Parallel) (t : Turn) : Parallel :=
  if st.over ≠ none then st else
  match t with
  | .incoming (.error _) => { st with over := some .badHandshake }
  | .incoming (.ok u) => { st with opening := st.opening ++ [u] }
  | .accept i extra =>
    match st.opening[i]? with
    | none => st
    | some u =>
      match u.accept extra with
      | .client c =>
        match counterNext st.count with
        | none => { st with opening := st.opening.eraseIdx i }
        | some id =>
          { st with
            opening := st.opening.eraseIdx i
            count := id
            handing := st.handing ++ [(id, c.inlet)]
            pool := Table.insert st.pool id c.outlet
            opened := st.opened ++ [(id, c)] }
      | _ => { st with opening := st.opening.eraseIdx i }
  | .hand i =>
    match st.handing[i]? with
    | none => st
    | some x => { st with handing := st.handing.eraseIdx i, streams := st.streams ++ [x] }
  | .tick => { st with asking := st.asking ++ st.pool.map Prod.fst }
  | .ask i =>
    match st.asking[i]? with
    | none => st
    | some id => { st with asking := st.asking.eraseIdx i, asked := st.asked ++ [id] }
  | .send =>
    match st.asked with
    | [] => st
    | id :: rest =>
      match st.pool.lookup id with
      | none => { st with over := some .invalidId }
      | some o =>
        { st with
          asked := rest
          pool := Table.remove st.pool id
          flying := st.flying ++ [(id, o)]
          sending := st.sending ++ [id] }
  | .sent i key extra =>
    match st.flying[i]? with
    | none => st
    | some (id, o) =>
      match o.write.sendAwait hiThere.view key extra o.output with
      | (.ready, fw, w) => { st with flying := st.flying.eraseIdx i, pool := Table.insert st.pool id ⟨fw, w⟩ }
      | (_, fw, w) => { st with flying := st.flying.eraseIdx i, lost := st.lost ++ [(id, ⟨fw, w⟩)] }
  | .receive =>
    match st.current with
    | none =>
      match st.streams with
      | [] => st
      | x :: rest => { st with current := some x, streams := rest }
    | some (id, inl) =>
      match inl.read.poll msgDecoder inl.input with
      | (.notReady, fr, s) => { st with current := some (id, ⟨fr, s⟩) }
      | (.ready (.item m), fr, s) => { st with current := some (id, ⟨fr, s⟩), heard := st.heard ++ [(id, m)] }
      | (.ready .done, fr, s) => { st with current := none, closed := st.closed ++ [(id, ⟨fr, s⟩)] }
      | (.ready _, _, _) => { st with over := some .badMessage }

def Parallel.run [B64] (st : Parallel) (ts : List Turn) : Parallel := ts.foldl Parallel.step st

end WS
