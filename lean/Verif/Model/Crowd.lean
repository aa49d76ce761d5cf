import Verif.Model.Reception
/-!
# examples/server.rs and everybody who calls

Model/Reception is about one connection. Here are all of them, in the order in which the operating system hands them out: the main thread takes them one after the other, reads the head of each to its end
before it asks for the next (`next` calls `accept`, which calls `into_ws`), and starts a thread for each that is an opening handshake. An operating system decides which thread moves next; peers connect, send
and hang up when they like.

Simplifications: those of Model/Reception; the operating system's `accept` does not fail (if it does, `filter_map(Result::ok)` asks again), and threads can be started.
-/

namespace WS

/-- All connections of the server. -/
structure Crowd where
  /-- how many have been made -/
  made : Nat
  /-- the one that the main thread waits for or reads from, examples/server.rs:10 -/
  front : Nat
  conns : Nat → Host

/-- What happens to it. -/
inductive Occurs
  /-- somebody connects -/
  | connects
  /-- the main thread has a turn -/
  | main
  /-- the thread of a connection has one -/
  | thread (i : Nat)
  /-- bytes come on a connection -/
  | bytes (i : Nat) (b : Bytes)
  /-- a peer has closed its side -/
  | finish (i : Nat)

/-- Still inside `into_ws` (src/server/upgrade/sync.rs:185-206). -/
def Host.isReading : Host → Bool
  | .reading _ _ _ => true
  | _ => false

/-- One connection has changed. -/
def Crowd.put (x : Crowd) (i : Nat) (h : Host) : Crowd := { x with conns := fun j => if j = i then h else x.conns j }

/-- One thing happens. The main thread: `next` (src/server/sync.rs:264-270) calls `accept` (src/server/sync.rs:230-253), which waits for a connection and then for its head; when it has returned, what it
returned is dropped (examples/server.rs:10) or given to a new thread (examples/server.rs:12), and `next` is called again. A thread: examples/server.rs:13-45. -/
def Crowd.meets [B64] (preq : ReqParser) (g : Nat → Given) (x : Crowd) : Occurs → Crowd
  | .connects => { x with made := x.made + 1 }
  | .main =>
    if x.front < x.made then
      let h := (x.conns x.front).turn preq (g x.front)
      { x.put x.front h with front := if h.isReading then x.front else x.front + 1 }
    else x
  | .thread i => if i < x.front then x.put i ((x.conns i).turn preq (g i)) else x
  | .bytes i b => if i < x.made then x.put i ((x.conns i).meets preq (g i) (.bytes b)) else x
  | .finish i => if i < x.made then x.put i ((x.conns i).meets preq (g i) .finish) else x

/-- What has become of the connections after all that. -/
def Crowd.endures [B64] (preq : ReqParser) (g : Nat → Given) (x : Crowd) (es : List Occurs) : Crowd := es.foldl (Crowd.meets preq g) x

/-- The server has been bound (examples/server.rs:8). -/
def Crowd.start (g : Nat → Given) : Crowd := ⟨0, 0, fun i => Host.start (g i)⟩

end WS
