import Verif.Model.Desk
/-!
# examples/async-server.rs and everybody who calls

Model/Desk is about one connection. Here are all of them. The future that main blocks on has all those in hand whose heads have not come yet (`buffer_unordered` without a limit, src/server/async.rs:87);
each of the others is a task of its own or has been dropped. An executor decides which of the futures is polled next; peers connect, send and hang up when they like.

Simplifications: those of Model/Desk; which of its connections the main future goes on with when it is polled, and how often, is up to `FuturesUnordered`, and therefore anything can be the case here.
The operating system's `accept` and `peer_addr` do not fail (if they do, the filter of examples/async-server.rs:27-35 asks for the next).
-/

namespace WS

/-- All connections of the server. -/
structure Bureau where
  /-- how many have been made -/
  made : Nat
  conns : Nat → Desk

/-- What happens to it. -/
inductive Occasion
  /-- somebody connects -/
  | connects
  /-- the main future is polled and polls the handshakes of these connections; each of them finds up to `n` of the bytes that have come -/
  | main (ps : List (Nat × Nat))
  /-- the task of a connection is polled: it finds up to `n` of the bytes that have come, and room for `k` -/
  | task (i n k : Nat)
  /-- bytes come on a connection -/
  | bytes (i : Nat) (b : Bytes)
  /-- a peer has closed its side -/
  | finish (i : Nat)

/-- Still inside `into_ws` (src/server/upgrade/async.rs:235-265). -/
def Desk.isReading (x : Desk) : Bool :=
  match x.door with
  | .reading _ => true
  | _ => false

/-- One connection has changed. -/
def Bureau.put (x : Bureau) (i : Nat) (d : Desk) : Bureau := { x with conns := fun j => if j = i then d else x.conns j }

/-- The main future goes on with one of the connections that it has in hand (src/server/async.rs:64-89). If `into_ws` is ready then the filter drops the connection (examples/async-server.rs:27-35), or
`for_each` makes a task of it (examples/async-server.rs:38-72); nothing is written in either case. -/
def Bureau.reads [B64] (preq : ReqParser) (x : Bureau) (p : Nat × Nat) : Bureau :=
  if p.1 < x.made ∧ (x.conns p.1).isReading = true then x.put p.1 ((x.conns p.1).poll preq p.2 0) else x

/-- One thing happens. A task, examples/async-server.rs:43 or :48-70, is there when the head has been read. -/
def Bureau.meets [B64] (preq : ReqParser) (x : Bureau) : Occasion → Bureau
  | .connects => { x with made := x.made + 1 }
  | .main ps => ps.foldl (Bureau.reads preq) x
  | .task i n k => if i < x.made ∧ (x.conns i).isReading = false then x.put i ((x.conns i).poll preq n k) else x
  | .bytes i b => if i < x.made then x.put i ((x.conns i).meets preq (.bytes b)) else x
  | .finish i => if i < x.made then x.put i ((x.conns i).meets preq .finish) else x

/-- What has become of the connections after all that. -/
def Bureau.endures [B64] (preq : ReqParser) (x : Bureau) (es : List Occasion) : Bureau := es.foldl (Bureau.meets preq) x

/-- The server has been bound (examples/async-server.rs:18). -/
def Bureau.start (keys : Nat → Nat → Key4) (extra : Nat → Nat) : Bureau := ⟨0, fun i => Desk.start (keys i) (extra i)⟩

end WS
