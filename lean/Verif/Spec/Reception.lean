import Verif.Model.Reception
import Verif.Spec.Doorstep
import Verif.Spec.Live
/-!
# What examples/server.rs owes to anybody

Made on all bytes at once; nothing here knows of cuts, turns or buffers.
-/

namespace WS
open Spec

/-- What the bytes that came are to the server: not a whole head yet; nothing it answers; a request that it turns down with these bytes; one that it grants with these bytes, and this comes behind it. -/
inductive Reception
  | waits
  | drops
  | rejects (written : Bytes)
  | serves (written rest : Bytes)
  deriving DecidableEq

/-- A request for the subprotocol `rust-websocket` is granted, another is answered with a 400, and what is no opening handshake is not answered. The head is looked for in the
first 2^19 bytes. -/
def reception [B64] (p : ReqParser) (B : Bytes) : Reception :=
  match p.parse (B.take (2 ^ 19)) with
  | .error => .drops
  | .part => if 2 ^ 19 ≤ B.length then .drops else .waits
  | .complete m n =>
    match validate m.subject.method m.version m.headers, m.headers.getKey with
    | .ok (), some key =>
      if rustWebsocket ∈ m.headers.getProtocol.getD [] then .serves (head101 m.version (responseLines [.useProtocol rustWebsocket] none key)) (B.drop n)
      else .rejects (head400 m.version [])
    | _, _ => .drops

/-- What the receiving calls of the thread say when `rest` comes behind the request; the limits are the library's. -/
def hostHears (rest : Bytes) : Nat → Heard := blockingHears true (100 * 2 ^ 20) (200 * 2 ^ 20) rest

/-- The messages `ms` are the first that are heard, and a Close can only be the last of them. -/
structure Course (hearing : Nat → Heard) (ms : List OwnedMsg) : Prop where
  heard : ∀ i m, ms[i]? = some m → hearing i = .message m
  open_ : ∀ i m, ms[i]? = some m → i + 1 < ms.length → m.isClose = false

/-- The peer has said goodbye. -/
def Parted (ms : List OwnedMsg) : Prop := ∃ m, ms.getLast? = some m ∧ m.isClose = true

/-- There is nothing left to answer. -/
def Exhausted (hearing : Nat → Heard) (ms : List OwnedMsg) : Prop := Parted ms ∨ ∀ m, hearing ms.length ≠ .message m

end WS
