import Verif.Model.Whole
import Verif.Model.Stranger
/-!
# examples/server.rs, and a peer that does as it likes

In Model/Whole the other end of the connection is examples/client.rs. Here there is anybody at all: the server gets a turn, or bytes come in, of whatever kind and cut in whatever way, or the
end of the stream does, from the moment the connection has been accepted by the operating system on.

Simplifications: those of Model/Whole; the transport does not fail while it is read from.
-/

namespace WS

/-- Nothing more can come that the server would see (examples/server.rs:10-46; the end of the stream is a read that returns nothing, src/receiver.rs:119-124). -/
def Host.closed : Host → Bool
  | .reading _ ended _ => ended
  | .asked _ ended => ended
  | .serving t => t.ended
  | .dropped _ => true

/-- Bytes come in. They wait in the transport until a call reads them: `into_ws` (src/server/upgrade/sync.rs:185-206), or `recv_dataframe` (src/receiver.rs:119-124). Those that come when `into_ws`
has returned (examples/server.rs:12-18) wait for the talk. -/
def Host.takes (b : Bytes) : Host → Host
  | .reading s ended w => .reading (s ++ [.chunk b]) ended w
  | .asked u ended => .asked { u with stream := { u.stream with input := u.stream.input ++ [.chunk b] } } ended
  | .serving t => .serving { t with input := t.input ++ [.chunk b] }
  | .dropped w => .dropped w

/-- One thing happens to the server: it goes on with this connection (examples/server.rs:10-46), or bytes come, or the end of the stream. -/
def Host.meets [B64] (preq : ReqParser) (g : Given) (h : Host) : Brings → Host
  | .turn => h.turn preq g
  | .bytes b => if h.closed = true ∨ b = [] then h else h.takes b
  | .finish => h.close

/-- What has become of the connection after all that. -/
def Host.endures [B64] (preq : ReqParser) (g : Given) (h : Host) (es : List Brings) : Host := es.foldl (Host.meets preq g) h

/-- The connection has just been accepted (src/server/sync.rs:230-231). -/
def Host.start (g : Given) : Host := .reading [] false g.server

end WS
