import Verif.Model.Encounter
import Verif.Model.Stranger
/-!
# A program that opens its connection, and a peer that does as it likes

In Model/Stranger the program has its connection already. Here it begins with a bare transport: a server program that calls `into_ws` and `accept`, or a client program that calls `connect_on`
(Model/Meeting), and once it has its connection chooses its calls. At the other end there is anybody at all.

Simplifications: those of Model/Meeting and Model/Stranger.
-/

namespace WS

/-- The end of the stream has come (`recv_dataframe`, src/receiver.rs:119-124, finds it by a read that returns nothing). -/
def Agent.closed : Agent → Bool
  | .opening l => l.ended
  | .talking p => p.ended
  | .failed l => l.ended

/-- What the program has written: a request (src/client/builder.rs:502-519), a response (src/server/upgrade/sync.rs:84-97), frames (src/client/sync.rs:162-194). -/
def Agent.output : Agent → Sink
  | .opening l => l.output
  | .talking p => p.output
  | .failed l => l.output

/-- One thing happens to a program that may still be opening its connection: it takes a turn in `connect_on` (src/client/builder.rs:502-519), `async_connect_on` (src/client/builder.rs:767-812),
`into_ws` and `accept` (src/server/upgrade/sync.rs:185-206 and 84-97, src/server/upgrade/async.rs:235-265 and 105-131) or in a call on the open connection; or bytes come, or the end of the stream. -/
def Visitor.meets [B64] (preq : ReqParser) (pres : ResParser) (v : Visitor) : Brings → Visitor
  | .turn => v.act preq pres
  | .bytes b => if v.agent.closed = true ∨ b = [] then v else { v with agent := v.agent.receive b }
  | .finish => { v with agent := v.agent.close }

/-- What has become of a program after all that. -/
def Visitor.endures [B64] (preq : ReqParser) (pres : ResParser) (v : Visitor) (es : List Brings) : Visitor := es.foldl (Visitor.meets preq pres) v

end WS
