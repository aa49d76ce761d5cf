import Verif.Model.Accept
/-!
# A connection on its own
-/

namespace WS

/-- The transport of a connection that gets as far as talking HTTP, for a blocking server. -/
def Call.transport : Call → Option Duplex
  | ⟨.ok tcp, none⟩ => some tcp
  | ⟨.ok _, some (.ok d)⟩ => some d
  | _ => none

/-- What becomes of a connection in isolation. -/
def Arrival.outcome [B64] (p : ReqParser) : Arrival → Accepted
  | .refused k => asyncServerAccept p (.error k) none
  | .noPeer k => asyncServerAccept p (.error k) none
  | .conn tcp none => asyncServerAccept p (.ok tcp) none
  | .conn tcp (some (_, r)) => asyncServerAccept p (.ok tcp) (some r)

/-- The transport of a connection that gets as far as talking HTTP. -/
def Arrival.transport : Arrival → Option Duplex
  | .conn tcp none => some tcp
  | .conn _ (some (_, .ok d)) => some d
  | _ => none

/-- How many times it has to be polled at most. -/
def Arrival.polls : Arrival → Nat
  | .refused _ => 0
  | .noPeer _ => 0
  | .conn tcp none => tcp.input.length + 1
  | .conn _ (some (n, .ok d)) => n + d.input.length + 1
  | .conn _ (some (n, .error ())) => n + 1

/-- The connections that arrive, in order. -/
def arrivals : List Act → List Arrival
  | [] => []
  | .arrive a :: acts => a :: arrivals acts
  | .wake _ :: acts => arrivals acts

/-- How often connection `i` is polled. -/
def wakes (i : Nat) : List Act → Nat
  | [] => 0
  | .arrive _ :: acts => wakes i acts
  | .wake j :: acts => (if j = i then 1 else 0) + wakes i acts

end WS
