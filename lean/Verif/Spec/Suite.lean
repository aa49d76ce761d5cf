import Verif.Spec.Target
import Verif.Model.Base64
/-!
# A run of the test suite
-/

namespace WS.Spec

/-- What a connection of a test client is for. -/
inductive Errand
  | count
  | case (n : Nat)
  | reports
  deriving DecidableEq, Repr

/-- A run over `n` cases: ask for their number, run each of them once, in order, ask for the reports. -/
def plan (n : Nat) : List Errand := .count :: (List.range n).map (fun i => .case (i + 1)) ++ [.reports]

/-- What the server is asked for. -/
inductive Errand.Asks : Errand → List UInt8 → Prop
  | count : Asks .count (ascii "/getCaseCount")
  | case {n ds} (h : Decimal n ds) : Asks (.case n) (ascii "/runCase?case=" ++ ds ++ ascii "&agent=rust-websocket")
  | reports : Asks .reports (ascii "/updateReports?agent=rust-websocket")

end WS.Spec
