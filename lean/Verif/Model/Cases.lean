import Verif.Model.Echo
/-!
# The clients that drive the Autobahn test suite

The remaining parts of examples/autobahn-client.rs and examples/async-autobahn-client.rs: asking for the number of cases,
running a case (async), asking for the reports. The conventions are those of Model/Echo. The blocking loop that runs a case is
`autobahnLoop` there. The loops are modelled from the connected client on; connecting is Model/Builder.
-/

namespace WS

/-- An item that was awaited has consumed input. -/
theorem Framed.next_item_lt {fr fr' : Framed MsgCodec} {s s' : Src} {m : OwnedMsg}
    (h : fr.next msgDecoder s = (.item m, fr', s')) : fr'.measure s' < fr.measure s := by
  fun_induction Framed.next msgDecoder fr s with
  | case1 fr s x fr1 s1 hp => cases h; exact Framed.poll_item_lt hp
  | case2 fr s fr1 s1 hp ih => exact Nat.lt_trans (ih h) (Framed.poll_wait_lt hp)

/-- The loop of examples/async-autobahn-client.rs:35-70: every call is awaited before the next. An error of the stream is
followed by a close (`or_else`) and counts as the end of the stream; at the end of the stream the loop ends without a word. An
error of a send ends the future (`.failed`). -/
def asyncCaseLoop (keys : Nat → Key4) (extra : Nat) (fr : Framed MsgCodec) (s : Src) (fw : FramedWrite) (w : Sink) : Ending × Sink :=
  match h : fr.next msgDecoder s with
  | (.item m, fr', s') =>
    match m with
    | .text t => match fw.sendAwait (OwnedMsg.text t).view (keys 0) extra w with
      | (.ready, fw', w') => asyncCaseLoop (fun n => keys (n + 1)) extra fr' s' fw' w'
      | (.err e, _, w') => (.failed e, w')
      | (_, _, w') => (.panicked, w')
    | .binary b => match fw.sendAwait (OwnedMsg.binary b).view (keys 0) extra w with
      | (.ready, fw', w') => asyncCaseLoop (fun n => keys (n + 1)) extra fr' s' fw' w'
      | (.err e, _, w') => (.failed e, w')
      | (_, _, w') => (.panicked, w')
    | .ping d => match fw.sendAwait (OwnedMsg.pong d).view (keys 0) extra w with
      | (.ready, fw', w') => asyncCaseLoop (fun n => keys (n + 1)) extra fr' s' fw' w'
      | (.err e, _, w') => (.failed e, w')
      | (_, _, w') => (.panicked, w')
    | .close _ => match fw.sendAwait (OwnedMsg.close none).view (keys 0) extra w with
      | (.ready, _, w') => (.returned, w')
      | (.err e, _, w') => (.failed e, w')
      | (_, _, w') => (.panicked, w')
    | .pong _ => asyncCaseLoop keys extra fr' s' fw w
  | (.done, _, _) => (.returned, w)
  | (.err _, _, _) => match fw.sendAwait (OwnedMsg.close none).view (keys 0) extra w with
    | (.ready, _, w') => (.returned, w')
    | (.err e, _, w') => (.failed e, w')
    | (_, _, w') => (.panicked, w')
  | (.panic _, _, _) => (.panicked, w)
termination_by fr.measure s
decreasing_by all_goals exact Framed.next_item_lt h

/-- `usize::MAX` on a 64 bit machine. -/
def usizeMax : Nat := 2 ^ 64 - 1

/-- One round of the loop of `usize::from_str_radix(_, 10)`: `to_digit`, `checked_mul`, `checked_add` (standard library, a
trusted dependency model). -/
def addDigit (n : Nat) (c : UInt8) : Option Nat :=
  if 48 ≤ c ∧ c ≤ 57 then
    if n * 10 > usizeMax then none
    else if n * 10 + (c.toNat - 48) > usizeMax then none else some (n * 10 + (c.toNat - 48))
  else none

/-- `str::parse::<usize>` (standard library, a trusted dependency model): an error for the empty string and for a lone sign; a
leading `+` is skipped, a `-` is no digit. -/
def parseUsize : Bytes → Option Nat
  | [] => none
  | [c] => if c = 43 ∨ c = 45 then none else addDigit 0 c
  | c :: d :: cs => if c = 43 then (d :: cs).foldlM addDigit 0 else (c :: d :: cs).foldlM addDigit 0

/-- The loop of `get_case_count`, examples/autobahn-client.rs:78-105. `none` is a panic (`parse().unwrap()`, a failed pong). -/
def caseCountLoop (keys : Nat → Key4) (count : Nat) (r : Receiver) (s : Src) (w : Writer) : Option Nat × Writer :=
  match h : r.recvMessage s with
  | (.ok m, r', s') =>
    match m with
    | .text t => match parseUsize t with
      | some n => caseCountLoop keys n r' s' w
      | none => (none, w)
    | .close _ => match w.send Msg.closeEmpty.view (keys 0) with
      | (_, w') => (some count, w')
    | .ping d => match w.send (OwnedMsg.pong d).view (keys 0) with
      | (.ok _, w') => caseCountLoop (fun n => keys (n + 1)) count r' s' w'
      | (_, w') => (none, w')
    | .binary _ => caseCountLoop keys count r' s' w
    | .pong _ => caseCountLoop keys count r' s' w
  | (.err _, _, _) => match w.send (Msg.closeBecause 1002 []).view (keys 0) with
    | (_, w') => (some count, w')
  | (.panic _, _, _) => (none, w)
termination_by s.measure
decreasing_by all_goals exact recvMessage_measure h

/-- The loop of `update_reports`, examples/autobahn-client.rs:123-144: pings are answered until a close or an error. -/
def reportsLoop (keys : Nat → Key4) (r : Receiver) (s : Src) (w : Writer) : Ending × Writer :=
  match h : r.recvMessage s with
  | (.ok m, r', s') =>
    match m with
    | .close _ => match w.send Msg.closeEmpty.view (keys 0) with
      | (_, w') => (.returned, w')
    | .ping d => match w.send (OwnedMsg.pong d).view (keys 0) with
      | (.ok _, w') => reportsLoop (fun n => keys (n + 1)) r' s' w'
      | (_, w') => (.panicked, w')
    | _ => reportsLoop keys r' s' w
  | (.err _, _, _) => match w.send Msg.closeEmpty.view (keys 0) with
    | (_, w') => (.returned, w')
  | (.panic _, _, _) => (.panicked, w)
termination_by s.measure
decreasing_by all_goals exact recvMessage_measure h

/-- `get_case_count`, examples/async-autobahn-client.rs:94-99: the first item only. `none` is a panic: `parse().unwrap()`, or
`unwrap()` on the error of the future. Nothing is sent. -/
def asyncCaseCount (fr : Framed MsgCodec) (s : Src) : Option Nat :=
  match fr.next msgDecoder s with
  | (.item (.text t), _, _) => parseUsize t
  | _ => none

/-- `update_reports`, examples/async-autobahn-client.rs:106-110: a close is sent, nothing is received. `unwrap()` panics if it
cannot be sent. -/
def asyncReports (keys : Nat → Key4) (extra : Nat) (fw : FramedWrite) (w : Sink) : Ending × Sink :=
  match fw.sendAwait (OwnedMsg.close none).view (keys 0) extra w with
  | (.ready, _, w') => (.returned, w')
  | (_, _, w') => (.panicked, w')

end WS
