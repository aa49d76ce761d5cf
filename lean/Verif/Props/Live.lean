import Verif.Lemmas.Live
import Verif.Props.Keys
/-!
# C75: examples/client.rs and examples/server.rs, side by side, come to an end
-/

namespace WS
open Spec

/-- Whatever the schedule, whatever fits in the network, whatever the user types: the server never panics and hears what was typed, in order; the user sees
the greeting, then what the server says to what it heard, in order, and no error; the client goes on listening until the server is done. -/
theorem C75_safe (lines : List Bytes) (cdf cmsg sdf smsg : Nat) (hf : Fitting lines (min cdf u32Max) (min sdf u32Max)) (cw sw : Writer)
    (keys skeys : Nat → Key4) (hcm : cw.sender.mask = true) (hsm : sw.sender.mask = false) (hcw : cw.stream.Willing) (hsw : sw.stream.Willing)
    (r : Room) (es : List Beat) :
    let x := (Duo.start lines (Receiver.newWithLimits false cdf cmsg) (Receiver.newWithLimits true sdf smsg) cw sw keys skeys).run r es
    x.server.ending ≠ some .panicked ∧
    (∃ p, x.chat.typed <+: lines.map trim ++ List.replicate p []) ∧
    x.chat.taken.map OwnedMsg.spec <+: x.chat.typed.map lineSays ∧
    x.server.heard.map OwnedMsg.spec <+: x.chat.taken.map OwnedMsg.spec ∧
    (∃ ms : List OwnedMsg, x.chat.heard = ms.map Res.ok ∧ ms.map OwnedMsg.spec <+: screen (x.server.heard.map OwnedMsg.spec)) ∧
    (x.server.ending = none → x.chat.listening = true) := by
  intro x
  obtain ⟨bu, bd, h⟩ := duo_run hf r es (duo_start lines (Receiver.newWithLimits false cdf cmsg) (Receiver.newWithLimits true sdf smsg) cw sw keys skeys hcm hsm hcw hsw)
  exact duo_safe h

/-- Every line is answered: if everybody gets turns, and the network carries, again and again, then there comes a time from which on the user has seen the
greeting and the answers to the first `j` lines (after the last line, `read_line` goes on giving empty ones), unless a line before asked to leave. -/
theorem C75_answered (lines : List Bytes) (cdf cmsg sdf smsg : Nat) (hf : Fitting lines (min cdf u32Max) (min sdf u32Max)) (cw sw : Writer)
    (keys skeys : Nat → Key4) (hcm : cw.sender.mask = true) (hsm : sw.sender.mask = false) (hcw : cw.stream.Willing) (hsw : sw.stream.Willing)
    (r : Room) (f : Nat → Beat) (hfair : FairBeat f) (j : Nat) (hj : ascii "/close" ∉ (lines.map trim).take (j - 1)) :
    ∃ n, ∀ m, n ≤ m →
      let x := (Duo.start lines (Receiver.newWithLimits false cdf cmsg) (Receiver.newWithLimits true sdf smsg) cw sw keys skeys).run r ((List.range m).map f)
      ∃ ms : List OwnedMsg, x.chat.heard = ms.map Res.ok ∧
        (ms.map OwnedMsg.spec).take (j + 1) = screen (((lines.map trim ++ List.replicate j []).take j).map lineSays) := by
  exact duo_answered hf (duo_start lines (Receiver.newWithLimits false cdf cmsg) (Receiver.newWithLimits true sdf smsg) cw sw keys skeys hcm hsm hcw hsw) r hfair j hj

/-- It ends: when a line asks to leave, there comes a time from which on both programs are done, without a panic; the server has heard the lines up to that one
and a Close, and the user has seen the greeting, the answers and a Close. -/
theorem C75_ends (lines : List Bytes) (cdf cmsg sdf smsg : Nat) (hf : Fitting lines (min cdf u32Max) (min sdf u32Max)) (cw sw : Writer)
    (keys skeys : Nat → Key4) (hcm : cw.sender.mask = true) (hsm : sw.sender.mask = false) (hcw : cw.stream.Willing) (hsw : sw.stream.Willing)
    (r : Room) (f : Nat → Beat) (hfair : FairBeat f) (hc : ascii "/close" ∈ lines.map trim) :
    ∃ n, ∀ m, n ≤ m →
      let x := (Duo.start lines (Receiver.newWithLimits false cdf cmsg) (Receiver.newWithLimits true sdf smsg) cw sw keys skeys).run r ((List.range m).map f)
      x.chat.done = true ∧ x.server.ending = some .returned ∧
      x.server.heard.map OwnedMsg.spec = ((lines.map trim).takeWhile (· ≠ ascii "/close")).map lineSays ++ [.close] ∧
      ∃ ms : List OwnedMsg, x.chat.heard = ms.map Res.ok ∧ ms.map OwnedMsg.spec = screen (x.server.heard.map OwnedMsg.spec) := by
  exact duo_ends hf (duo_start lines (Receiver.newWithLimits false cdf cmsg) (Receiver.newWithLimits true sdf smsg) cw sw keys skeys hcm hsm hcw hsw) r hfair hc

/-- The thread of the server modelled here is the one of C48 and C53: on an input that is all there it ends like `serverLoop` and writes the same. -/
theorem C75_same_server (t : ServerThread) (h1 : t.ended = true) (h2 : t.greeted = true) (h3 : t.ending = none) :
    ∃ n, (t.turns n).ending = some (serverLoop t.keys t.receiver t.input t.writer).1 ∧
      (t.turns n).writer = (serverLoop t.keys t.receiver t.input t.writer).2 :=
  serverLoop_turns _ _ _ _ t rfl rfl rfl rfl h1 h2 h3

/-! ## A concrete case -/

def liveLines : List Bytes := [ascii " hi\n", ascii "/ping\n", ascii "/close\r\n", ascii "not read"]

theorem liveLines_fit : Fitting liveLines (min 200 u32Max) (min 200 u32Max) := by
  have : ∀ l ∈ liveLines, (Message.text l).Sendable 200 := by
    intro l hl
    simp only [liveLines, List.mem_cons, List.not_mem_nil, or_false] at hl
    rcases hl with rfl | rfl | rfl | rfl <;> exact ⟨isUtf8_ascii (by decide), by decide⟩
  exact ⟨this, this, by decide⟩

/-- Everybody in turn, one byte at a time. -/
def liveTurns (n : Nat) : Beat :=
  if n % 6 = 0 then .turn .main else if n % 6 = 1 then .turn .receive else if n % 6 = 2 then .turn .send
  else if n % 6 = 3 then .serve else if n % 6 = 4 then .up 0 else .down 0

theorem liveTurns_fair : FairBeat liveTurns := by
  intro n
  refine ⟨fun t => ?_, ⟨6 * n + 3, by omega, ?_⟩, ⟨6 * n + 4, 0, by omega, ?_⟩, 6 * n + 5, 0, by omega, ?_⟩
  · cases t
    · exact ⟨6 * n, by omega, by unfold liveTurns; simp [Nat.mul_mod_right]⟩
    · exact ⟨6 * n + 1, by omega, by unfold liveTurns; simp [Nat.mul_add_mod]⟩
    · exact ⟨6 * n + 2, by omega, by unfold liveTurns; simp [Nat.mul_add_mod]⟩
  all_goals (unfold liveTurns; simp [Nat.mul_add_mod])

def liveStart : Duo :=
  Duo.start liveLines (Receiver.newWithLimits false 200 200) (Receiver.newWithLimits true 200 200) ⟨⟨[], []⟩, ⟨true⟩⟩ ⟨⟨[], [.accept 2]⟩, ⟨false⟩⟩
    (fun n => ⟨UInt8.ofNat n, 1, 2, 3⟩) (fun _ => ⟨0, 0, 0, 0⟩)

def Duo.summary (x : Duo) : Bool × Option Ending × List OwnedMsg × List (Res OwnedMsg) := (x.chat.done, x.server.ending, x.server.heard, x.chat.heard)

/-- With room for nothing. -/
example : ((liveStart.run ⟨0, 0⟩ ((List.range 300).map liveTurns)).summary : Bool × Option Ending × List OwnedMsg × List (Res OwnedMsg)) =
    (true, some .returned, [.text (ascii "hi"), .ping (ascii "PING"), .close none],
      [.ok (.text (ascii "Hello")), .ok (.text (ascii "hi")), .ok (.pong (ascii "PING")), .ok (.close none)]) := by decide +kernel

example := C75_safe liveLines 200 200 200 200 liveLines_fit ⟨⟨[], []⟩, ⟨true⟩⟩ ⟨⟨[], [.accept 2]⟩, ⟨false⟩⟩ (fun n => ⟨UInt8.ofNat n, 1, 2, 3⟩) (fun _ => ⟨0, 0, 0, 0⟩)
  rfl rfl (Sink.willing_of rfl) (Sink.willing_of rfl) ⟨0, 7⟩ [.serve, .down 3, .turn .main, .turn .send, .up 20, .down 9, .serve, .turn .receive]
example := C75_answered liveLines 200 200 200 200 liveLines_fit ⟨⟨[], []⟩, ⟨true⟩⟩ ⟨⟨[], [.accept 2]⟩, ⟨false⟩⟩ (fun n => ⟨UInt8.ofNat n, 1, 2, 3⟩) (fun _ => ⟨0, 0, 0, 0⟩)
  rfl rfl (Sink.willing_of rfl) (Sink.willing_of rfl) ⟨0, 7⟩ liveTurns liveTurns_fair 3 (by decide +kernel)
example := C75_ends liveLines 200 200 200 200 liveLines_fit ⟨⟨[], []⟩, ⟨true⟩⟩ ⟨⟨[], [.accept 2]⟩, ⟨false⟩⟩ (fun n => ⟨UInt8.ofNat n, 1, 2, 3⟩) (fun _ => ⟨0, 0, 0, 0⟩)
  rfl rfl (Sink.willing_of rfl) (Sink.willing_of rfl) ⟨0, 7⟩ liveTurns liveTurns_fair (by decide +kernel)
example := C75_same_server ⟨Receiver.newWithLimits true 200 200, [.chunk [0x81, 0x81, 0, 0], .chunk [0, 0, 0x61, 0x88, 0x80, 0, 0, 0, 0]], true, ⟨⟨[], []⟩, ⟨false⟩⟩,
  fun _ => ⟨0, 0, 0, 0⟩, true, none, []⟩ rfl rfl rfl

end WS
