import Verif.Lemmas.Whole
import Verif.Spec.Whole
import Verif.Props.Live
/-!
# C79: examples/client.rs and examples/server.rs, from the first byte of the request to the end
-/

namespace WS
open Spec

theorem whole_heads [B64] (k : WsKey) : wholeAsk k = chatRequest k.serialize ∧ wholeAnswer k = chatAnswer (WsAccept.new k).serialize ∧
    chars (WsAccept.new k).serialize = acceptText (k.bytes.map UInt8.toNat) := by
  have e1 : wholeAsk k = chatRequest k.serialize := (C78_requests k).1
  have e2 : wholeAnswer k = chatAnswer (WsAccept.new k).serialize := by
    have a : ascii "HTTP/1.1 101 Switching Protocols" ++ ascii "\r\n" ++ (nProtocol ++ ascii ": " ++ rustWebsocket ++ ascii "\r\n") ++ (nAccept ++ ascii ": ") =
        ascii "HTTP/1.1 101 Switching Protocols\r\nSec-WebSocket-Protocol: rust-websocket\r\nSec-WebSocket-Accept: " := by decide +kernel
    have b : ascii "\r\n" ++ (nConnection ++ ascii ": " ++ ascii "Upgrade" ++ ascii "\r\n") ++ (nUpgrade ++ ascii ": " ++ ascii "websocket" ++ ascii "\r\n") ++ ascii "\r\n" =
        ascii "\r\nConnection: Upgrade\r\nUpgrade: websocket\r\n\r\n" := by decide +kernel
    have c : head101 .http11 = Head (ascii "HTTP/1.1 101 Switching Protocols") := rfl
    unfold wholeAnswer chatAnswer
    rw [wholeAnswer_lines, c, ← a, ← b]
    generalize (WsAccept.new k).serialize = z
    simp only [Head, List.flatMap_cons, List.flatMap_nil, List.append_nil, List.append_assoc]
  have e3 : chars (WsAccept.new k).serialize = acceptText (k.bytes.map UInt8.toNat) := (C32_accept_value k).1
  exact ⟨e1, e2, e3⟩

section
variable [B64] (preq : ReqParser) (pres : ResParser) (g : Given) (hg : g.Sound) (lines : List Bytes) (hf : Fitting lines (100 * 2 ^ 20) (100 * 2 ^ 20)) (r : Room)
include hg hf

/-- Whatever the schedule, whatever fits in the network, whatever the user types: neither `unwrap()` of the handshake panics, the server does not drop the client, and its thread
does not panic; when the client has its connection, the server has its own, and both are where C75 says. -/
theorem C79_safe (es : List Beat) :
    let x := (Whole.start g).run preq pres g lines r es
    (∀ w, x.guest ≠ .panicked w) ∧ (∀ w, x.host ≠ .dropped w) ∧
    (∀ t, x.host = .serving t → t.ending ≠ some .panicked) ∧
    (∀ s w, x.guest = .dialling s w → ∀ t, x.host = .serving t → t.heard = [] ∧ t.ending = none) ∧
    ∀ c, x.guest = .chatting c → ∃ t, x.host = .serving t ∧
      (∃ p, c.typed <+: lines.map trim ++ List.replicate p []) ∧
      c.taken.map OwnedMsg.spec <+: c.typed.map lineSays ∧
      t.heard.map OwnedMsg.spec <+: c.taken.map OwnedMsg.spec ∧
      (∃ ms : List OwnedMsg, c.heard = ms.map Res.ok ∧ ms.map OwnedMsg.spec <+: screen (t.heard.map OwnedMsg.spec)) ∧
      (t.ending = none → c.listening = true) := by
  intro x
  obtain ⟨n, h, -⟩ := run_come preq pres g lines r hg hf es (come_start g lines hg)
  change Come g lines x n at h
  generalize x = y at h
  cases h with
  | quiet => exact ⟨fun _ q => (by cases q), fun _ q => (by cases q), fun _ q => (by cases q), fun _ _ _ _ q => (by cases q), fun _ q => (by cases q)⟩
  | asking => exact ⟨fun _ q => (by cases q), fun _ q => (by cases q), fun _ q => (by cases q), fun _ _ _ _ q => (by cases q), fun _ q => (by cases q)⟩
  | asked => exact ⟨fun _ q => (by cases q), fun _ q => (by cases q), fun _ q => (by cases q), fun _ _ _ _ q => (by cases q), fun _ q => (by cases q)⟩
  | answering wc s t bs k hc ht =>
    refine ⟨fun _ q => (by cases q), fun _ q => (by cases q), fun _ q => ?_, fun _ _ _ _ q => ?_, fun _ q => (by cases q)⟩
    · cases q; rw [ht.ending]; simp
    · cases q; exact ⟨ht.heard, ht.ending⟩
  | talking z cdf cmsg sdf smsg bu bd h1 h2 h hx =>
    obtain ⟨a1, a2, a3, a4, a5, a6⟩ := duo_safe h
    refine ⟨fun _ q => (by cases q), fun _ q => (by cases q), fun _ q => ?_, fun _ _ q => (by cases q), fun _ q => ?_⟩
    · cases q; exact a1
    · cases q; exact ⟨z.server, rfl, a2, a3, a4, a5, a6⟩

/-- What has been written, byte for byte, at any time: the client has written nothing or its request, and after the handshake a frame for every message it has sent; the server
nothing before it has read the request, then its answer, and after it frames with the greeting and an answer to every message it has heard. -/
theorem C79_says (es : List Beat) :
    let x := (Whole.start g).run preq pres g lines r es
    (∀ s w, x.guest = .dialling s w → w.wire = [] ∨ w.wire = chatRequest g.fresh.serialize) ∧
    (∀ c, x.guest = .chatting c → ∃ bs, c.writer.stream.wire = chatRequest g.fresh.serialize ++ bs ∧ Says true (c.taken.map OwnedMsg.spec) bs) ∧
    (∀ s ended w, x.host = .reading s ended w → w.wire = []) ∧ (∀ u ended, x.host = .asked u ended → u.stream.output.wire = []) ∧
    ∀ t, x.host = .serving t → ∃ accept bs, chars accept = acceptText (g.fresh.bytes.map UInt8.toNat) ∧ t.writer.stream.wire = chatAnswer accept ++ bs ∧
      Says false ((screen (t.heard.map OwnedMsg.spec)).take (t.greeted.toNat + t.heard.length)) bs := by
  intro x
  obtain ⟨n, h, -⟩ := run_come preq pres g lines r hg hf es (come_start g lines hg)
  change Come g lines x n at h
  obtain ⟨e1, e2, e3⟩ := whole_heads g.fresh
  generalize x = y at h
  cases h with
  | quiet wc ws hc hs => exact ⟨fun _ _ q => (by cases q; exact .inl hc), fun _ q => (by cases q), fun _ _ _ q => (by cases q; exact hs), fun _ _ q => (by cases q), fun _ q => (by cases q)⟩
  | asking wc ws s k hc hs =>
    exact ⟨fun _ _ q => (by cases q; exact .inr (hc.trans e1)), fun _ q => (by cases q), fun _ _ _ q => (by cases q; exact hs), fun _ _ q => (by cases q), fun _ q => (by cases q)⟩
  | asked wc u hc hu =>
    exact ⟨fun _ _ q => (by cases q; exact .inr (hc.trans e1)), fun _ q => (by cases q), fun _ _ _ q => (by cases q), fun _ _ q => (by cases q; exact hu.silent), fun _ q => (by cases q)⟩
  | answering wc s t bs k hc ht =>
    refine ⟨fun _ _ q => (by cases q; exact .inr (hc.trans e1)), fun _ q => (by cases q), fun _ _ _ q => (by cases q), fun _ _ q => (by cases q), fun _ q => ?_⟩
    cases q
    exact ⟨_, bs.flatten, e3, by rw [ht.wire, e2], by rw [ht.heard]; exact ht.says⟩
  | talking z cdf cmsg sdf smsg bu bd h1 h2 h hx =>
    refine ⟨fun _ _ q => (by cases q), fun _ q => ?_, fun _ _ _ q => (by cases q), fun _ _ q => (by cases q), fun _ q => ?_⟩
    · cases q
      rw [← e1]
      exact hx.client
    · cases q
      obtain ⟨bs, k1, k2⟩ := hx.server
      exact ⟨_, bs, e3, by rw [k1, e2], k2⟩

/-- If everybody gets turns and the network carries, again and again, then there comes a time from which on both have their connections, whatever the network cuts the request and the
answer into. -/
theorem C79_connects (f : Nat → Beat) (hfair : FairBeat f) :
    ∃ n, ∀ m, n ≤ m →
      let x := (Whole.start g).run preq pres g lines r ((List.range m).map f)
      ∃ c t, x.guest = .chatting c ∧ x.host = .serving t := by
  obtain ⟨n, c', -, h1, h2⟩ := come_grows preq pres g lines r hg hf hfair (Whole.start g) _ (n := 0) (come_start g lines hg) (Nat.le_of_eq (Nat.zero_add _).symm)
  refine ⟨n, fun m hm => ?_⟩
  obtain ⟨k, rfl⟩ := Nat.exists_eq_add_of_le hm
  obtain ⟨y, _, _, _, _, _, _, e, -, -, -, -⟩ := h1.final (g := g) (lines := lines) h2
  rw [beats_add, wrun_append, e, run_whole]
  exact ⟨_, _, rfl, rfl⟩

/-- And every line is answered: from some time on the user has seen the greeting and the answers to the first `j` lines, unless a line before asked to leave. -/
theorem C79_answered (f : Nat → Beat) (hfair : FairBeat f) (j : Nat) (hj : ascii "/close" ∉ (lines.map trim).take (j - 1)) :
    ∃ n, ∀ m, n ≤ m →
      let x := (Whole.start g).run preq pres g lines r ((List.range m).map f)
      ∃ c, x.guest = .chatting c ∧ ∃ ms : List OwnedMsg, c.heard = ms.map Res.ok ∧
        (ms.map OwnedMsg.spec).take (j + 1) = screen (((lines.map trim ++ List.replicate j []).take j).map lineSays) := by
  obtain ⟨n, c', -, h1, h2⟩ := come_grows preq pres g lines r hg hf hfair (Whole.start g) _ (n := 0) (come_start g lines hg) (Nat.le_of_eq (Nat.zero_add _).symm)
  obtain ⟨y, cdf, cmsg, sdf, smsg, bu, bd, e, k1, k2, hy, -⟩ := h1.final (g := g) (lines := lines) h2
  obtain ⟨n', hn'⟩ := duo_answered (by rw [k1, k2]; exact hf) hy r (fair_beats hfair n) j hj
  refine ⟨n + n', fun m hm => ?_⟩
  obtain ⟨k, rfl⟩ := Nat.exists_eq_add_of_le (show n ≤ m by omega)
  rw [beats_add, wrun_append, e, run_whole]
  exact ⟨_, rfl, hn' k (by omega)⟩

/-- It ends: when a line asks to leave, there comes a time from which on both programs are done, without a panic; the server has heard the lines up to that one and a Close, and
the user has seen the greeting, the answers and a Close. -/
theorem C79_ends (f : Nat → Beat) (hfair : FairBeat f) (hc : ascii "/close" ∈ lines.map trim) :
    ∃ n, ∀ m, n ≤ m →
      let x := (Whole.start g).run preq pres g lines r ((List.range m).map f)
      ∃ c t, x.guest = .chatting c ∧ x.host = .serving t ∧ c.done = true ∧ t.ending = some .returned ∧
        t.heard.map OwnedMsg.spec = ((lines.map trim).takeWhile (· ≠ ascii "/close")).map lineSays ++ [.close] ∧
        ∃ ms : List OwnedMsg, c.heard = ms.map Res.ok ∧ ms.map OwnedMsg.spec = screen (t.heard.map OwnedMsg.spec) := by
  obtain ⟨n, c', -, h1, h2⟩ := come_grows preq pres g lines r hg hf hfair (Whole.start g) _ (n := 0) (come_start g lines hg) (Nat.le_of_eq (Nat.zero_add _).symm)
  obtain ⟨y, cdf, cmsg, sdf, smsg, bu, bd, e, k1, k2, hy, -⟩ := h1.final (g := g) (lines := lines) h2
  obtain ⟨n', hn'⟩ := duo_ends (by rw [k1, k2]; exact hf) hy r (fair_beats hfair n) hc
  refine ⟨n + n', fun m hm => ?_⟩
  obtain ⟨k, rfl⟩ := Nat.exists_eq_add_of_le (show n ≤ m by omega)
  rw [beats_add, wrun_append, e, run_whole]
  exact ⟨_, _, rfl, rfl, hn' k (by omega)⟩

end

/-! ## A concrete case -/

def wholeGiven : Given := ⟨sampleKey, fun n => ⟨UInt8.ofNat n, 1, 2, 3⟩, fun _ => ⟨0, 0, 0, 0⟩, ⟨[], [.accept 100]⟩, ⟨[], [.error .interrupted, .accept 2]⟩⟩

theorem wholeGiven_sound : wholeGiven.Sound := ⟨Sink.willing_of rfl, rfl, Sink.willing_of rfl, rfl⟩

theorem liveLines_whole : Fitting liveLines (100 * 2 ^ 20) (100 * 2 ^ 20) := by
  have : ∀ l ∈ liveLines, (Message.text l).Sendable (100 * 2 ^ 20) := by
    intro l hl
    simp only [liveLines, List.mem_cons, List.not_mem_nil, or_false] at hl
    rcases hl with rfl | rfl | rfl | rfl <;> exact ⟨isUtf8_ascii (by decide), by decide⟩
  exact ⟨this, this, by decide⟩

/-- Up to 60 bytes at a time. -/
def wholeTurns (n : Nat) : Beat := match liveTurns n with
  | .up _ => .up 59
  | .down _ => .down 59
  | e => e

def Whole.summary (x : Whole) : Option (Bool × Option Ending × List OwnedMsg × List (Res OwnedMsg)) :=
  match x.guest, x.host with
  | .chatting c, .serving t => some (c.done, t.ending, t.heard, c.heard)
  | _, _ => none

/-- With room for nothing. -/
example : ((@Whole.run B64.strict reqParser resParser wholeGiven liveLines ⟨0, 0⟩ (Whole.start wholeGiven) ((List.range 120).map wholeTurns)).summary :
      Option (Bool × Option Ending × List OwnedMsg × List (Res OwnedMsg))) =
    some (true, some .returned, [.text (ascii "hi"), .ping (ascii "PING"), .close none],
      [.ok (.text (ascii "Hello")), .ok (.text (ascii "hi")), .ok (.pong (ascii "PING")), .ok (.close none)]) := by decide +kernel

example := @C79_safe B64.strict reqParser resParser wholeGiven wholeGiven_sound liveLines liveLines_whole ⟨0, 7⟩ [.turn .main, .up 300, .serve, .serve, .serve, .down 200, .turn .main, .turn .main]
example := @C79_says B64.strict reqParser resParser wholeGiven wholeGiven_sound liveLines liveLines_whole ⟨0, 7⟩ [.turn .main, .up 300, .serve, .serve, .serve, .down 200, .turn .main, .turn .main]
example := @C79_connects B64.strict reqParser resParser wholeGiven wholeGiven_sound liveLines liveLines_whole ⟨0, 7⟩ liveTurns liveTurns_fair
example := @C79_answered B64.strict reqParser resParser wholeGiven wholeGiven_sound liveLines liveLines_whole ⟨0, 7⟩ liveTurns liveTurns_fair 3 (by decide +kernel)
example := @C79_ends B64.strict reqParser resParser wholeGiven wholeGiven_sound liveLines liveLines_whole ⟨0, 7⟩ liveTurns liveTurns_fair (by decide +kernel)

end WS
