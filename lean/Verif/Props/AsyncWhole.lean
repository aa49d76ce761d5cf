import Verif.Lemmas.AsyncWhole
import Verif.Props.Whole
import Verif.Model.Httparse
/-!
# C80: examples/async-client.rs and examples/async-server.rs, from the first byte of the request to the end
-/

namespace WS
open Spec

theorem start_typed (g : AsyncGiven) (lines : List Bytes) : (AsyncWhole.start g lines).tasks.chat.typed = [] := by
  unfold AsyncWhole.start
  cases chatCall g.fresh with
  | mk b q => simp only; split <;> rfl

/-- Both are through the handshake and stuck as `Tandem.Stuck` says. -/
def AsyncWhole.Stuck (r : Room) (x : AsyncWhole) : Prop := x.call = .through ∧ x.door = .through ∧ x.tasks.Stuck r

/-- Both are through the handshake, and all is said as `Tandem.Complete` says. -/
def AsyncWhole.Complete (lines : List Bytes) (x : AsyncWhole) : Prop := x.call = .through ∧ x.door = .through ∧ x.tasks.Complete lines

section
variable [B64] (preq : ReqParser) (pres : ResParser) (g : AsyncGiven) (lines : List Bytes) (hs : Suiting lines (100 * 2 ^ 20) (100 * 2 ^ 20)) (r : Room)
include hs

/-- Whatever the schedule, whatever room the network has, whatever the user types: the handshake does not fail, nobody is turned away, and then neither program fails or
panics; the server hears what was typed, in order; the user sees the greeting, then what the server says to what it heard, in order; and the client ends only after the
server has, with everything said and seen. -/
theorem C80_safe (es : List Move) :
    let x := (AsyncWhole.start g lines).run preq pres g r es
    (∀ e, x.call ≠ .failed e) ∧ x.door ≠ .dropped ∧ x.door ≠ .answering false ∧
    (∀ e, x.tasks.chat.phase = .over e → e = .returned) ∧ (∀ e, x.tasks.server.phase = .over e → e = .returned) ∧
    (∃ p, x.tasks.chat.typed <+: lines.map trim ++ List.replicate p []) ∧
    x.tasks.server.heard.map OwnedMsg.spec <+: x.tasks.chat.typed.map lineSays ∧
    x.tasks.chat.seen.map OwnedMsg.spec <+: asyncScreen (x.tasks.server.heard.map OwnedMsg.spec) ∧
    (x.tasks.chat.phase.isOver = true → x.call = .through ∧ x.door = .through ∧
      x.tasks.server.phase.isOver = true ∧ x.tasks.server.heard.map OwnedMsg.spec = x.tasks.chat.typed.map lineSays ∧
      x.tasks.chat.seen.map OwnedMsg.spec = asyncScreen (x.tasks.server.heard.map OwnedMsg.spec)) := by
  intro x
  obtain ⟨n, who, -, h⟩ := lead_run (preq := preq) (pres := pres) hs es (lead_start (g := g) (lines := lines) (r := r))
  change Led g.fresh lines r x n who at h
  generalize x = y at h
  cases h with
  | asking V o t h hc hs' ho hd ht =>
    obtain ⟨bu, bd, h⟩ := h
    obtain ⟨a1, a2, a3, a4, a5, a6⟩ := tandem_safe h
    refine ⟨fun e q => (by cases q), fun q => (by cases q), fun q => (by cases q), a1, a2, a3, a4, a5, fun q => ?_⟩
    have q' : V.chat.phase.isOver = true := q
    rw [hc.phase] at q'
    cases q'
  | awaiting V t h hc hs' ht =>
    obtain ⟨bu, bd, h⟩ := h
    obtain ⟨a1, a2, a3, a4, a5, a6⟩ := tandem_safe h
    refine ⟨fun e q => (by cases q), fun q => (by cases q), fun q => (by cases q), a1, a2, a3, a4, a5, fun q => ?_⟩
    have q' : V.chat.phase.isOver = true := q
    rw [hc.phase] at q'
    cases q'
  | answering V o d h hc hs' ho hd ht =>
    obtain ⟨bu, bd, h⟩ := h
    obtain ⟨a1, a2, a3, a4, a5, a6⟩ := tandem_safe h
    refine ⟨fun e q => (by cases q), fun q => (by cases q), fun q => (by cases q), a1, a2, a3, a4, a5, fun q => ?_⟩
    have q' : V.chat.phase.isOver = true := q
    rw [hc.phase] at q'
    cases q'
  | answered V d h hc ht =>
    obtain ⟨bu, bd, h⟩ := h
    obtain ⟨a1, a2, a3, a4, a5, a6⟩ := tandem_safe h
    refine ⟨fun e q => (by cases q), fun q => (by cases q), fun q => (by cases q), a1, a2, a3, a4, a5, fun q => ?_⟩
    have q' : V.chat.phase.isOver = true := q
    rw [hc.phase] at q'
    cases q'
  | entered V fr h hp =>
    obtain ⟨bu, bd, h⟩ := h
    obtain ⟨a1, a2, a3, a4, a5, a6⟩ := tandem_safe h
    refine ⟨fun e q => (by cases q), fun q => (by cases q), fun q => (by cases q), a1, a2, a3, a4, List.nil_prefix, fun q => ?_⟩
    have q' : V.chat.phase.isOver = true := q
    rw [hp.phase] at q'
    cases q'
  | talking V h =>
    obtain ⟨bu, bd, h⟩ := h
    obtain ⟨a1, a2, a3, a4, a5, a6⟩ := tandem_safe h
    exact ⟨fun e q => (by cases q), fun q => (by cases q), fun q => (by cases q), a1, a2, a3, a4, a5, fun q => ⟨rfl, rfl, a6 q⟩⟩

/-- What has been written, byte for byte, at any time: the client has written its request, or a beginning of it; when it is through, what it has written and what waits in its
sink are the request and the frames of the first `k` lines typed. The server has written nothing before it has read the request, then its answer or a beginning of it; when it
is through, what it has written and what waits in its sink are the answer and the frames of the first `k` messages it should say. -/
theorem C80_says (es : List Move) :
    let x := (AsyncWhole.start g lines).run preq pres g r es
    (x.call = .asking → x.tasks.chat.out.wire <+: chatRequest g.fresh.serialize) ∧
    (∀ fr, x.call = .awaiting fr → x.tasks.chat.out.wire = chatRequest g.fresh.serialize) ∧
    (x.call = .through → ∃ bs k, x.tasks.chat.out.wire ++ x.tasks.chat.out.sink.buf.data = chatRequest g.fresh.serialize ++ bs ∧
      chatRequest g.fresh.serialize <+: x.tasks.chat.out.wire ∧ x.tasks.server.heard.length ≤ k ∧ k ≤ x.tasks.chat.typed.length ∧
      Says true ((x.tasks.chat.typed.take k).map lineSays) bs) ∧
    (∀ fr, x.door = .reading fr → x.tasks.server.out.wire = []) ∧
    ∃ accept, chars accept = acceptText (g.fresh.bytes.map UInt8.toNat) ∧
      (∀ b, x.door = .answering b → x.tasks.server.out.wire <+: chatAnswer accept) ∧
      (x.door = .through → ∃ bs k, x.tasks.server.out.wire ++ x.tasks.server.out.sink.buf.data = chatAnswer accept ++ bs ∧
        chatAnswer accept <+: x.tasks.server.out.wire ∧ x.tasks.chat.seen.length ≤ k ∧ k ≤ x.tasks.server.heard.length + 1 ∧
        Says false ((asyncScreen (x.tasks.server.heard.map OwnedMsg.spec)).take k) bs) := by
  intro x
  obtain ⟨n, who, -, h⟩ := lead_run (preq := preq) (pres := pres) hs es (lead_start (g := g) (lines := lines) (r := r))
  change Led g.fresh lines r x n who at h
  obtain ⟨e1, e2, e3⟩ := whole_heads g.fresh
  generalize x = y at h
  refine (fun (p : _ ∧ _ ∧ _ ∧ _ ∧ _ ∧ _) => ⟨p.1, p.2.1, p.2.2.1, p.2.2.2.1, (WsAccept.new g.fresh).serialize, e3, p.2.2.2.2.1, p.2.2.2.2.2⟩) ?_
  rw [← e1, ← e2]
  cases h with
  | asking V o t h hc hs' ho hd ht =>
    exact ⟨fun _ => ⟨_, ho.total⟩, fun _ q => (by cases q), fun q => (by cases q), fun _ _ => hs'.wire, fun _ q => (by cases q), fun q => (by cases q)⟩
  | awaiting V t h hc hs' ht =>
    refine ⟨fun q => (by cases q), fun _ _ => ?_, fun q => (by cases q), fun _ _ => hs'.wire, fun _ q => (by cases q), fun q => (by cases q)⟩
    show wholeAsk g.fresh ++ V.chat.out.wire = _
    rw [hc.wire, List.append_nil]
  | answering V o d h hc hs' ho hd ht =>
    refine ⟨fun q => (by cases q), fun _ _ => ?_, fun q => (by cases q), fun _ q => (by cases q), fun _ _ => ⟨_, ho.total⟩, fun q => (by cases q)⟩
    show wholeAsk g.fresh ++ V.chat.out.wire = _
    rw [hc.wire, List.append_nil]
  | answered V d h hc ht =>
    obtain ⟨bu, bd, h⟩ := h
    obtain ⟨-, k, k1, k2, k3⟩ := tandem_says hs h
    refine ⟨fun q => (by cases q), fun _ _ => ?_, fun q => (by cases q), fun _ q => (by cases q), fun _ q => (by cases q), fun _ => ⟨_, k, ?_, List.prefix_append _ _, k1, k2, k3⟩⟩
    · show wholeAsk g.fresh ++ V.chat.out.wire = _
      rw [hc.wire, List.append_nil]
    · exact List.append_assoc _ _ _
  | entered V fr h hp =>
    obtain ⟨bu, bd, h⟩ := h
    obtain ⟨⟨j, j1, j2, j3⟩, k, k1, k2, k3⟩ := tandem_says hs h
    exact ⟨fun q => (by cases q), fun _ q => (by cases q), fun _ => ⟨_, j, List.append_assoc _ _ _, List.prefix_append _ _, j1, j2, j3⟩, fun _ q => (by cases q), fun _ q => (by cases q),
      fun _ => ⟨_, k, List.append_assoc _ _ _, List.prefix_append _ _, Nat.zero_le _, k2, k3⟩⟩
  | talking V h =>
    obtain ⟨bu, bd, h⟩ := h
    obtain ⟨⟨j, j1, j2, j3⟩, k, k1, k2, k3⟩ := tandem_says hs h
    exact ⟨fun q => (by cases q), fun _ q => (by cases q), fun _ => ⟨_, j, List.append_assoc _ _ _, List.prefix_append _ _, j1, j2, j3⟩, fun _ q => (by cases q), fun _ q => (by cases q),
      fun _ => ⟨_, k, List.append_assoc _ _ _, List.prefix_append _ _, k1, k2, k3⟩⟩

variable (hru : 0 < r.up) (hrd : 0 < r.down)
include hru hrd

omit hs hru hrd in
theorem async_later (x : AsyncWhole) (f : Nat → Move) (n k : Nat) :
    x.run preq pres g r ((List.range (n + k)).map f) = (x.run preq pres g r ((List.range n).map f)).run preq pres g r ((List.range k).map fun i => f (n + i)) := by
  rw [List.range_add, List.map_append, lead_append, List.map_map]
  rfl

omit hs hru hrd in
theorem fair_moves {f : Nat → Move} (hf : FairMoves f) (n : Nat) : FairMoves fun i => f (n + i) := by
  intro j
  obtain ⟨⟨m1, a1, a2⟩, ⟨m2, i2, k2, b1, b2⟩, m3, i3, k3, c1, c2⟩ := hf (n + j)
  refine ⟨⟨m1 - n, by omega, ?_⟩, ⟨m2 - n, i2, k2, by omega, ?_⟩, m3 - n, i3, k3, by omega, ?_⟩
  · show f (n + (m1 - n)) = _
    rw [show n + (m1 - n) = m1 by omega]; exact a2
  · show f (n + (m2 - n)) = _
    rw [show n + (m2 - n) = m2 by omega]; exact b2
  · show f (n + (m3 - n)) = _
    rw [show n + (m3 - n) = m3 by omega]; exact c2

/-- If both are polled again and again, and find that the network carries something, then there comes a time from which on both are through the handshake, whatever pieces the
network carries and however little room it has. -/
theorem C80_connects (f : Nat → Move) (hf : FairMoves f) :
    ∃ n, ∀ m, n ≤ m →
      let x := (AsyncWhole.start g lines).run preq pres g r ((List.range m).map f)
      x.call = .through ∧ x.door = .through := by
  obtain ⟨n, V, h1, h2⟩ := lead_through (preq := preq) (pres := pres) (g := g) hs hru hrd hf
  refine ⟨n, fun m hm => ?_⟩
  obtain ⟨k, rfl⟩ := Nat.exists_eq_add_of_le hm
  rw [async_later, h1, through_run]
  exact ⟨rfl, rfl⟩

/-- Then every line is answered, or both are stuck: there comes a time from which on the user has seen the greeting and the answers to the first `j` lines (after the last
line, `read_line` goes on giving empty ones), unless a line before asked to leave, or the two are stuck. -/
theorem C80_answered_or_stuck (f : Nat → Move) (hf : FairMoves f) (j : Nat) (hj : ascii "/close" ∉ (lines.map trim).take (j - 1)) :
    ∃ n, ∀ m, n ≤ m →
      let x := (AsyncWhole.start g lines).run preq pres g r ((List.range m).map f)
      (x.tasks.chat.seen.map OwnedMsg.spec).take (j + 1) = asyncScreen (((lines.map trim ++ List.replicate j []).take j).map lineSays) ∨ x.Stuck r := by
  obtain ⟨n, V, h1, bu, bd, h2⟩ := lead_through (preq := preq) (pres := pres) (g := g) hs hru hrd hf
  obtain ⟨n', hn'⟩ := tandem_answered hs hru hrd (fair_moves hf n) h2 j hj
  refine ⟨n + n', fun m hm => ?_⟩
  obtain ⟨k, rfl⟩ := Nat.exists_eq_add_of_le (show n ≤ m by omega)
  rw [async_later, h1, through_run]
  rcases hn' k (by omega) with q | q
  · exact .inl q
  · exact .inr ⟨rfl, rfl, (stuck_pre _ _ r _).mpr q⟩

/-- It ends, or both are stuck: when a line asks to leave, there comes a time from which on all is said and both have returned, or the two are stuck. -/
theorem C80_ends_or_stuck (f : Nat → Move) (hf : FairMoves f) (hc : ascii "/close" ∈ lines.map trim) :
    ∃ n, ∀ m, n ≤ m →
      let x := (AsyncWhole.start g lines).run preq pres g r ((List.range m).map f)
      x.Complete lines ∨ x.Stuck r := by
  obtain ⟨n, V, h1, bu, bd, h2⟩ := lead_through (preq := preq) (pres := pres) (g := g) hs hru hrd hf
  obtain ⟨n', hn'⟩ := tandem_over hs hru hrd (fair_moves hf n) h2 hc
  refine ⟨n + n', fun m hm => ?_⟩
  obtain ⟨k, rfl⟩ := Nat.exists_eq_add_of_le (show n ≤ m by omega)
  rw [async_later, h1, through_run]
  rcases hn' k (by omega) with q | q
  · exact .inl ⟨rfl, rfl, q⟩
  · exact .inr ⟨rfl, rfl, (stuck_pre _ _ r _).mpr q⟩

/-- They are not stuck when little is said: if the frames of the lines before "/close" are shorter than the network's room and the sink's bound of 8192 bytes together, or
the greeting fits in the network and the frames of the greeting and of the answers to all of those lines but the last are shorter than that, then both come to an end. The
full claim, that they always do, does not hold: see `C80_refuted_never_ends`. -/
theorem C80_ends_partial (f : Nat → Move) (hf : FairMoves f) (hc : ascii "/close" ∈ lines.map trim)
    (hl : (((lines.map trim).takeWhile (· ≠ ascii "/close")).map fun l => onWire true (lineSize l)).sum < 8192 + r.up ∨
      14 ≤ r.down ∧ 14 + (((lines.map trim).takeWhile (· ≠ ascii "/close")).dropLast.map fun l => onWire false (lineSize l)).sum < 8192 + r.down) :
    ∃ n, ∀ m, n ≤ m → ((AsyncWhole.start g lines).run preq pres g r ((List.range m).map f)).Complete lines := by
  obtain ⟨n, V, h1, bu, bd, h2⟩ := lead_through (preq := preq) (pres := pres) (g := g) hs hru hrd hf
  obtain ⟨n', hn'⟩ := tandem_over hs hru hrd (fair_moves hf n) h2 hc
  refine ⟨n + n', fun m hm => ?_⟩
  obtain ⟨k, rfl⟩ := Nat.exists_eq_add_of_le (show n ≤ m by omega)
  rw [async_later, h1, through_run]
  rcases hn' k (by omega) with q | q
  · exact ⟨rfl, rfl, q⟩
  · obtain ⟨bu', bd', h3, -⟩ := tandem_along hs (fun i => f (n + i)) k h2
    exact absurd q (tandem_little h3 hc hl)

omit hru hrd

/-- Nothing helps: once the two are stuck they stay stuck whatever happens; nothing more is heard and nothing more is seen, and neither ends. -/
theorem C80_stuck_forever (es fs : List Move) (h : ((AsyncWhole.start g lines).run preq pres g r es).Stuck r) :
    let x := (AsyncWhole.start g lines).run preq pres g r es
    let y := (AsyncWhole.start g lines).run preq pres g r (es ++ fs)
    y.Stuck r ∧ y.tasks.server.heard = x.tasks.server.heard ∧ y.tasks.chat.seen = x.tasks.chat.seen ∧ y.tasks.chat.phase.isOver = false ∧
      y.tasks.server.phase.isOver = false := by
  intro x y
  have hy : y = x.run preq pres g r fs := lead_append _ es fs
  rw [hy]
  obtain ⟨n, who, -, hx⟩ := lead_run (preq := preq) (pres := pres) hs es (lead_start (g := g) (lines := lines) (r := r))
  change Led g.fresh lines r x n who at hx
  change x.Stuck r at h
  clear hy
  generalize x = z at *
  cases hx with
  | talking V h0 =>
    obtain ⟨bu, bd, h0⟩ := h0
    obtain ⟨s1, s2, s3, s4, s5⟩ := tandem_stays hs h0 fs ((stuck_pre _ _ r _).mp h.2.2)
    rw [through_run]
    exact ⟨⟨rfl, rfl, (stuck_pre _ _ r _).mpr s1⟩, s2, s3, s4, s5⟩
  | asking V o t h0 hc => cases h.1
  | awaiting V t h0 hc => cases h.1
  | answering V o d h0 hc => cases h.1
  | answered V d h0 hc => cases h.1
  | entered V fr h0 hp =>
    obtain ⟨m, hm⟩ := h.2.2.1
    have := hp.phase
    have hm' : V.chat.phase = .forward (some m) := hm
    rw [this] at hm'
    cases hm'

include hru hrd

/-- As long as no line asks to leave it can always happen: whatever room the network has and however far the two have come, some way to go on gets them stuck. -/
theorem C80_can_get_stuck (hc : ascii "/close" ∉ lines.map trim) (es : List Move) :
    ∃ fs, ((AsyncWhole.start g lines).run preq pres g r (es ++ fs)).Stuck r := by
  obtain ⟨n, who, -, h⟩ := lead_run (preq := preq) (pres := pres) hs es (lead_start (g := g) (lines := lines) (r := r))
  obtain ⟨gs, V, -, h1, bu, bd, h2⟩ := lead_on (preq := preq) (pres := pres) hs hru hrd h
  obtain ⟨fs, hfs⟩ := tandem_jams hs hru hrd h2 hc
  refine ⟨gs ++ fs, ?_⟩
  rw [lead_append, lead_append, h1, through_run]
  exact ⟨rfl, rfl, (stuck_pre _ _ r _).mpr hfs⟩

end

/-- The claim that both always come to an end when a line asks to leave is false: whatever room the network has, some number of empty lines and then "/close" can get the
two stuck, after a handshake without any fault, and then they never end, whatever happens. -/
theorem C80_refuted_never_ends [B64] (preq : ReqParser) (pres : ResParser) (g : AsyncGiven) (r : Room) (hru : 0 < r.up) (hrd : 0 < r.down) :
    ∃ N es, ∀ fs,
      let x := (AsyncWhole.start g (List.replicate N (ascii "\n") ++ [ascii "/close\n"])).run preq pres g r (es ++ fs)
      x.Stuck r ∧ x.tasks.chat.phase.isOver = false ∧ x.tasks.server.phase.isOver = false := by
  obtain ⟨N, hN⟩ : ∃ N, 4 * (14 + r.down + 8192 + 1) + 6 * (6 * (14 + r.down + 8192 + 2) + 2 * r.up + 8192 + 3) + 50 ≤ N := ⟨_, Nat.le_refl _⟩
  have hdf : 12 ≤ defaultMaxDataframe := by decide
  have hs : Suiting (manyLines N) (100 * 2 ^ 20) (100 * 2 ^ 20) := many_suit N hdf (sdf := defaultMaxDataframe) (by omega)
  obtain ⟨es, V, h1, h2, bu, bd, h3⟩ := lead_on (preq := preq) (pres := pres) hs hru hrd (lead_start (g := g) (lines := manyLines N) (r := r))
  have ht : V.chat.typed = [] := by
    have := run_typed (preq := preq) (pres := pres) (g := g) (r := r) (AsyncWhole.start g (manyLines N)) es h1
    rw [h2] at this
    exact this.trans (start_typed g _)
  have hr : V.count.read ≤ 14 := by
    have a1 := h3.sane.read_back
    have a2 := h3.sane.back_answered
    have a3 : V.count.heard ≤ V.count.pushed := h3.sane.heard_pushed (lens_up_pos _)
    have a4 : V.count.typed = 0 := by show V.chat.typed.length = 0; rw [ht]; rfl
    have a5 : V.count.answered ≤ 1 := by
      have : V.count.heard = 0 := by simp only [Count.pushed, Count.held, a4] at a3; omega
      simp only [Count.answered]; split <;> omega
    have a6 := cum_mono (len := (lens (manyLines N)).down) a5
    have a7 : cum (lens (manyLines N)).down 1 = 14 := rfl
    omega
  obtain ⟨fs, hfs⟩ := many_jam hdf (by omega) hru hrd h3 hr hN
  refine ⟨N, es ++ fs, fun gs => ?_⟩
  have hst : ((AsyncWhole.start g (manyLines N)).run preq pres g r (es ++ fs)).Stuck r := by
    rw [lead_append, h2, through_run]
    exact ⟨rfl, rfl, (stuck_pre _ _ r _).mpr hfs⟩
  have := C80_stuck_forever preq pres g _ hs r (es ++ fs) gs hst
  exact ⟨this.1, this.2.2.2.1, this.2.2.2.2⟩

/-! ## A concrete case -/

def asyncGiven : AsyncGiven := ⟨sampleKey, fun n => ⟨UInt8.ofNat n, 1, 2, 3⟩, fun _ => ⟨0, 0, 0, 0⟩, 0, 7⟩

theorem liveLines_async : Suiting liveLines (100 * 2 ^ 20) (100 * 2 ^ 20) := ⟨liveLines_whole.up, liveLines_whole.down, by decide⟩

/-- Everybody in turn, up to 60 bytes at a time. -/
def asyncTurns (n : Nat) : Move := match taskTurns n with
  | .chat _ _ => .chat 60 60
  | .serve _ _ => .serve 60 60
  | e => e

/-- With room for 25 bytes to the server and 90 bytes back. -/
example : ((@AsyncWhole.run B64.strict reqParser resParser asyncGiven ⟨25, 90⟩ (AsyncWhole.start asyncGiven liveLines) ((List.range 120).map asyncTurns)).tasks.summary :
      Bool × Bool × List OwnedMsg × List OwnedMsg) =
    (true, true, [.text (ascii "hi"), .ping (ascii "PING"), .close none],
      [.text (ascii "Hello World!"), .text (ascii "hi"), .pong (ascii "PING"), .close none]) := by decide +kernel

example := @C80_safe B64.strict reqParser resParser asyncGiven liveLines liveLines_async ⟨1, 1⟩ [.type, .chat 0 5, .serve 3 9, .serve 3 9, .type, .chat 100 2]
example := @C80_says B64.strict reqParser resParser asyncGiven liveLines liveLines_async ⟨1, 1⟩ [.type, .chat 0 5, .serve 3 9, .serve 3 9, .type, .chat 100 2]
example := @C80_connects B64.strict reqParser resParser asyncGiven liveLines liveLines_async ⟨1, 1⟩ (by decide) (by decide) taskTurns taskTurns_fair
example := @C80_answered_or_stuck B64.strict reqParser resParser asyncGiven liveLines liveLines_async ⟨1, 1⟩ (by decide) (by decide) taskTurns taskTurns_fair 3 (by decide +kernel)
example := @C80_ends_or_stuck B64.strict reqParser resParser asyncGiven liveLines liveLines_async ⟨1, 1⟩ (by decide) (by decide) taskTurns taskTurns_fair (by decide +kernel)
example := @C80_ends_partial B64.strict reqParser resParser asyncGiven liveLines liveLines_async ⟨1, 1⟩ (by decide) (by decide) taskTurns taskTurns_fair (by decide +kernel)
  (.inl (by decide +kernel))

theorem quietLines_async : Suiting [ascii "hi\n"] (100 * 2 ^ 20) (100 * 2 ^ 20) := by
  have : ∀ l ∈ [ascii "hi\n"], (Message.text l).Sendable (100 * 2 ^ 20) := by
    intro l hl
    simp only [List.mem_singleton] at hl
    subst hl
    exact ⟨isUtf8_ascii (by decide), by decide⟩
  exact ⟨this, this, by decide⟩

example := @C80_can_get_stuck B64.strict reqParser resParser asyncGiven [ascii "hi\n"] quietLines_async ⟨65536, 1⟩ (by decide) (by decide) (by decide +kernel) [.type, .chat 5 5, .serve 3 9]

/-- The stuck state that `C80_stuck_forever` speaks of is there. -/
example : ∃ es, ∀ fs, (@AsyncWhole.run B64.strict reqParser resParser asyncGiven ⟨65536, 1⟩ (AsyncWhole.start asyncGiven [ascii "hi\n"]) (es ++ fs)).Stuck ⟨65536, 1⟩ := by
  obtain ⟨es, h⟩ := @C80_can_get_stuck B64.strict reqParser resParser asyncGiven [ascii "hi\n"] quietLines_async ⟨65536, 1⟩ (by decide) (by decide) (by decide +kernel) []
  exact ⟨es, fun fs => (@C80_stuck_forever B64.strict reqParser resParser asyncGiven [ascii "hi\n"] quietLines_async ⟨65536, 1⟩ es fs h).1⟩

example := @C80_refuted_never_ends B64.strict reqParser resParser asyncGiven ⟨65536, 65536⟩ (by decide) (by decide)

end WS
