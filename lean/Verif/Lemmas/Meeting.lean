import Verif.Lemmas.Opening
import Verif.Props.Dialogue
/-!
# From the first byte of the handshake to the last message
-/

namespace WS
open Spec

/-! ## What has been written before does not matter -/

/-- The same transport after something else. -/
def Sink.after (base : Bytes) (w : Sink) : Sink := ⟨base ++ w.wire, w.script⟩

theorem writeAll_after (base bs : Bytes) (w : Sink) : Sink.writeAll bs (w.after base) = ((Sink.writeAll bs w).1, (Sink.writeAll bs w).2.after base) := by
  fun_induction Sink.writeAll bs w with
  | case1 w => rw [Sink.writeAll.eq_def]; simp
  | case2 bs h0 wire => rw [Sink.writeAll.eq_def]; simp [h0, Sink.after]
  | case3 bs h0 wire s ih => rw [Sink.writeAll.eq_def]; simp only [h0, if_false, Sink.after, if_true] at ih ⊢; exact ih
  | case4 bs h0 wire k s hk => rw [Sink.writeAll.eq_def]; simp [h0, Sink.after, hk]
  | case5 bs h0 wire s => rw [Sink.writeAll.eq_def]; simp [h0, Sink.after]
  | case6 bs h0 wire n s hn ih =>
    rw [Sink.writeAll.eq_def]
    simp only [h0, if_false, Sink.after, hn] at ih ⊢
    rw [List.append_assoc]; exact ih

theorem send_after (x : Sender) (v : FrameView) (key : Key4) (base : Bytes) (w : Sink) :
    x.send v key (w.after base) = ((x.send v key w).1, (x.send v key w).2.after base) := by
  unfold Sender.send FrameView.writeTo
  cases v.encode (if x.mask then some key else none) with
  | err e => rfl
  | panic e => rfl
  | ok data =>
    simp only [writeAll_after]
    cases w.writeAll data with
    | mk r w' => cases r <;> rfl

theorem pollComplete_after (base : Bytes) (fw : FramedWrite) (w : Sink) :
    fw.pollComplete (w.after base) = ((fw.pollComplete w).1, (fw.pollComplete w).2.1, (fw.pollComplete w).2.2.after base) := by
  fun_induction FramedWrite.pollComplete fw w with
  | case1 fw w h => rw [FramedWrite.pollComplete.eq_def]; simp [h]
  | case2 fw h wire => rw [FramedWrite.pollComplete.eq_def]; simp [h, Sink.after]
  | case3 fw h wire s => rw [FramedWrite.pollComplete.eq_def]; simp [h, Sink.after]
  | case4 fw h wire k s hk => rw [FramedWrite.pollComplete.eq_def]; simp [h, Sink.after, hk]
  | case5 fw h wire n s hn => rw [FramedWrite.pollComplete.eq_def]; simp only [h, Sink.after, hn, if_false, if_true]
  | case6 fw h wire n s hn ih =>
    rw [FramedWrite.pollComplete.eq_def]
    simp only [h, if_false, Sink.after, hn] at ih ⊢
    rw [List.append_assoc]; exact ih

theorem drain_after (base : Bytes) (fw : FramedWrite) (w : Sink) :
    fw.drain (w.after base) = ((fw.drain w).1, (fw.drain w).2.1, (fw.drain w).2.2.after base) := by
  fun_induction FramedWrite.drain fw w with
  | case1 fw w fw' w' hp ih =>
    have h := pollComplete_after base fw w
    rw [hp] at h
    rw [FramedWrite.drain.eq_def]
    split
    · next h' => rw [h] at h'; cases h'; exact ih
    · next hne h' => rw [h] at h'; cases h'; exact absurd rfl hne
  | case2 fw w r fw' w' hne hp =>
    have h := pollComplete_after base fw w
    rw [hp] at h
    rw [FramedWrite.drain.eq_def]
    split
    · next h' => rw [h] at h'; cases h'; exact absurd rfl hne
    · next h' => rw [h] at h'; cases h'; rfl

theorem startSend_after (base : Bytes) (fw : FramedWrite) (v : FrameView) (key : Key4) (extra : Nat) (w : Sink) :
    fw.startSend v key extra (w.after base) =
      ((fw.startSend v key extra w).1, (fw.startSend v key extra w).2.1, (fw.startSend v key extra w).2.2.after base) := by
  unfold FramedWrite.startSend
  rw [pollComplete_after]
  cases fw.pollComplete w with
  | mk r q =>
    obtain ⟨fw', w'⟩ := q
    simp only
    by_cases hl : fw.buf.data.length ≥ 8 * 1024
    · simp only [hl, if_true]
      cases r with
      | err e => rfl
      | panic e => rfl
      | ready =>
        simp only
        by_cases hl' : fw'.buf.data.length ≥ 8 * 1024
        · simp only [hl', if_true]
        · simp only [hl', if_false]
          cases encodeInto fw'.isServer v key extra fw'.buf with
          | mk x b => cases x <;> rfl
      | notReady =>
        simp only
        by_cases hl' : fw'.buf.data.length ≥ 8 * 1024
        · simp only [hl', if_true]
        · simp only [hl', if_false]
          cases encodeInto fw'.isServer v key extra fw'.buf with
          | mk x b => cases x <;> rfl
    · simp only [hl, if_false]
      cases encodeInto fw.isServer v key extra fw.buf with
      | mk x b => cases x <;> rfl

theorem sendAwait_after (base : Bytes) (fw : FramedWrite) (v : FrameView) (key : Key4) (extra : Nat) (w : Sink) :
    fw.sendAwait v key extra (w.after base) =
      ((fw.sendAwait v key extra w).1, (fw.sendAwait v key extra w).2.1, (fw.sendAwait v key extra w).2.2.after base) := by
  fun_induction FramedWrite.sendAwait fw v key extra w with
  | case1 fw w fw' w' hp ih =>
    have h := startSend_after base fw v key extra w
    rw [hp] at h
    rw [FramedWrite.sendAwait.eq_def]
    split
    · next h' => rw [h] at h'; cases h'; exact ih
    · next h' => rw [h] at h'; cases h'
    · next hne _ h' => rw [h] at h'; cases h'; exact absurd rfl hne
  | case2 fw w fw' w' hp =>
    have h := startSend_after base fw v key extra w
    rw [hp] at h
    rw [FramedWrite.sendAwait.eq_def]
    split
    · next h' => rw [h] at h'; cases h'
    · next h' => rw [h] at h'; cases h'; exact drain_after base _ _
    · next hne h' => rw [h] at h'; cases h'; exact absurd rfl hne
  | case3 fw w r fw' w' h1 h2 hp =>
    have h := startSend_after base fw v key extra w
    rw [hp] at h
    rw [FramedWrite.sendAwait.eq_def]
    split
    · next h' => rw [h] at h'; cases h'; exact absurd rfl h1
    · next h' => rw [h] at h'; cases h'; exact absurd rfl h2
    · next h' => rw [h] at h'; cases h'; rfl

/-- The same program, on a transport on which something was written before, of all of which `n` bytes have been carried away. -/
def Party.placed (base : Bytes) (n : Nat) (p : Party) : Party := { p with output := p.output.after base, carried := n }

theorem act_placed (base : Bytes) (n : Nat) (p : Party) : (p.placed base n).act = p.act.placed base n := by
  obtain ⟨todo, ear, voice, arrived, ended, output, carried, heard, sent⟩ := p
  cases todo with
  | nil => rfl
  | cons t ts =>
    cases t with
    | say m key extra =>
      cases voice with
      | blocking s => simp only [Party.placed, Party.act, Party.sayBlocking, send_after]
      | async fw => simp only [Party.placed, Party.act, Party.sayAsync, sendAwait_after]
    | hear =>
      cases ear with
      | blocking r =>
        simp only [Party.placed, Party.act, Party.hearBlocking]
        by_cases hx : (r.recvMessage arrived).1 = .err .noData ∧ ended = false
        · simp only [hx, and_self, if_true]
        · simp only [hx, if_false]
      | async fr =>
        cases hx : fr.poll msgDecoder (Party.readable ⟨.hear :: ts, .async fr, voice, arrived, ended, output, carried, heard, sent⟩) with
        | mk x q =>
          obtain ⟨fr', s'⟩ := q
          have hy : fr.poll msgDecoder (Party.readable ⟨.hear :: ts, .async fr, voice, arrived, ended, output.after base, n, heard, sent⟩) = (x, fr', s') := hx
          cases x <;> simp only [Party.placed, Party.act, Party.hearAsync, hx, hy]

theorem transit_placed (base : Bytes) (p : Party) : (p.placed base (base.length + p.carried)).transit = p.transit := by
  unfold Party.transit Party.placed Sink.after
  simp only
  rw [List.drop_append, List.drop_eq_nil_of_le (by omega), List.nil_append]
  congr 1
  omega

theorem placed_self (p : Party) : p.placed [] p.carried = p := rfl

theorem act_carried (p : Party) : p.act.carried = p.carried := by
  rw [← placed_self p, act_placed]; rfl

/-- A dialogue behind a handshake. -/
def Dialogue.behind (req res : Bytes) (d : Dialogue) : Meeting :=
  ⟨.talking (d.client.placed req (req.length + d.client.carried)), .talking (d.server.placed res (res.length + d.server.carried))⟩

theorem carry_placed (a b : Bytes) (n : Nat) (p q : Party) :
    Agent.carry n (.talking (p.placed a (a.length + p.carried))) (.talking (q.placed b (b.length + q.carried))) =
      (.talking ((carry n p q).1.placed a (a.length + (carry n p q).1.carried)), .talking ((carry n p q).2.placed b (b.length + (carry n p q).2.carried))) := by
  unfold Agent.carry carry
  simp only [Agent.transit, transit_placed]
  by_cases ht : p.transit = []
  · by_cases hd : p.todo = []
    · have e : (Agent.talking (p.placed a (a.length + p.carried))).gone = true := by
        show p.todo.isEmpty = true
        rw [hd]; rfl
      simp only [ht, if_true, e, hd]
      rfl
    · have e : (Agent.talking (p.placed a (a.length + p.carried))).gone = false := by
        show p.todo.isEmpty = false
        cases hx : p.todo with
        | nil => exact absurd hx hd
        | cons t ts => rfl
      simp only [ht, if_true, e, hd, if_false, Bool.false_eq_true]
  · simp only [ht, if_false, Agent.sent, Agent.receive]
    unfold Party.placed
    simp only [Nat.add_assoc]

section
variable [B64] (preq : ReqParser) (pres : ResParser)

theorem step_behind (req res : Bytes) (d : Dialogue) (e : Happens) :
    (d.behind req res).step preq pres e = (d.step e).behind req res := by
  rcases e with ⟨_ | _⟩ | ⟨_ | _, n⟩
  · simp only [Dialogue.behind, Meeting.step, Agent.act, Dialogue.step, act_placed, act_carried]
  · simp only [Dialogue.behind, Meeting.step, Agent.act, Dialogue.step, act_placed, act_carried]
  · simp only [Dialogue.behind, Meeting.step, Dialogue.step, carry_placed]
  · simp only [Dialogue.behind, Meeting.step, Dialogue.step, carry_placed]

theorem run_behind (req res : Bytes) (es : List Happens) : ∀ d : Dialogue, (d.behind req res).run preq pres es = (d.run es).behind req res := by
  induction es with
  | nil => intro d; rfl
  | cons e es ih =>
    intro d
    show ((d.behind req res).step preq pres e).run preq pres es = ((d.step e).run es).behind req res
    rw [step_behind, ih]

/-! ## The stages -/

/-- Everything that is fixed about a meeting: how the two open their connections, their halves `req` and `res` of the handshake, the limits, the talk. -/
structure Arranged (ch sh : Opening) (cw sw : Sink) (req res : Bytes) (lc ls : Nat) (cts sts : List Talk) : Prop where
  client : Opens preq pres ch cw req req res false lc
  server : Opens preq pres sh sw [] res req true ls
  req0 : req ≠ []
  res0 : res ≠ []
  lc_le : lc ≤ u32Max
  ls_le : ls ≤ u32Max
  client_says : ∀ x ∈ said cts, x.1.spec.Sendable ls
  server_says : ∀ x ∈ said sts, x.1.spec.Sendable lc

/-- How far a meeting has come. -/
inductive Stage (ch sh : Opening) (cw sw : Sink) (req res : Bytes) (lc ls : Nat) (cts sts : List Talk) : Meeting → Nat → Prop
  | quiet (wc ws : Sink) (hc : wc.wire = []) (hs : ws.wire = []) :
    Stage ch sh cw sw req res lc ls cts sts ⟨.opening ⟨ch, cts, [], false, cw, wc, 0⟩, .opening ⟨sh, sts, [], false, sw, ws, 0⟩⟩ 0
  | asking (wc ws : Sink) (s : Src) (k : Nat) (hc : wc.wire = req) (hs : ws.wire = []) (hk : k ≤ req.length) (hch : s.Chunks) (hf : s.flat = req.take k) :
    Stage ch sh cw sw req res lc ls cts sts ⟨.opening ⟨ch, cts, [], false, cw, wc, k⟩, .opening ⟨sh, sts, s, false, sw, ws, 0⟩⟩ (1 + k)
  | answering (wc : Sink) (s : Src) (ended : Bool) (k : Nat) (q v : Party) (j : Nat) (bs : List Bytes) (hc : wc.wire = req) (hch : s.Chunks)
    (hf : s.flat = (res ++ q.output.wire).take k) (hk : k ≤ (res ++ q.output.wire).length)
    (he : ended = true → q.todo = [] ∧ k = (res ++ q.output.wire).length) (hq : q.carried = 0)
    (fc : Flow false lc cts sts 0 j bs v q) (fs : Flow true ls sts cts j 0 [] q v) (hr : Reach cts sts 0 j) :
    Stage ch sh cw sw req res lc ls cts sts ⟨.opening ⟨ch, cts, s, ended, cw, wc, req.length⟩, .talking (q.placed res k)⟩ (2 + req.length + min k res.length)
  | talking (d : Dialogue) (i j : Nat) (bc bs : List Bytes) (h : Together false true lc ls cts sts d i j bc bs) (hr : Reach cts sts i j) :
    Stage ch sh cw sw req res lc ls cts sts (d.behind req res) (3 + req.length + res.length)

/-- The event that takes a meeting further. -/
def Pushes (req res : Bytes) (r : Nat) (e : Happens) : Prop :=
  if r = 0 then e = .act .client
  else if r < 1 + req.length then ∃ n, e = .carry .client n
  else if r = 1 + req.length then e = .act .server
  else if r < 2 + req.length + res.length then ∃ n, e = .carry .server n
  else e = .act .client

end

/-! ## New parties -/

/-- A party that has said and heard nothing. -/
structure Fresh (mask : Bool) (lim : Nat) (ts : List Talk) (p : Party) : Prop where
  todo : p.todo = ts
  ear : p.ear.Good mask lim p.arrived
  deaf : p.ear.deaf = false
  pending : p.pending = []
  voice : p.voice.Good (!mask) p.output
  wire : p.output.wire = []
  carried : p.carried = 0
  ended : p.ended = false
  heard : p.heard = []
  sent : p.sent = []

theorem Fresh.flow {mask mask' : Bool} {lim lim' : Nat} {mine theirs : List Talk} {p q : Party} (h : Fresh mask lim mine p) (g : Fresh mask' lim' theirs q)
    (hm : mask' = !mask) (hs : ∀ x ∈ said theirs, x.1.spec.Sendable lim) : Flow mask lim mine theirs 0 0 [] p q := by
  have ht : q.transit = [] := by unfold Party.transit; rw [g.wire]; simp
  refine ⟨rfl, by simp, by rw [g.wire]; rfl, by rw [g.carried]; omega, ?_, ?_, .inl (Nat.le_refl _), by simp [h.ended], h.ear, by simp [h.deaf], by rw [g.todo]; rfl, Nat.zero_le _,
    ?_, by rw [g.sent]; rfl, hs⟩
  · rw [h.pending, ht]; rfl
  · rw [h.heard]; simp [expected, hears]
  · have := g.voice
    rw [hm, Bool.not_not] at this
    exact this

theorem voice_good_script {mask : Bool} {v : Voice} {w w' : Sink} (h : v.Good mask w) (hs : w'.script = w.script) : v.Good mask w' := by
  cases v with
  | blocking s => exact ⟨h.1, fun e he => h.2 e (by rw [← hs]; exact he)⟩
  | async fw => exact ⟨h.1, fun e he => h.2.1 e (by rw [← hs]; exact he), h.2.2⟩

/-- A stand-in for the client while it is waiting for the server's half. -/
theorem fresh_standin (lim : Nat) (hl : lim ≤ u32Max) (ts : List Talk) : Fresh false lim ts (Party.blocking false lim lim ts ⟨[], []⟩) :=
  ⟨rfl, ⟨⟨lim, lim, rfl, (Nat.min_eq_left hl).symm⟩, trivial⟩, rfl, rfl, ⟨rfl, by intro e he; cases he⟩, rfl, rfl, rfl, rfl, rfl⟩

/-! ## Turns before the handshake is over -/

section
variable [B64] {preq : ReqParser} {pres : ResParser}

theorem act_waiting {how : Opening} {first : Sink} {before after awaited : Bytes} {mask : Bool} {lim : Nat} (h : Opens preq pres how first before after awaited mask lim)
    (ts : List Talk) (s : Src) (w : Sink) (k : Nat) (z : Bytes) (hs : s.Chunks) (hz : z ≠ []) (hf : s.flat ++ z = awaited) :
    ∃ w', Lobby.act preq pres ⟨how, ts, s, false, first, w, k⟩ = .opening ⟨how, ts, s, false, first, w', k⟩ ∧ w'.wire = before := by
  obtain ⟨h1, h2⟩ := h.waits s z hs hz hf
  refine ⟨_, ?_, h2⟩
  unfold Lobby.act
  have e : Lobby.readable ⟨how, ts, s, false, first, w, k⟩ = s ++ [mark] := rfl
  simp only [e]
  rw [if_pos ⟨trivial, by rw [h1]; simp⟩]

theorem act_opening {how : Opening} {first : Sink} {before after awaited : Bytes} {mask : Bool} {lim : Nat} (h : Opens preq pres how first before after awaited mask lim)
    (ts : List Talk) (s : Src) (ended : Bool) (w : Sink) (k : Nat) (y : Bytes) (hs : s.Chunks) (hf : s.flat = awaited ++ y) :
    ∃ c : Line, Lobby.act preq pres ⟨how, ts, s, ended, first, w, k⟩ = .talking (c.party ⟨how, ts, s, ended, first, w, k⟩) ∧
      c.ear.Good mask lim c.arrived ∧ c.ear.deaf = false ∧ c.ear.buf ++ c.arrived.flat = y ∧ c.output.wire = after ∧ c.voice.Good (!mask) c.output := by
  have key : ∀ t : Src, Lobby.readable ⟨how, ts, s, ended, first, w, k⟩ = s ++ t → Marked t → (ended = false → t = [mark]) →
      ∃ c : Line, Lobby.act preq pres ⟨how, ts, s, ended, first, w, k⟩ = .talking (c.party ⟨how, ts, s, ended, first, w, k⟩) ∧
      c.ear.Good mask lim c.arrived ∧ c.ear.deaf = false ∧ c.ear.buf ++ c.arrived.flat = y ∧ c.output.wire = after ∧ c.voice.Good (!mask) c.output := by
    intro t e ht he
    obtain ⟨h1, c, h2, h3⟩ := h.opens s t y hs hf ht
    refine ⟨c, ?_, h3⟩
    unfold Lobby.act
    simp only [e, h2]
    rw [if_neg]
    rintro ⟨h4, h5⟩
    exact h5 (h1 (he h4))
  cases ended with
  | false => exact key [mark] rfl (.inr rfl) fun _ => rfl
  | true => exact key [] (by simp [Lobby.readable]) (.inl rfl) fun x => by cases x

/-! ## Every step -/

omit [B64] in
theorem take_carried (l : Bytes) (k n : Nat) : l.take k ++ (l.drop k).take n = l.take (k + ((l.drop k).take n).length) := by
  have e : l.take (k + n) = l.take k ++ (l.drop k).take n := by
    rw [List.take_add]
  rw [← e, List.length_take, List.length_drop]
  by_cases hx : n ≤ l.length - k
  · rw [Nat.min_eq_left hx]
  · rw [Nat.min_eq_right (by omega), List.take_of_length_le (by omega), List.take_of_length_le (by omega)]

omit [B64] in
theorem lim_lt {n : Nat} (h : n ≤ u32Max) : n < 2 ^ 63 := Nat.lt_of_le_of_lt h (by decide)

/-- The server gets its connection. -/
theorem enter_answering {ch sh : Opening} {cw sw : Sink} {req res : Bytes} {lc ls : Nat} {cts sts : List Talk} (ha : Arranged preq pres ch sh cw sw req res lc ls cts sts)
    (wc ws : Sink) (s : Src) (hc : wc.wire = req) (c : Line) (h3 : c.ear.Good true ls c.arrived) (h4 : c.ear.deaf = false)
    (h5 : c.ear.buf ++ c.arrived.flat = []) (h6 : c.output.wire = res) (h7 : c.voice.Good false c.output) :
    Stage ch sh cw sw req res lc ls cts sts ⟨.opening ⟨ch, cts, [], false, cw, wc, req.length⟩, .talking (c.party ⟨sh, sts, s, false, sw, ws, 0⟩)⟩ (2 + req.length) := by
  let q : Party := ⟨sts, c.ear, c.voice, c.arrived, false, ⟨[], c.output.script⟩, 0, [], []⟩
  have fq : Fresh true ls sts q := ⟨rfl, h3, h4, h5, voice_good_script h7 rfl, rfl, rfl, rfl, rfl, rfl⟩
  have fv := fresh_standin lc ha.lc_le cts
  have hq : c.party ⟨sh, sts, s, false, sw, ws, 0⟩ = q.placed res 0 := by
    show (⟨sts, c.ear, c.voice, c.arrived, false, c.output, 0, [], []⟩ : Party) = ⟨sts, c.ear, c.voice, c.arrived, false, ⟨res ++ [], c.output.script⟩, 0, [], []⟩
    rw [List.append_nil, ← h6]
  rw [hq]
  exact Stage.answering (ch := ch) (sh := sh) (cw := cw) (sw := sw) wc [] false 0 q _ 0 [] hc (by intro e he; cases he) (by simp [Src.flat]) (Nat.zero_le _)
    (by intro x; cases x) rfl (fv.flow fq rfl ha.server_says) (fq.flow fv rfl ha.client_says) .start

/-- The client gets its connection. -/
theorem enter_talking {ch sh : Opening} {cw sw : Sink} {req res : Bytes} {lc ls : Nat} {cts sts : List Talk}
    (wc : Sink) (s : Src) (ended : Bool) (k : Nat) (q v : Party) (j : Nat) (bs : List Bytes)
    (hk : k ≤ (res ++ q.output.wire).length) (hr : res.length ≤ k)
    (he : ended = true → q.todo = [] ∧ k = (res ++ q.output.wire).length)
    (fc : Flow false lc cts sts 0 j bs v q) (fs : Flow true ls sts cts j 0 [] q v) (hre : Reach cts sts 0 j) (c : Line)
    (h3 : c.ear.Good false lc c.arrived) (h4 : c.ear.deaf = false)
    (h5 : c.ear.buf ++ c.arrived.flat = q.output.wire.take (k - res.length)) (h6 : c.output.wire = req) (h7 : c.voice.Good true c.output) :
    Stage ch sh cw sw req res lc ls cts sts ⟨.talking (c.party ⟨ch, cts, s, ended, cw, wc, req.length⟩), .talking (q.placed res k)⟩
      (3 + req.length + res.length) := by
  let p : Party := ⟨cts, c.ear, c.voice, c.arrived, ended, ⟨[], c.output.script⟩, 0, [], []⟩
  let q' : Party := { q with carried := k - res.length }
  have ed : (⟨.talking (c.party ⟨ch, cts, s, ended, cw, wc, req.length⟩), .talking (q.placed res k)⟩ : Meeting) = Dialogue.behind req res ⟨p, q'⟩ := by
    have e1 : c.party ⟨ch, cts, s, ended, cw, wc, req.length⟩ = p.placed req (req.length + p.carried) := by
      show (⟨cts, c.ear, c.voice, c.arrived, ended, c.output, req.length, [], []⟩ : Party) =
        ⟨cts, c.ear, c.voice, c.arrived, ended, ⟨req ++ [], c.output.script⟩, req.length, [], []⟩
      rw [List.append_nil, ← h6]
    have e2 : q.placed res k = q'.placed res (res.length + q'.carried) := by
      show q.placed res k = q.placed res (res.length + (k - res.length))
      rw [Nat.add_sub_cancel' hr]
    rw [e1, e2]
    rfl
  rw [ed]
  rw [List.length_append] at hk he
  have htr : q'.transit = q.output.wire.drop (k - res.length) := rfl
  have h0 : hears (cts.take 0) = 0 := rfl
  have hpt : p.transit = [] := by simp [p, Party.transit]
  have hqp : q.pending = [] := by
    have := fs.pend
    simp only [List.drop_nil, List.flatten_nil, List.append_eq_nil_iff] at this
    exact this.1
  refine .talking _ 0 j [] bs ⟨?_, ?_⟩ hre
  · refine ⟨fc.count, fc.frames, fc.wire, ?_, ?_, ?_, fc.ahead, ?_, h3, ?_, fc.todo, fc.le, fc.voice, fc.sent, fc.sendable⟩
    · show k - res.length ≤ q.output.wire.length
      omega
    · rw [h0, htr]
      show (c.ear.buf ++ c.arrived.flat) ++ _ = _
      rw [h5, List.take_append_drop, fc.wire]
      rfl
    · rw [h0]; simp [p, expected]
    · intro hx
      obtain ⟨g1, g2⟩ := he hx
      refine ⟨?_, ?_⟩
      · have := fc.todo
        rw [g1] at this
        have := List.drop_eq_nil_iff.mp this.symm
        have := fc.le
        omega
      · rw [htr]
        exact List.drop_eq_nil_of_le (by omega)
    · intro hx
      have hx : c.ear.deaf = true := hx
      rw [h4] at hx; cases hx
  · refine ⟨fs.count, fs.frames, rfl, Nat.zero_le _, ?_, fs.heard, fs.ahead, fun hx => ⟨(fs.ended hx).1, hpt⟩, fs.ear, fs.deaf, rfl, Nat.zero_le _, voice_good_script h7 rfl, rfl, fs.sendable⟩
    show q.pending ++ p.transit = _
    rw [hqp, hpt]; simp

theorem step_stage {ch sh : Opening} {cw sw : Sink} {req res : Bytes} {lc ls : Nat} {cts sts : List Talk} (ha : Arranged preq pres ch sh cw sw req res lc ls cts sts)
    {m : Meeting} {r : Nat} (h : Stage ch sh cw sw req res lc ls cts sts m r) (e : Happens) :
    ∃ r', Stage ch sh cw sw req res lc ls cts sts (m.step preq pres e) r' ∧ r ≤ r' ∧ (Pushes req res r e → r < 3 + req.length + res.length → r < r') := by
  have hnil : Src.Chunks ([] : Src) := by intro e he; cases he
  have hreq : 0 < req.length := List.length_pos_iff.mpr ha.req0
  have hres : 0 < res.length := List.length_pos_iff.mpr ha.res0
  cases h with
  | quiet wc ws hc hs =>
    have np : ∀ e, e ≠ .act .client → ¬ Pushes req res 0 e := by
      intro e he hp
      unfold Pushes at hp
      rw [if_pos rfl] at hp
      exact he hp
    rcases e with ⟨_ | _⟩ | ⟨_ | _, n⟩
    · obtain ⟨w', h1, h2⟩ := act_waiting ha.client cts [] wc 0 res hnil ha.res0 rfl
      refine ⟨1 + 0, ?_, by omega, fun _ _ => by omega⟩
      show Stage ch sh cw sw req res lc ls cts sts ⟨Lobby.act preq pres _, _⟩ _
      rw [h1]
      exact .asking w' ws [] 0 h2 hs (Nat.zero_le _) hnil (by simp [Src.flat])
    · obtain ⟨w', h1, h2⟩ := act_waiting ha.server sts [] ws 0 req hnil ha.req0 rfl
      refine ⟨0, ?_, by omega, fun x => absurd x (np _ (by decide))⟩
      show Stage ch sh cw sw req res lc ls cts sts ⟨_, Lobby.act preq pres _⟩ _
      rw [h1]
      exact .quiet wc w' hc h2
    · refine ⟨0, ?_, by omega, fun x => absurd x (np _ (by simp))⟩
      have : (Agent.opening ⟨ch, cts, [], false, cw, wc, 0⟩).transit = [] := by simp [Agent.transit, hc]
      simp only [Meeting.step, Agent.carry, this, if_true, Agent.gone, Bool.false_eq_true, if_false]
      exact .quiet wc ws hc hs
    · refine ⟨0, ?_, by omega, fun x => absurd x (np _ (by simp))⟩
      have : (Agent.opening ⟨sh, sts, [], false, sw, ws, 0⟩).transit = [] := by simp [Agent.transit, hs]
      simp only [Meeting.step, Agent.carry, this, if_true, Agent.gone, Bool.false_eq_true, if_false]
      exact .quiet wc ws hc hs
  | asking wc ws s k hc hs hk hch hf =>
    have np : Pushes req res (1 + k) e → (k < req.length → ∃ n, e = .carry .client n) ∧ (k = req.length → e = .act .server) := by
      intro hp
      unfold Pushes at hp
      rw [if_neg (by omega)] at hp
      by_cases hx : 1 + k < 1 + req.length
      · rw [if_pos hx] at hp
        exact ⟨fun _ => hp, fun _ => by omega⟩
      · rw [if_neg hx, if_pos (by omega)] at hp
        exact ⟨fun _ => by omega, fun _ => hp⟩
    rcases e with ⟨_ | _⟩ | ⟨_ | _, n⟩
    · obtain ⟨w', h1, h2⟩ := act_waiting ha.client cts [] wc k res hnil ha.res0 rfl
      refine ⟨1 + k, ?_, Nat.le_refl _, fun x => ?_⟩
      · show Stage ch sh cw sw req res lc ls cts sts ⟨Lobby.act preq pres _, _⟩ _
        rw [h1]
        exact .asking w' ws s k h2 hs hk hch hf
      · by_cases hx : k < req.length
        · obtain ⟨n, h⟩ := (np x).1 hx; cases h
        · have := (np x).2 (by omega); cases this
    · by_cases hx : k < req.length
      · obtain ⟨w', h1, h2⟩ := act_waiting ha.server sts s ws 0 (req.drop k) hch (by
          intro hd; have := List.drop_eq_nil_iff.mp hd; omega) (by rw [hf, List.take_append_drop])
        refine ⟨1 + k, ?_, Nat.le_refl _, fun x => ?_⟩
        · show Stage ch sh cw sw req res lc ls cts sts ⟨_, Lobby.act preq pres _⟩ _
          rw [h1]
          exact .asking wc w' s k hc h2 hk hch hf
        · obtain ⟨n, h⟩ := (np x).1 hx; cases h
      · have ek : k = req.length := by omega
        subst ek
        obtain ⟨c, h1, h2, h3, h4, h5, h6⟩ := act_opening ha.server sts s false ws 0 [] hch (by rw [hf, List.take_length, List.append_nil])
        refine ⟨2 + req.length, ?_, by omega, fun _ _ => by omega⟩
        show Stage ch sh cw sw req res lc ls cts sts ⟨_, Lobby.act preq pres _⟩ _
        rw [h1]
        exact enter_answering ha wc ws s hc c h2 h3 h4 h5 h6
    · have ht : (Agent.opening ⟨ch, cts, [], false, cw, wc, k⟩).transit = req.drop k := by simp [Agent.transit, hc]
      by_cases hx : k < req.length
      · have hne : req.drop k ≠ [] := by
          intro hd; have := List.drop_eq_nil_iff.mp hd; omega
        have hne' : (req.drop k).take (n + 1) ≠ [] := by
          cases hq : req.drop k with
          | nil => exact absurd hq hne
          | cons a l => simp
        have hpos : 0 < ((req.drop k).take (n + 1)).length := List.length_pos_iff.mpr hne'
        have hle : ((req.drop k).take (n + 1)).length ≤ req.length - k := by rw [List.length_take, List.length_drop]; omega
        refine ⟨1 + (k + ((req.drop k).take (n + 1)).length), ?_, by omega, fun _ _ => by omega⟩
        simp only [Meeting.step, Agent.carry, ht, hne, if_false, Agent.sent, Agent.receive]
        exact .asking wc ws _ _ hc hs (by omega) (chunks_snoc hch hne') (by rw [flat_snoc, hf, take_carried])
      · have hne : req.drop k = [] := List.drop_eq_nil_of_le (by omega)
        refine ⟨1 + k, ?_, Nat.le_refl _, fun x => ?_⟩
        · simp only [Meeting.step, Agent.carry, ht, hne, if_true, Agent.gone, Bool.false_eq_true, if_false]
          exact .asking wc ws s k hc hs hk hch hf
        · have := (np x).2 (by omega); cases this
    · refine ⟨1 + k, ?_, Nat.le_refl _, fun x => ?_⟩
      · have : (Agent.opening ⟨sh, sts, s, false, sw, ws, 0⟩).transit = [] := by simp [Agent.transit, hs]
        simp only [Meeting.step, Agent.carry, this, if_true, Agent.gone, Bool.false_eq_true, if_false]
        exact .asking wc ws s k hc hs hk hch hf
      · by_cases hx : k < req.length
        · obtain ⟨n, h⟩ := (np x).1 hx; cases h
        · have := (np x).2 (by omega); cases this
  | answering wc s ended k q v j bs hc hch hf hk he hq fc fs hr =>
    have np : Pushes req res (2 + req.length + min k res.length) e → (k < res.length → ∃ n, e = .carry .server n) ∧ (res.length ≤ k → e = .act .client) := by
      intro hp
      unfold Pushes at hp
      rw [if_neg (by omega), if_neg (by omega), if_neg (by omega)] at hp
      by_cases hx : k < res.length
      · rw [if_pos (by omega)] at hp
        exact ⟨fun _ => hp, fun _ => by omega⟩
      · rw [if_neg (by omega)] at hp
        exact ⟨fun _ => by omega, fun _ => hp⟩
    rcases e with ⟨_ | _⟩ | ⟨_ | _, n⟩
    · by_cases hx : k < res.length
      · have hen : ended = false := by
          cases hen : ended with
          | false => rfl
          | true => have := (he hen).2; rw [List.length_append] at this; omega
        subst hen
        have hf' : s.flat = res.take k := by
          rw [hf, List.take_append, show k - res.length = 0 by omega]; simp
        obtain ⟨w', h1, h2⟩ := act_waiting ha.client cts s wc req.length (res.drop k) hch (by
          intro hd; have := List.drop_eq_nil_iff.mp hd; omega) (by rw [hf', List.take_append_drop])
        refine ⟨2 + req.length + min k res.length, ?_, Nat.le_refl _, fun x => ?_⟩
        · show Stage ch sh cw sw req res lc ls cts sts ⟨Lobby.act preq pres _, _⟩ _
          rw [h1]
          exact .answering w' s false k q v j bs h2 hch hf hk he hq fc fs hr
        · obtain ⟨n, h⟩ := (np x).1 hx; cases h
      · have hf' : s.flat = res ++ q.output.wire.take (k - res.length) := by
          rw [hf, List.take_append, List.take_of_length_le (by omega)]
        obtain ⟨c, h1, h2, h3, h4, h5, h6⟩ := act_opening ha.client cts s ended wc req.length _ hch hf'
        refine ⟨3 + req.length + res.length, ?_, by omega, fun _ _ => by omega⟩
        show Stage ch sh cw sw req res lc ls cts sts ⟨Lobby.act preq pres _, _⟩ _
        rw [h1]
        exact enter_talking wc s ended k q v j bs hk (by omega) he fc fs hr c h2 h3 h4 h5 h6
    · refine ⟨2 + req.length + min k res.length, ?_, Nat.le_refl _, fun x => ?_⟩
      · obtain ⟨j', bs', g1, g2, g3, g4, g5, g6, -⟩ := act_flow (lim_lt ha.lc_le) fs fc
        show Stage ch sh cw sw req res lc ls cts sts ⟨_, .talking (q.placed res k).act⟩ _
        rw [act_placed]
        obtain ⟨t, rfl⟩ := g3
        have hw : q.act.output.wire = q.output.wire ++ t.flatten := by
          rw [g2.wire, fc.wire, List.flatten_append]
        refine .answering wc s ended k q.act v j' _ hc hch ?_ ?_ ?_ (by rw [act_carried, hq]) g2 g1 ?_
        · rw [hf, hw, ← List.append_assoc, List.take_append (l₁ := res ++ q.output.wire), show k - (res ++ q.output.wire).length = 0 by omega]; simp
        · rw [hw, ← List.append_assoc, List.length_append (as := res ++ q.output.wire)]; omega
        · intro hen
          obtain ⟨k1, k2⟩ := he hen
          rw [act_nil k1]
          exact ⟨k1, k2⟩
        · rcases g6 with rfl | ⟨rfl, g6⟩
          · exact hr
          · exact .server hr g6
      · by_cases hx : k < res.length
        · obtain ⟨n, h⟩ := (np x).1 hx; cases h
        · have := (np x).2 (by omega); cases this
    · refine ⟨2 + req.length + min k res.length, ?_, Nat.le_refl _, fun x => ?_⟩
      · have : (Agent.opening ⟨ch, cts, s, ended, cw, wc, req.length⟩).transit = [] := by simp [Agent.transit, hc]
        simp only [Meeting.step, Agent.carry, this, if_true, Agent.gone, Bool.false_eq_true, if_false]
        exact .answering wc s ended k q v j bs hc hch hf hk he hq fc fs hr
      · by_cases hx : k < res.length
        · obtain ⟨n, h⟩ := (np x).1 hx; cases h
        · have := (np x).2 (by omega); cases this
    · have ht : (Agent.talking (q.placed res k)).transit = (res ++ q.output.wire).drop k := rfl
      by_cases hx : k < (res ++ q.output.wire).length
      · have hne : (res ++ q.output.wire).drop k ≠ [] := by
          intro hd; have := List.drop_eq_nil_iff.mp hd; omega
        have hne' : ((res ++ q.output.wire).drop k).take (n + 1) ≠ [] := by
          cases hq : (res ++ q.output.wire).drop k with
          | nil => exact absurd hq hne
          | cons a l => simp
        have hpos : 0 < (((res ++ q.output.wire).drop k).take (n + 1)).length := List.length_pos_iff.mpr hne'
        have hle : (((res ++ q.output.wire).drop k).take (n + 1)).length ≤ (res ++ q.output.wire).length - k := by
          rw [List.length_take, List.length_drop]; omega
        have hen : ended = false := by
          cases hen : ended with
          | false => rfl
          | true => have := (he hen).2; omega
        subst hen
        refine ⟨2 + req.length + min (k + (((res ++ q.output.wire).drop k).take (n + 1)).length) res.length, ?_, by omega, fun x _ => ?_⟩
        · simp only [Meeting.step, Agent.carry, ht, hne, if_false, Agent.sent, Agent.receive]
          exact .answering wc _ false (k + (((res ++ q.output.wire).drop k).take (n + 1)).length) q v j bs hc (chunks_snoc hch hne') (by rw [flat_snoc, hf, take_carried]) (by omega) (by intro x; cases x) hq fc fs hr
        · by_cases hy : k < res.length
          · omega
          · have := (np x).2 (by omega); cases this
      · have hne : (res ++ q.output.wire).drop k = [] := List.drop_eq_nil_of_le (by omega)
        refine ⟨2 + req.length + min k res.length, ?_, Nat.le_refl _, fun x => ?_⟩
        · by_cases hd : q.todo = []
          · have hg : (Agent.talking (q.placed res k)).gone = true := by show q.todo.isEmpty = true; rw [hd]; rfl
            simp only [Meeting.step, Agent.carry, ht, hne, if_true, hg, Agent.close]
            exact .answering wc s true k q v j bs hc hch hf hk (fun _ => ⟨hd, by omega⟩) hq fc fs hr
          · have hg : (Agent.talking (q.placed res k)).gone = false := by
              show q.todo.isEmpty = false
              cases hx : q.todo with
              | nil => exact absurd hx hd
              | cons t ts => rfl
            simp only [Meeting.step, Agent.carry, ht, hne, if_true, hg, Bool.false_eq_true, if_false]
            exact .answering wc s ended k q v j bs hc hch hf hk he hq fc fs hr
        · rw [List.length_append] at hx
          have := (np x).2 (by omega); cases this
  | talking d i j bc bs h hr =>
    obtain ⟨i', j', bc', bs', h1, h2⟩ := step_together (lim_lt ha.lc_le) (lim_lt ha.ls_le) h e
    refine ⟨3 + req.length + res.length, ?_, Nat.le_refl _, fun _ x => absurd x (Nat.lt_irrefl _)⟩
    rw [step_behind]
    exact .talking _ i' j' bc' bs' h1 (h2.reach hr)

theorem run_stage {ch sh : Opening} {cw sw : Sink} {req res : Bytes} {lc ls : Nat} {cts sts : List Talk} (ha : Arranged preq pres ch sh cw sw req res lc ls cts sts)
    (es : List Happens) : ∀ {m : Meeting} {r : Nat}, Stage ch sh cw sw req res lc ls cts sts m r →
    ∃ r', Stage ch sh cw sw req res lc ls cts sts (m.run preq pres es) r' ∧ r ≤ r' := by
  induction es with
  | nil => intro m r h; exact ⟨r, h, Nat.le_refl _⟩
  | cons e es ih =>
    intro m r h
    obtain ⟨r1, h1, h2, -⟩ := step_stage ha h e
    obtain ⟨r2, h3, h4⟩ := ih h1
    exact ⟨r2, h3, by omega⟩

/-! ## The handshake comes to its end -/

theorem mrun_append (m : Meeting) (a b : List Happens) : m.run preq pres (a ++ b) = (m.run preq pres a).run preq pres b := by
  unfold Meeting.run; rw [List.foldl_append]

omit [B64] in
theorem range_add (f : Nat → Happens) (n k : Nat) : (List.range (n + k)).map f = (List.range n).map f ++ (List.range k).map fun i => f (n + i) := by
  rw [List.range_add, List.map_append, List.map_map]; rfl

omit [B64] in
theorem pushes_often {f : Nat → Happens} (hf : FairNet f) (req res : Bytes) (r n : Nat) : ∃ m, n ≤ m ∧ Pushes req res r (f m) := by
  unfold Pushes
  obtain ⟨⟨a, a1, a2⟩, b, k, b1, b2⟩ := hf .client n
  obtain ⟨⟨c, c1, c2⟩, d, l, d1, d2⟩ := hf .server n
  split
  · exact ⟨a, a1, a2⟩
  · split
    · exact ⟨b, b1, k, b2⟩
    · split
      · exact ⟨c, c1, c2⟩
      · split
        · exact ⟨d, d1, l, d2⟩
        · exact ⟨a, a1, a2⟩

theorem stage_grows {ch sh : Opening} {cw sw : Sink} {req res : Bytes} {lc ls : Nat} {cts sts : List Talk} (ha : Arranged preq pres ch sh cw sw req res lc ls cts sts)
    {f : Nat → Happens} (hf : FairNet f) (m : Meeting) (g : Nat) : ∀ {n r : Nat}, Stage ch sh cw sw req res lc ls cts sts (m.run preq pres ((List.range n).map f)) r →
    3 + req.length + res.length ≤ r + g → ∃ n' r', n ≤ n' ∧ Stage ch sh cw sw req res lc ls cts sts (m.run preq pres ((List.range n').map f)) r' ∧
      3 + req.length + res.length ≤ r' := by
  induction g with
  | zero => intro n r h hg; exact ⟨n, r, Nat.le_refl _, h, by omega⟩
  | succ g ih =>
    intro n r h hg
    by_cases hr : r < 3 + req.length + res.length
    · obtain ⟨k, hk, hp⟩ := pushes_often hf req res r n
      obtain ⟨j, rfl⟩ := Nat.exists_eq_add_of_le hk
      obtain ⟨r1, h1, h2⟩ := run_stage ha ((List.range j).map fun i => f (n + i)) h
      rw [← mrun_append, ← range_add] at h1
      obtain ⟨r2, h3, h4, h5⟩ := step_stage ha h1 (f (n + j))
      have e : (m.run preq pres ((List.range (n + j)).map f)).step preq pres (f (n + j)) = m.run preq pres ((List.range (n + j + 1)).map f) := by
        rw [range_add f (n + j) 1, mrun_append]; rfl
      rw [e] at h3
      have hlt : r < r2 := by
        by_cases hx : r1 = r
        · subst hx; exact h5 hp hr
        · omega
      obtain ⟨n', r', k1, k2, k3⟩ := ih h3 (by omega)
      exact ⟨n', r', by omega, k2, k3⟩
    · exact ⟨n, r, Nat.le_refl _, h, by omega⟩

/-- Only two talking programs have come that far. -/
theorem Stage.final {ch sh : Opening} {cw sw : Sink} {req res : Bytes} {lc ls : Nat} {cts sts : List Talk} {m : Meeting} {r : Nat}
    (h : Stage ch sh cw sw req res lc ls cts sts m r) (hr : 3 + req.length + res.length ≤ r) :
    ∃ d i j bc bs, m = d.behind req res ∧ Together false true lc ls cts sts d i j bc bs ∧ Reach cts sts i j := by
  cases h with
  | quiet => omega
  | asking => omega
  | answering => omega
  | talking d i j bc bs h hre => exact ⟨d, i, j, bc, bs, rfl, h, hre⟩

end

end WS
