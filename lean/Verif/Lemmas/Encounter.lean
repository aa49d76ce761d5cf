import Verif.Lemmas.Adaptive
import Verif.Lemmas.Meeting
import Verif.Model.Encounter
/-!
# Lemmas for C82
-/

namespace WS
open Spec

/-! ## Bytes of the handshake before what is said -/

def Actor.placed (base : Bytes) (n : Nat) (a : Actor) : Actor := { a with party := a.party.placed base n }

theorem actor_act_placed (base : Bytes) (n : Nat) (a : Actor) : (a.placed base n).act = a.act.placed base n := by
  have hp : (a.placed base n).plan = a.plan := rfl
  have hq : (a.placed base n).past = a.past := rfl
  have hr : (a.placed base n).party.act = a.party.act.placed base n := act_placed base n a.party
  unfold Actor.act
  rw [hp, hq]
  cases a.plan a.past with
  | none => rfl
  | some d =>
    simp only [hr]
    have ht : (a.party.act.placed base n).todo = a.party.act.todo := rfl
    have he : d.event (a.party.act.placed base n) = d.event a.party.act := by cases d <;> rfl
    rw [ht, he]
    split <;> rfl

theorem actor_act_carried (a : Actor) : a.act.party.carried = a.party.carried := by
  unfold Actor.act
  cases a.plan a.past with
  | none => rfl
  | some d =>
    simp only
    split
    · show a.party.act.carried = _
      exact act_carried _
    · exact act_carried _

/-- Two programs behind a handshake. -/
def Duet.behind (req res : Bytes) (x : Duet) : Encounter :=
  ⟨(x.client.placed req (req.length + x.client.party.carried)).visitor, (x.server.placed res (res.length + x.server.party.carried)).visitor⟩

section
variable [B64] (preq : ReqParser) (pres : ResParser)

theorem visitor_act (a : Actor) : a.visitor.act preq pres = a.act.visitor := rfl

theorem duet_step_behind (req res : Bytes) (x : Duet) (e : Happens) : (x.behind req res).step preq pres e = (x.step e).behind req res := by
  rcases e with ⟨_ | _⟩ | ⟨_ | _, n⟩
  · simp only [Duet.behind, Encounter.step, visitor_act, Duet.step, actor_act_placed, actor_act_carried]
  · simp only [Duet.behind, Encounter.step, visitor_act, Duet.step, actor_act_placed, actor_act_carried]
  · simp only [Duet.behind, Encounter.step, Duet.step, Actor.visitor, Actor.placed, carry_placed]
  · simp only [Duet.behind, Encounter.step, Duet.step, Actor.visitor, Actor.placed, carry_placed]

theorem duet_run_behind (req res : Bytes) (es : List Happens) : ∀ x : Duet, (x.behind req res).run preq pres es = (x.run es).behind req res := by
  induction es with
  | nil => intro x; rfl
  | cons e es ih =>
    intro x
    show ((x.behind req res).step preq pres e).run preq pres es = ((x.step e).run es).behind req res
    rw [duet_step_behind, ih]

theorem erun_append (m : Encounter) (a b : List Happens) : m.run preq pres (a ++ b) = (m.run preq pres a).run preq pres b := by
  unfold Encounter.run; rw [List.foldl_append]

end

/-! ## The stages -/

/-- Everything that is fixed about two programs. -/
structure Cast where
  cp : Plan
  ck : Nat → Key4
  cx : Nat → Nat
  sp : Plan
  sk : Nat → Key4
  sx : Nat → Nat

def Cast.ct (c : Cast) : List Talk := firstCall c.cp c.ck c.cx
def Cast.st (c : Cast) : List Talk := firstCall c.sp c.sk c.sx

theorem Cast.client_says {lc ls} (c : Cast) (h : Speakable c.cp c.sp lc ls) : ∀ y ∈ said c.ct, y.1.spec.Sendable ls := by
  intro y hy
  unfold Cast.ct firstCall at hy
  split at hy
  · cases hy
  · next m hm =>
    simp only [said, List.mem_singleton] at hy
    subst hy
    exact h.client .start hm
  · cases hy

theorem Cast.server_says {lc ls} (c : Cast) (h : Speakable c.cp c.sp lc ls) : ∀ y ∈ said c.st, y.1.spec.Sendable lc := by
  intro y hy
  unfold Cast.st firstCall at hy
  split at hy
  · cases hy
  · next m hm =>
    simp only [said, List.mem_singleton] at hy
    subst hy
    exact h.server .start hm
  · cases hy

/-- How far two programs have come. -/
inductive EStage (c : Cast) (ch sh : Opening) (cw sw : Sink) (req res : Bytes) (lc ls : Nat) : Encounter → Nat → Prop
  | quiet (wc ws : Sink) (hc : wc.wire = []) (hs : ws.wire = []) :
    EStage c ch sh cw sw req res lc ls
      ⟨⟨c.cp, c.ck, c.cx, [], .opening ⟨ch, c.ct, [], false, cw, wc, 0⟩⟩, ⟨c.sp, c.sk, c.sx, [], .opening ⟨sh, c.st, [], false, sw, ws, 0⟩⟩⟩ 0
  | asking (wc ws : Sink) (s : Src) (k : Nat) (hc : wc.wire = req) (hs : ws.wire = []) (hk : k ≤ req.length) (hch : s.Chunks) (hf : s.flat = req.take k) :
    EStage c ch sh cw sw req res lc ls
      ⟨⟨c.cp, c.ck, c.cx, [], .opening ⟨ch, c.ct, [], false, cw, wc, k⟩⟩, ⟨c.sp, c.sk, c.sx, [], .opening ⟨sh, c.st, s, false, sw, ws, 0⟩⟩⟩ (1 + k)
  | answering (wc : Sink) (s : Src) (ended : Bool) (k : Nat) (x : Duet) (bs : List Bytes) (hc : wc.wire = req) (hch : s.Chunks)
    (hf : s.flat = (res ++ x.server.party.output.wire).take k) (hk : k ≤ (res ++ x.server.party.output.wire).length)
    (he : ended = true → x.server.party.todo = [] ∧ k = (res ++ x.server.party.output.wire).length) (hq : x.server.party.carried = 0)
    (hv : x.client.plan = c.cp ∧ x.client.keys = c.ck ∧ x.client.extra = c.cx ∧ x.client.past = [])
    (hb : Both c.cp c.sp false true lc ls x [] bs) :
    EStage c ch sh cw sw req res lc ls
      ⟨⟨c.cp, c.ck, c.cx, [], .opening ⟨ch, c.ct, s, ended, cw, wc, req.length⟩⟩, (x.server.placed res k).visitor⟩ (2 + req.length + min k res.length)
  | talking (x : Duet) (bc bs : List Bytes) (hb : Both c.cp c.sp false true lc ls x bc bs) :
    EStage c ch sh cw sw req res lc ls (x.behind req res) (3 + req.length + res.length)

/-- Everything that is fixed about an encounter. -/
structure EArranged [B64] (preq : ReqParser) (pres : ResParser) (c : Cast) (ch sh : Opening) (cw sw : Sink) (req res : Bytes) (lc ls : Nat) : Prop where
  client : Opens preq pres ch cw req req res false lc
  server : Opens preq pres sh sw [] res req true ls
  req0 : req ≠ []
  res0 : res ≠ []
  lc_le : lc ≤ u32Max
  ls_le : ls ≤ u32Max
  says : Speakable c.cp c.sp lc ls

theorem actor_list_new {a : Actor} (h : a.past = []) : a.list = a.call ∧ a.call = firstCall a.plan a.keys a.extra := by
  refine ⟨by unfold Actor.list Actor.calls; rw [h]; rfl, ?_⟩
  unfold Actor.call firstCall
  rw [h]
  rfl

section
variable [B64] {preq : ReqParser} {pres : ResParser}

theorem fresh_both {c : Cast} {lc ls : Nat} (hs : Speakable c.cp c.sp lc ls) {p q : Party} (hp : Fresh false lc c.ct p) (hq : Fresh true ls c.st q) :
    Both c.cp c.sp false true lc ls ⟨⟨c.cp, c.ck, c.cx, [], p⟩, ⟨c.sp, c.sk, c.sx, [], q⟩⟩ [] [] := by
  have e1 := actor_list_new (a := ⟨c.cp, c.ck, c.cx, [], p⟩) rfl
  have e2 := actor_list_new (a := ⟨c.sp, c.sk, c.sx, [], q⟩) rfl
  refine ⟨rfl, rfl, ?_, ?_, .start⟩
  · simp only [e1.1, e2.1, e1.2, e2.2]
    exact hp.flow hq rfl (c.server_says hs)
  · simp only [e1.1, e2.1, e1.2, e2.2]
    exact hq.flow hp rfl (c.client_says hs)

/-- The server gets its connection. -/
theorem eenter_answering {c : Cast} {ch sh : Opening} {cw sw : Sink} {req res : Bytes} {lc ls : Nat} (ha : EArranged preq pres c ch sh cw sw req res lc ls)
    (wc ws : Sink) (s : Src) (hc : wc.wire = req) (l : Line) (h3 : l.ear.Good true ls l.arrived) (h4 : l.ear.deaf = false)
    (h5 : l.ear.buf ++ l.arrived.flat = []) (h6 : l.output.wire = res) (h7 : l.voice.Good false l.output) :
    EStage c ch sh cw sw req res lc ls
      ⟨⟨c.cp, c.ck, c.cx, [], .opening ⟨ch, c.ct, [], false, cw, wc, req.length⟩⟩, ⟨c.sp, c.sk, c.sx, [], .talking (l.party ⟨sh, c.st, s, false, sw, ws, 0⟩)⟩⟩
      (2 + req.length) := by
  let q : Party := ⟨c.st, l.ear, l.voice, l.arrived, false, ⟨[], l.output.script⟩, 0, [], []⟩
  have fq : Fresh true ls c.st q := ⟨rfl, h3, h4, h5, voice_good_script h7 rfl, rfl, rfl, rfl, rfl, rfl⟩
  have fv := fresh_standin lc ha.lc_le c.ct
  have hq : l.party ⟨sh, c.st, s, false, sw, ws, 0⟩ = q.placed res 0 := by
    show (⟨c.st, l.ear, l.voice, l.arrived, false, l.output, 0, [], []⟩ : Party) = ⟨c.st, l.ear, l.voice, l.arrived, false, ⟨res ++ [], l.output.script⟩, 0, [], []⟩
    rw [List.append_nil, ← h6]
  rw [hq]
  exact EStage.answering (ch := ch) (sh := sh) (cw := cw) (sw := sw) wc [] false 0 ⟨⟨c.cp, c.ck, c.cx, [], _⟩, ⟨c.sp, c.sk, c.sx, [], q⟩⟩ [] hc (by intro e he; cases he)
    (by simp [Src.flat]) (Nat.zero_le _) (by intro x; cases x) rfl ⟨rfl, rfl, rfl, rfl⟩ (fresh_both ha.says fv fq)

/-- The client gets its connection. -/
theorem eenter_talking {c : Cast} {ch sh : Opening} {cw sw : Sink} {req res : Bytes} {lc ls : Nat}
    (wc : Sink) (s : Src) (ended : Bool) (k : Nat) (x : Duet) (bs : List Bytes)
    (hk : k ≤ (res ++ x.server.party.output.wire).length) (hr : res.length ≤ k)
    (he : ended = true → x.server.party.todo = [] ∧ k = (res ++ x.server.party.output.wire).length)
    (hv : x.client.plan = c.cp ∧ x.client.keys = c.ck ∧ x.client.extra = c.cx ∧ x.client.past = [])
    (hb : Both c.cp c.sp false true lc ls x [] bs) (l : Line)
    (h3 : l.ear.Good false lc l.arrived) (h4 : l.ear.deaf = false)
    (h5 : l.ear.buf ++ l.arrived.flat = x.server.party.output.wire.take (k - res.length)) (h6 : l.output.wire = req) (h7 : l.voice.Good true l.output) :
    EStage c ch sh cw sw req res lc ls
      ⟨⟨c.cp, c.ck, c.cx, [], .talking (l.party ⟨ch, c.ct, s, ended, cw, wc, req.length⟩)⟩, (x.server.placed res k).visitor⟩ (3 + req.length + res.length) := by
  obtain ⟨a, b⟩ := x
  obtain ⟨plan, keys, extra, past, v⟩ := a
  obtain ⟨rfl, rfl, rfl, rfl⟩ := hv
  simp only at hk he h5
  let p : Party := ⟨c.ct, l.ear, l.voice, l.arrived, ended, ⟨[], l.output.script⟩, 0, [], []⟩
  let q' : Party := { b.party with carried := k - res.length }
  let x' : Duet := ⟨⟨c.cp, c.ck, c.cx, [], p⟩, { b with party := q' }⟩
  have ed : (⟨⟨c.cp, c.ck, c.cx, [], .talking (l.party ⟨ch, c.ct, s, ended, cw, wc, req.length⟩)⟩, (b.placed res k).visitor⟩ : Encounter) = x'.behind req res := by
    have e1 : l.party ⟨ch, c.ct, s, ended, cw, wc, req.length⟩ = p.placed req (req.length + p.carried) := by
      show (⟨c.ct, l.ear, l.voice, l.arrived, ended, l.output, req.length, [], []⟩ : Party) =
        ⟨c.ct, l.ear, l.voice, l.arrived, ended, ⟨req ++ [], l.output.script⟩, req.length, [], []⟩
      rw [List.append_nil, ← h6]
    have e2 : b.party.placed res k = q'.placed res (res.length + q'.carried) := by
      show b.party.placed res k = b.party.placed res (res.length + (k - res.length))
      rw [Nat.add_sub_cancel' hr]
    rw [e1]
    show (⟨_, ⟨b.plan, b.keys, b.extra, b.past, .talking (b.party.placed res k)⟩⟩ : Encounter) = _
    rw [e2]
    rfl
  rw [ed]
  rw [List.length_append] at hk he
  obtain ⟨-, hsp, fc, fs, hu⟩ := hb
  have el := actor_list_new (a := ⟨c.cp, c.ck, c.cx, [], v⟩) rfl
  have el' := actor_list_new (a := ⟨c.cp, c.ck, c.cx, [], p⟩) rfl
  have ell : Actor.list ⟨c.cp, c.ck, c.cx, [], p⟩ = Actor.list ⟨c.cp, c.ck, c.cx, [], v⟩ := by rw [el.1, el.2, el'.1, el'.2]
  have elb : Actor.list { b with party := q' } = b.list := rfl
  have hct : Actor.list ⟨c.cp, c.ck, c.cx, [], v⟩ = c.ct := by rw [el.1, el.2]; rfl
  simp only [List.length_nil] at fc fs
  have htr : q'.transit = b.party.output.wire.drop (k - res.length) := rfl
  have hpt : p.transit = [] := by simp [p, Party.transit]
  have hqp : b.party.pending = [] := by
    have := fs.pend
    simp only [List.drop_nil, List.flatten_nil, List.append_eq_nil_iff] at this
    exact this.1
  refine .talking _ [] bs ⟨rfl, hsp, ?_, ?_, hu⟩
  · show Flow false lc (Actor.list ⟨c.cp, c.ck, c.cx, [], p⟩) (Actor.list { b with party := q' }) 0 b.past.length bs p q'
    rw [ell, elb]
    have h0 : hears ((Actor.list ⟨c.cp, c.ck, c.cx, [], v⟩).take 0) = 0 := rfl
    refine ⟨fc.count, fc.frames, fc.wire, ?_, ?_, ?_, fc.ahead, ?_, h3, ?_, fc.todo, fc.le, fc.voice, fc.sent, fc.sendable⟩
    · show k - res.length ≤ b.party.output.wire.length
      omega
    · rw [h0, htr]
      show (l.ear.buf ++ l.arrived.flat) ++ _ = _
      rw [h5, List.take_append_drop, fc.wire]
      rfl
    · rw [h0]; simp [p, expected]
    · intro hx
      obtain ⟨g1, g2⟩ := he hx
      refine ⟨?_, ?_⟩
      · have := fc.todo
        rw [g1] at this
        have := List.drop_eq_nil_iff.mp this.symm
        have := fc.le
        omega
      · rw [htr]
        exact List.drop_eq_nil_of_le (by omega)
    · intro hx
      have hx : l.ear.deaf = true := hx
      rw [h4] at hx; cases hx
  · show Flow true ls (Actor.list { b with party := q' }) (Actor.list ⟨c.cp, c.ck, c.cx, [], p⟩) b.past.length 0 [] q' p
    rw [ell, elb]
    refine ⟨fs.count, fs.frames, rfl, Nat.zero_le _, ?_, fs.heard, fs.ahead, fun hx => ⟨(fs.ended hx).1, hpt⟩, fs.ear, fs.deaf, ?_, Nat.zero_le _, voice_good_script h7 rfl, rfl, fs.sendable⟩
    · show b.party.pending ++ p.transit = _
      rw [hqp, hpt]; simp
    · rw [hct]; rfl

theorem step_estage {c : Cast} {ch sh : Opening} {cw sw : Sink} {req res : Bytes} {lc ls : Nat} (ha : EArranged preq pres c ch sh cw sw req res lc ls)
    {m : Encounter} {r : Nat} (h : EStage c ch sh cw sw req res lc ls m r) (e : Happens) :
    ∃ r', EStage c ch sh cw sw req res lc ls (m.step preq pres e) r' ∧ r ≤ r' ∧ (Pushes req res r e → r < 3 + req.length + res.length → r < r') := by
  have hnil : Src.Chunks ([] : Src) := by intro e he; cases he
  have hreq : 0 < req.length := List.length_pos_iff.mpr ha.req0
  have hres : 0 < res.length := List.length_pos_iff.mpr ha.res0
  cases h with
  | quiet wc ws hc hs =>
    have np : ∀ e, e ≠ .act .client → ¬ Pushes req res 0 e := by
      intro e he hp
      unfold Pushes at hp
      rw [if_pos rfl] at hp
      exact he hp
    rcases e with ⟨_ | _⟩ | ⟨_ | _, n⟩
    · obtain ⟨w', h1, h2⟩ := act_waiting ha.client c.ct [] wc 0 res hnil ha.res0 rfl
      refine ⟨1 + 0, ?_, by omega, fun _ _ => by omega⟩
      show EStage c ch sh cw sw req res lc ls ⟨⟨_, _, _, _, Lobby.act preq pres _⟩, _⟩ _
      rw [h1]
      exact .asking w' ws [] 0 h2 hs (Nat.zero_le _) hnil (by simp [Src.flat])
    · obtain ⟨w', h1, h2⟩ := act_waiting ha.server c.st [] ws 0 req hnil ha.req0 rfl
      refine ⟨0, ?_, by omega, fun x => absurd x (np _ (by decide))⟩
      show EStage c ch sh cw sw req res lc ls ⟨_, ⟨_, _, _, _, Lobby.act preq pres _⟩⟩ _
      rw [h1]
      exact .quiet wc w' hc h2
    · refine ⟨0, ?_, by omega, fun x => absurd x (np _ (by simp))⟩
      have : (Agent.opening ⟨ch, c.ct, [], false, cw, wc, 0⟩).transit = [] := by simp [Agent.transit, hc]
      simp only [Encounter.step, Agent.carry, this, if_true, Agent.gone, Bool.false_eq_true, if_false]
      exact .quiet wc ws hc hs
    · refine ⟨0, ?_, by omega, fun x => absurd x (np _ (by simp))⟩
      have : (Agent.opening ⟨sh, c.st, [], false, sw, ws, 0⟩).transit = [] := by simp [Agent.transit, hs]
      simp only [Encounter.step, Agent.carry, this, if_true, Agent.gone, Bool.false_eq_true, if_false]
      exact .quiet wc ws hc hs
  | asking wc ws s k hc hs hk hch hf =>
    have np : Pushes req res (1 + k) e → (k < req.length → ∃ n, e = .carry .client n) ∧ (k = req.length → e = .act .server) := by
      intro hp
      unfold Pushes at hp
      rw [if_neg (by omega)] at hp
      by_cases hx : 1 + k < 1 + req.length
      · rw [if_pos hx] at hp
        exact ⟨fun _ => hp, fun _ => by omega⟩
      · rw [if_neg hx, if_pos (by omega)] at hp
        exact ⟨fun _ => by omega, fun _ => hp⟩
    rcases e with ⟨_ | _⟩ | ⟨_ | _, n⟩
    · obtain ⟨w', h1, h2⟩ := act_waiting ha.client c.ct [] wc k res hnil ha.res0 rfl
      refine ⟨1 + k, ?_, Nat.le_refl _, fun x => ?_⟩
      · show EStage c ch sh cw sw req res lc ls ⟨⟨_, _, _, _, Lobby.act preq pres _⟩, _⟩ _
        rw [h1]
        exact .asking w' ws s k h2 hs hk hch hf
      · by_cases hx : k < req.length
        · obtain ⟨n, h⟩ := (np x).1 hx; cases h
        · have := (np x).2 (by omega); cases this
    · by_cases hx : k < req.length
      · obtain ⟨w', h1, h2⟩ := act_waiting ha.server c.st s ws 0 (req.drop k) hch (by
          intro hd; have := List.drop_eq_nil_iff.mp hd; omega) (by rw [hf, List.take_append_drop])
        refine ⟨1 + k, ?_, Nat.le_refl _, fun x => ?_⟩
        · show EStage c ch sh cw sw req res lc ls ⟨_, ⟨_, _, _, _, Lobby.act preq pres _⟩⟩ _
          rw [h1]
          exact .asking wc w' s k hc h2 hk hch hf
        · obtain ⟨n, h⟩ := (np x).1 hx; cases h
      · have ek : k = req.length := by omega
        subst ek
        obtain ⟨l, h1, h2, h3, h4, h5, h6⟩ := act_opening ha.server c.st s false ws 0 [] hch (by rw [hf, List.take_length, List.append_nil])
        refine ⟨2 + req.length, ?_, by omega, fun _ _ => by omega⟩
        show EStage c ch sh cw sw req res lc ls ⟨_, ⟨_, _, _, _, Lobby.act preq pres _⟩⟩ _
        rw [h1]
        exact eenter_answering ha wc ws s hc l h2 h3 h4 h5 h6
    · have ht : (Agent.opening ⟨ch, c.ct, [], false, cw, wc, k⟩).transit = req.drop k := by simp [Agent.transit, hc]
      by_cases hx : k < req.length
      · have hne : req.drop k ≠ [] := by
          intro hd; have := List.drop_eq_nil_iff.mp hd; omega
        have hne' : (req.drop k).take (n + 1) ≠ [] := by
          cases hq : req.drop k with
          | nil => exact absurd hq hne
          | cons a l => simp
        have hpos : 0 < ((req.drop k).take (n + 1)).length := List.length_pos_iff.mpr hne'
        have hle : ((req.drop k).take (n + 1)).length ≤ req.length - k := by rw [List.length_take, List.length_drop]; omega
        refine ⟨1 + (k + ((req.drop k).take (n + 1)).length), ?_, by omega, fun _ _ => by omega⟩
        simp only [Encounter.step, Agent.carry, ht, hne, if_false, Agent.sent, Agent.receive]
        exact .asking wc ws _ _ hc hs (by omega) (chunks_snoc hch hne') (by rw [flat_snoc, hf, take_carried])
      · have hne : req.drop k = [] := List.drop_eq_nil_of_le (by omega)
        refine ⟨1 + k, ?_, Nat.le_refl _, fun x => ?_⟩
        · simp only [Encounter.step, Agent.carry, ht, hne, if_true, Agent.gone, Bool.false_eq_true, if_false]
          exact .asking wc ws s k hc hs hk hch hf
        · have := (np x).2 (by omega); cases this
    · refine ⟨1 + k, ?_, Nat.le_refl _, fun x => ?_⟩
      · have : (Agent.opening ⟨sh, c.st, s, false, sw, ws, 0⟩).transit = [] := by simp [Agent.transit, hs]
        simp only [Encounter.step, Agent.carry, this, if_true, Agent.gone, Bool.false_eq_true, if_false]
        exact .asking wc ws s k hc hs hk hch hf
      · by_cases hx : k < req.length
        · obtain ⟨n, h⟩ := (np x).1 hx; cases h
        · have := (np x).2 (by omega); cases this
  | answering wc s ended k x bs hc hch hf hk he hq hv hb =>
    have np : Pushes req res (2 + req.length + min k res.length) e → (k < res.length → ∃ n, e = .carry .server n) ∧ (res.length ≤ k → e = .act .client) := by
      intro hp
      unfold Pushes at hp
      rw [if_neg (by omega), if_neg (by omega), if_neg (by omega)] at hp
      by_cases hx : k < res.length
      · rw [if_pos (by omega)] at hp
        exact ⟨fun _ => hp, fun _ => by omega⟩
      · rw [if_neg (by omega)] at hp
        exact ⟨fun _ => by omega, fun _ => hp⟩
    rcases e with ⟨_ | _⟩ | ⟨_ | _, n⟩
    · by_cases hx : k < res.length
      · have hen : ended = false := by
          cases hen : ended with
          | false => rfl
          | true => have := (he hen).2; rw [List.length_append] at this; omega
        subst hen
        have hf' : s.flat = res.take k := by
          rw [hf, List.take_append, show k - res.length = 0 by omega]; simp
        obtain ⟨w', h1, h2⟩ := act_waiting ha.client c.ct s wc req.length (res.drop k) hch (by
          intro hd; have := List.drop_eq_nil_iff.mp hd; omega) (by rw [hf', List.take_append_drop])
        refine ⟨2 + req.length + min k res.length, ?_, Nat.le_refl _, fun x => ?_⟩
        · show EStage c ch sh cw sw req res lc ls ⟨⟨_, _, _, _, Lobby.act preq pres _⟩, _⟩ _
          rw [h1]
          exact .answering w' s false k x bs h2 hch hf hk he hq hv hb
        · obtain ⟨n, h⟩ := (np x).1 hx; cases h
      · have hf' : s.flat = res ++ x.server.party.output.wire.take (k - res.length) := by
          rw [hf, List.take_append, List.take_of_length_le (by omega)]
        obtain ⟨l, h1, h2, h3, h4, h5, h6⟩ := act_opening ha.client c.ct s ended wc req.length _ hch hf'
        refine ⟨3 + req.length + res.length, ?_, by omega, fun _ _ => by omega⟩
        show EStage c ch sh cw sw req res lc ls ⟨⟨_, _, _, _, Lobby.act preq pres _⟩, _⟩ _
        rw [h1]
        exact eenter_talking wc s ended k x bs hk (by omega) he hv hb l h2 h3 h4 h5 h6
    · refine ⟨2 + req.length + min k res.length, ?_, Nat.le_refl _, fun x => ?_⟩
      · obtain ⟨bs', g1, g2, -⟩ := act_both ha.says.swap (lim_lt ha.lc_le) hb.swap
        have g1 := g1.swap
        have g2 := g2.swap
        show EStage c ch sh cw sw req res lc ls ⟨_, ((x.server.placed res k).visitor.act preq pres)⟩ _
        rw [visitor_act, actor_act_placed]
        obtain ⟨t, rfl⟩ : ∃ t, bs ++ t = bs' := g2.hbs
        have hw : x.server.act.party.output.wire = x.server.party.output.wire ++ t.flatten := by
          have e1 := g1.client.wire
          have e2 := hb.client.wire
          rw [List.flatten_append, ← e2] at e1
          exact e1
        refine .answering wc s ended k ⟨x.client, x.server.act⟩ _ hc hch ?_ ?_ ?_ (by rw [actor_act_carried, hq]) hv g1
        · show s.flat = (res ++ x.server.act.party.output.wire).take k
          rw [hf, hw, ← List.append_assoc, List.take_append (l₁ := res ++ x.server.party.output.wire), show k - (res ++ x.server.party.output.wire).length = 0 by omega]; simp
        · show k ≤ (res ++ x.server.act.party.output.wire).length
          rw [hw, ← List.append_assoc, List.length_append (as := res ++ x.server.party.output.wire)]; omega
        · intro hen
          obtain ⟨k1, k2⟩ := he hen
          have : x.server.act = x.server := by
            have hn : x.server.plan x.server.past = none := by
              rw [← Actor.call_nil, ← Actor.list_drop, ← hb.client.todo]; exact k1
            unfold Actor.act; rw [hn]
          show x.server.act.party.todo = [] ∧ k = (res ++ x.server.act.party.output.wire).length
          rw [this]
          exact ⟨k1, k2⟩
      · by_cases hx : k < res.length
        · obtain ⟨n, h⟩ := (np x).1 hx; cases h
        · have := (np x).2 (by omega); cases this
    · refine ⟨2 + req.length + min k res.length, ?_, Nat.le_refl _, fun x => ?_⟩
      · have : (Agent.opening ⟨ch, c.ct, s, ended, cw, wc, req.length⟩).transit = [] := by simp [Agent.transit, hc]
        simp only [Encounter.step, Agent.carry, this, if_true, Agent.gone, Bool.false_eq_true, if_false]
        exact .answering wc s ended k x bs hc hch hf hk he hq hv hb
      · by_cases hx : k < res.length
        · obtain ⟨n, h⟩ := (np x).1 hx; cases h
        · have := (np x).2 (by omega); cases this
    · have ht : (x.server.placed res k).visitor.agent.transit = (res ++ x.server.party.output.wire).drop k := rfl
      by_cases hx : k < (res ++ x.server.party.output.wire).length
      · have hne : (res ++ x.server.party.output.wire).drop k ≠ [] := by
          intro hd; have := List.drop_eq_nil_iff.mp hd; omega
        have hne' : ((res ++ x.server.party.output.wire).drop k).take (n + 1) ≠ [] := by
          cases hq : (res ++ x.server.party.output.wire).drop k with
          | nil => exact absurd hq hne
          | cons a l => simp
        have hpos : 0 < (((res ++ x.server.party.output.wire).drop k).take (n + 1)).length := List.length_pos_iff.mpr hne'
        have hle : (((res ++ x.server.party.output.wire).drop k).take (n + 1)).length ≤ (res ++ x.server.party.output.wire).length - k := by
          rw [List.length_take, List.length_drop]; omega
        have hen : ended = false := by
          cases hen : ended with
          | false => rfl
          | true => have := (he hen).2; omega
        subst hen
        refine ⟨2 + req.length + min (k + (((res ++ x.server.party.output.wire).drop k).take (n + 1)).length) res.length, ?_, by omega, fun y _ => ?_⟩
        · simp only [Encounter.step, Agent.carry, ht, hne, if_false, Agent.receive]
          exact .answering wc _ false (k + (((res ++ x.server.party.output.wire).drop k).take (n + 1)).length) x bs hc (chunks_snoc hch hne')
            (by rw [flat_snoc, hf, take_carried]) (by omega) (by intro x; cases x) hq hv hb
        · by_cases hy : k < res.length
          · omega
          · have := (np y).2 (by omega); cases this
      · have hne : (res ++ x.server.party.output.wire).drop k = [] := List.drop_eq_nil_of_le (by omega)
        refine ⟨2 + req.length + min k res.length, ?_, Nat.le_refl _, fun y => ?_⟩
        · by_cases hd : x.server.party.todo = []
          · have hg : (x.server.placed res k).visitor.agent.gone = true := by show x.server.party.todo.isEmpty = true; rw [hd]; rfl
            simp only [Encounter.step, Agent.carry, ht, hne, if_true, hg, Agent.close]
            exact .answering wc s true k x bs hc hch hf hk (fun _ => ⟨hd, by omega⟩) hq hv hb
          · have hg : (x.server.placed res k).visitor.agent.gone = false := by
              show x.server.party.todo.isEmpty = false
              cases hx : x.server.party.todo with
              | nil => exact absurd hx hd
              | cons t ts => rfl
            simp only [Encounter.step, Agent.carry, ht, hne, if_true, hg, Bool.false_eq_true, if_false]
            exact .answering wc s ended k x bs hc hch hf hk he hq hv hb
        · rw [List.length_append] at hx
          have := (np y).2 (by omega); cases this
  | talking x bc bs hb =>
    obtain ⟨bc', bs', h1, -⟩ := step_both ha.says (lim_lt ha.lc_le) (lim_lt ha.ls_le) hb e
    refine ⟨3 + req.length + res.length, ?_, Nat.le_refl _, fun _ x => absurd x (Nat.lt_irrefl _)⟩
    rw [duet_step_behind]
    exact .talking _ bc' bs' h1

theorem run_estage {c : Cast} {ch sh : Opening} {cw sw : Sink} {req res : Bytes} {lc ls : Nat} (ha : EArranged preq pres c ch sh cw sw req res lc ls)
    (es : List Happens) : ∀ {m : Encounter} {r : Nat}, EStage c ch sh cw sw req res lc ls m r →
    ∃ r', EStage c ch sh cw sw req res lc ls (m.run preq pres es) r' ∧ r ≤ r' := by
  induction es with
  | nil => intro m r h; exact ⟨r, h, Nat.le_refl _⟩
  | cons e es ih =>
    intro m r h
    obtain ⟨r1, h1, h2, -⟩ := step_estage ha h e
    obtain ⟨r2, h3, h4⟩ := ih h1
    exact ⟨r2, h3, by omega⟩

theorem estage_grows {c : Cast} {ch sh : Opening} {cw sw : Sink} {req res : Bytes} {lc ls : Nat} (ha : EArranged preq pres c ch sh cw sw req res lc ls)
    {f : Nat → Happens} (hf : FairNet f) (m : Encounter) (g : Nat) : ∀ {n r : Nat}, EStage c ch sh cw sw req res lc ls (m.run preq pres ((List.range n).map f)) r →
    3 + req.length + res.length ≤ r + g → ∃ n' r', n ≤ n' ∧ EStage c ch sh cw sw req res lc ls (m.run preq pres ((List.range n').map f)) r' ∧
      3 + req.length + res.length ≤ r' := by
  induction g with
  | zero => intro n r h hg; exact ⟨n, r, Nat.le_refl _, h, by omega⟩
  | succ g ih =>
    intro n r h hg
    by_cases hr : r < 3 + req.length + res.length
    · obtain ⟨k, hk, hp⟩ := pushes_often hf req res r n
      obtain ⟨j, rfl⟩ := Nat.exists_eq_add_of_le hk
      obtain ⟨r1, h1, h2⟩ := run_estage ha ((List.range j).map fun i => f (n + i)) h
      rw [← erun_append, ← range_add] at h1
      obtain ⟨r2, h3, h4, h5⟩ := step_estage ha h1 (f (n + j))
      have e : (m.run preq pres ((List.range (n + j)).map f)).step preq pres (f (n + j)) = m.run preq pres ((List.range (n + j + 1)).map f) := by
        rw [range_add f (n + j) 1, erun_append]; rfl
      rw [e] at h3
      have hlt : r < r2 := by
        by_cases hx : r1 = r
        · subst hx; exact h5 hp hr
        · omega
      obtain ⟨n', r', k1, k2, k3⟩ := ih h3 (by omega)
      exact ⟨n', r', by omega, k2, k3⟩
    · exact ⟨n, r, Nat.le_refl _, h, by omega⟩

/-- Only two talking programs have come that far. -/
theorem EStage.final {c : Cast} {ch sh : Opening} {cw sw : Sink} {req res : Bytes} {lc ls : Nat} {m : Encounter} {r : Nat}
    (h : EStage c ch sh cw sw req res lc ls m r) (hr : 3 + req.length + res.length ≤ r) :
    ∃ x bc bs, m = x.behind req res ∧ Both c.cp c.sp false true lc ls x bc bs := by
  cases h with
  | quiet => omega
  | asking => omega
  | answering => omega
  | talking x bc bs hb => exact ⟨x, bc, bs, rfl, hb⟩

/-- What has happened so far. -/
theorem EStage.unfold {c : Cast} {ch sh : Opening} {cw sw : Sink} {req res : Bytes} {lc ls : Nat} {m : Encounter} {r : Nat}
    (h : EStage c ch sh cw sw req res lc ls m r) : Unfold c.cp c.sp m.client.past m.server.past := by
  cases h with
  | quiet => exact .start
  | asking => exact .start
  | answering wc s ended k x bs hc hch hf hk he hq hv hb =>
    have := hb.unfold
    rw [hv.2.2.2] at this
    exact this
  | talking x bc bs hb => exact hb.unfold

end

/-- Two programs can come to rest, or go on and on. -/
theorem rests_or_grows (cp sp : Plan) : (∃ a b, Unfold cp sp a b ∧ Rests cp sp a b ∧ Rests sp cp b a) ∨ ∀ N, ∃ a b, Unfold cp sp a b ∧ N ≤ a.length + b.length := by
  by_cases hr : ∃ a b, Unfold cp sp a b ∧ Rests cp sp a b ∧ Rests sp cp b a
  · exact .inl hr
  · refine .inr fun N => ?_
    induction N with
    | zero => exact ⟨[], [], .start, Nat.zero_le _⟩
    | succ N ih =>
      obtain ⟨a, b, hu, hl⟩ := ih
      by_cases hc : Rests cp sp a b
      · have hs : ¬ Rests sp cp b a := fun hs => hr ⟨a, b, hu, hc, hs⟩
        rw [rests_iff] at hs
        obtain ⟨e, he⟩ := Classical.not_forall.mp hs
        have he := Classical.not_not.mp he
        exact ⟨a, b ++ [e], .server hu he, by simp only [List.length_append, List.length_singleton]; omega⟩
      · rw [rests_iff] at hc
        obtain ⟨e, he⟩ := Classical.not_forall.mp hc
        have he := Classical.not_not.mp he
        exact ⟨a ++ [e], b, .client hu he, by simp only [List.length_append, List.length_singleton]; omega⟩

/-- Two programs that both rest have both ended or both listen. -/
theorem both_rest {cp sp a b} (hc : Rests cp sp a b) (hs : Rests sp cp b a) : (cp a = none ∧ sp b = none) ∨
    (cp a = some .hear ∧ sp b = some .hear ∧ (saidIn b).length ≤ hearsIn a ∧ (saidIn a).length ≤ hearsIn b) := by
  rcases hc with hc | ⟨c1, c2, c3⟩
  · rcases hs with hs | ⟨-, -, s3⟩
    · exact .inl ⟨hc, hs⟩
    · exact absurd hc s3
  · rcases hs with hs | ⟨s1, s2, s3⟩
    · exact absurd hs c3
    · exact .inr ⟨c1, s1, c2, s2⟩

end WS
