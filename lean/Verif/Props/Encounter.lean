import Verif.Lemmas.Encounter
import Verif.Props.Adaptive
import Verif.Props.Meeting
/-!
# C82: two programs that choose, from bare transports on

A client program that connects and a server program that accepts, each blocking or async; once it has its connection each chooses its next call by what has
happened to it so far. An arbitrary scheduler gives them turns and lets the network carry any number of bytes at a time, from the first byte of the request on.
-/

namespace WS
open Spec

/-- A client and a server whose handshake succeeds (`Appointment` of C67, which speaks of the handshake alone when there is nothing said yet), and whatever
their programs come to say, the other side can take. -/
structure Rendezvous [B64] (url : Url) (ops : List BOp) (fresh key : WsKey) (sops : List UpgradeOp) (custom : Option Headers) (maxDf : Nat) (cp sp : Plan)
    (ch sh : Opening) (cw sw : Sink) : Prop where
  meet : Appointment url ops fresh key sops custom maxDf [] [] ch sh cw sw
  says : Speakable cp sp (min (lastSet setsDf (100 * 2 ^ 20) ops) u32Max) (min maxDf u32Max)

/-- The two programs before anything has happened. -/
def Cast.start (c : Cast) (ch sh : Opening) (cw sw : Sink) : Encounter := ⟨.start c.cp c.ck c.cx ch cw, .start c.sp c.sk c.sx sh sw⟩

theorem Rendezvous.arranged [B64] (preq : ReqParser) (pres : ResParser) {url ops fresh key sops custom maxDf ch sh cw sw} {c : Cast}
    (h : Rendezvous url ops fresh key sops custom maxDf c.cp c.sp ch sh cw sw) :
    EArranged preq pres c ch sh cw sw (Head (requestStart url) (requestLines url ops fresh)) (head101 .http11 (responseLines sops custom key))
      (min (lastSet setsDf (100 * 2 ^ 20) ops) u32Max) (min maxDf u32Max) := by
  have a := h.meet.arranged preq pres
  exact ⟨a.client, a.server, a.req0, a.res0, a.lc_le, a.ls_le, h.says⟩

theorem Rendezvous.start [B64] {url ops fresh key sops custom maxDf ch sh cw sw} {c : Cast}
    (h : Rendezvous url ops fresh key sops custom maxDf c.cp c.sp ch sh cw sw) :
    EStage c ch sh cw sw (Head (requestStart url) (requestLines url ops fresh)) (head101 .http11 (responseLines sops custom key))
      (min (lastSet setsDf (100 * 2 ^ 20) ops) u32Max) (min maxDf u32Max) (c.start ch sh cw sw) 0 := by
  refine .quiet cw sw ?_ ?_
  · cases h.meet.client <;> assumption
  · cases h.meet.server <;> assumption

/-- It has not been refused. -/
def Agent.NotRefused : Agent → Prop
  | .failed _ => False
  | _ => True

/-- Whatever the schedule: nobody is refused; what has happened to the two programs is something that can happen to them on an open connection; and a client that has its
connection has it with a server that has its. -/
theorem C82_safe [B64] (preq : ReqParser) (pres : ResParser) {url ops fresh key sops custom maxDf ch sh cw sw} {c : Cast}
    (h : Rendezvous url ops fresh key sops custom maxDf c.cp c.sp ch sh cw sw) (es : List Happens) :
    let m := (c.start ch sh cw sw).run preq pres es
    Unfold c.cp c.sp m.client.past m.server.past ∧ m.client.agent.NotRefused ∧ m.server.agent.NotRefused ∧
      (m.client.agent.Connected → m.server.agent.Connected) := by
  intro m
  obtain ⟨r, hst, -⟩ := run_estage (h.arranged preq pres) es h.start
  change EStage _ _ _ _ _ _ _ _ _ m r at hst
  refine ⟨hst.unfold, ?_⟩
  generalize m = m' at hst
  cases hst with
  | quiet => exact ⟨trivial, trivial, fun x => x⟩
  | asking => exact ⟨trivial, trivial, fun x => x⟩
  | answering => exact ⟨trivial, trivial, fun _ => trivial⟩
  | talking => exact ⟨trivial, trivial, fun _ => trivial⟩

/-- Run the same two programs twice: with other addresses, headers, protocols, handshake keys, masking keys, limits, kinds of client, transports and schedules, with other implementations of
base64 and other parsers. What has happened to a program in one run is the beginning of what has happened to it in the other, or the other way round. -/
theorem C82_deterministic (i i' : B64) (preq preq' : ReqParser) (pres pres' : ResParser)
    {url ops fresh key sops custom maxDf ch sh cw sw url' ops' fresh' key' sops' custom' maxDf' ch' sh' cw' sw'} {c c' : Cast} (hcp : c'.cp = c.cp) (hsp : c'.sp = c.sp)
    (h : @Rendezvous i url ops fresh key sops custom maxDf c.cp c.sp ch sh cw sw)
    (h' : @Rendezvous i' url' ops' fresh' key' sops' custom' maxDf' c'.cp c'.sp ch' sh' cw' sw') (es es' : List Happens) :
    let m := @Encounter.run i preq pres (c.start ch sh cw sw) es
    let m' := @Encounter.run i' preq' pres' (c'.start ch' sh' cw' sw') es'
    Agree m.client.past m'.client.past ∧ Agree m.server.past m'.server.past := by
  have g := (@C82_safe i' preq' pres' _ _ _ _ _ _ _ _ _ _ _ _ h' es').1
  rw [hcp, hsp] at g
  exact unfold_agree (@C82_safe i preq pres _ _ _ _ _ _ _ _ _ _ _ _ h es).1 g

/-- Under a fair schedule both programs get their connections, and from then on they are two programs on an open connection. -/
theorem encounter_talks [B64] (preq : ReqParser) (pres : ResParser) {url ops fresh key sops custom maxDf ch sh cw sw} {c : Cast}
    (h : Rendezvous url ops fresh key sops custom maxDf c.cp c.sp ch sh cw sw) (f : Nat → Happens) (hf : FairNet f) :
    ∃ n x bc bs, Both c.cp c.sp false true (min (lastSet setsDf (100 * 2 ^ 20) ops) u32Max) (min maxDf u32Max) x bc bs ∧
      ∀ k, (c.start ch sh cw sw).run preq pres ((List.range (n + k)).map f) =
        (x.run ((List.range k).map fun i => f (n + i))).behind (Head (requestStart url) (requestLines url ops fresh)) (head101 .http11 (responseLines sops custom key)) := by
  obtain ⟨n, r, -, h1, h2⟩ := estage_grows (h.arranged preq pres) hf (c.start ch sh cw sw) _ (n := 0) h.start (Nat.le_of_eq (Nat.zero_add _).symm)
  obtain ⟨x, bc, bs, e, hb⟩ := h1.final h2
  refine ⟨n, x, bc, bs, hb, fun k => ?_⟩
  rw [range_add, erun_append, e, duet_run_behind]

/-- Under every fair schedule both programs get their connections, however the network cuts the request and the answer. -/
theorem C82_both_connect [B64] (preq : ReqParser) (pres : ResParser) {url ops fresh key sops custom maxDf ch sh cw sw} {c : Cast}
    (h : Rendezvous url ops fresh key sops custom maxDf c.cp c.sp ch sh cw sw) (f : Nat → Happens) (hf : FairNet f) :
    ∃ n, ∀ k, n ≤ k → let m := (c.start ch sh cw sw).run preq pres ((List.range k).map f)
      m.client.agent.Connected ∧ m.server.agent.Connected := by
  obtain ⟨n, x, bc, bs, -, he⟩ := encounter_talks preq pres h f hf
  refine ⟨n, fun k hk => ?_⟩
  obtain ⟨g, rfl⟩ := Nat.exists_eq_add_of_le hk
  simp only [he]
  exact ⟨trivial, trivial⟩

/-- Under a fair schedule everything that can happen to the two programs on an open connection happens. -/
theorem C82_everything_happens [B64] (preq : ReqParser) (pres : ResParser) {url ops fresh key sops custom maxDf ch sh cw sw} {c : Cast}
    (h : Rendezvous url ops fresh key sops custom maxDf c.cp c.sp ch sh cw sw) (f : Nat → Happens) (hf : FairNet f) {a b : List Event} (hu : Unfold c.cp c.sp a b) :
    ∃ n, ∀ k, n ≤ k → let m := (c.start ch sh cw sw).run preq pres ((List.range k).map f)
      a <+: m.client.past ∧ b <+: m.server.past := by
  have lc : min (lastSet setsDf (100 * 2 ^ 20) ops) u32Max < 2 ^ 63 := lim_lt (Nat.min_le_right _ _)
  have ls : min maxDf u32Max < 2 ^ 63 := lim_lt (Nat.min_le_right _ _)
  obtain ⟨n, x, bc, bs, hb, he⟩ := encounter_talks preq pres h f hf
  obtain ⟨n', h1, h2⟩ := unfold_happens h.says lc ls (fair_later hf n) hb hu
  refine ⟨n + n', fun k hk => ?_⟩
  obtain ⟨g, rfl⟩ := Nat.exists_eq_add_of_le (show n ≤ k by omega)
  obtain ⟨bc1, bs1, g1, -⟩ := at_both (n := 0) (f := fun i => f (n + i)) h.says lc ls hb n' (by omega)
  obtain ⟨bc2, bs2, -, g2⟩ := at_both h.says lc ls g1 g (by omega)
  simp only [he]
  exact ⟨h1.trans g2.client, h2.trans g2.server⟩

/-- If the two programs have come to rest in one run, they come to rest in every fair run, and the same has happened to them. -/
theorem C82_same_end (i i' : B64) (preq preq' : ReqParser) (pres pres' : ResParser)
    {url ops fresh key sops custom maxDf ch sh cw sw url' ops' fresh' key' sops' custom' maxDf' ch' sh' cw' sw'} {c c' : Cast} (hcp : c'.cp = c.cp) (hsp : c'.sp = c.sp)
    (h : @Rendezvous i url ops fresh key sops custom maxDf c.cp c.sp ch sh cw sw)
    (h' : @Rendezvous i' url' ops' fresh' key' sops' custom' maxDf' c'.cp c'.sp ch' sh' cw' sw') (es' : List Happens)
    (hc : let m' := @Encounter.run i' preq' pres' (c'.start ch' sh' cw' sw') es'
      Rests c.cp c.sp m'.client.past m'.server.past ∧ Rests c.sp c.cp m'.server.past m'.client.past)
    (f : Nat → Happens) (hf : FairNet f) :
    ∃ n, ∀ k, n ≤ k → let m := @Encounter.run i preq pres (c.start ch sh cw sw) ((List.range k).map f)
      let m' := @Encounter.run i' preq' pres' (c'.start ch' sh' cw' sw') es'
      m.client.past = m'.client.past ∧ m.server.past = m'.server.past := by
  have hu := (@C82_safe i' preq' pres' _ _ _ _ _ _ _ _ _ _ _ _ h' es').1
  rw [hcp, hsp] at hu
  obtain ⟨n, hn⟩ := @C82_everything_happens i preq pres _ _ _ _ _ _ _ _ _ _ _ _ h f hf _ _ hu
  refine ⟨n, fun k hk => ?_⟩
  obtain ⟨h1, h2⟩ := hn k hk
  exact settled hu (@C82_safe i preq pres _ _ _ _ _ _ _ _ _ _ _ _ h ((List.range k).map f)).1 h1 h2 ((rests_iff _ _ _ _).mp hc.1) ((rests_iff _ _ _ _).mp hc.2)

/-- Under a fair schedule the programs go on for ever, or come to rest and stay there: both have ended, or both listen and everything that was said has been heard. -/
theorem C82_rests_or_goes_on [B64] (preq : ReqParser) (pres : ResParser) {url ops fresh key sops custom maxDf ch sh cw sw} {c : Cast}
    (h : Rendezvous url ops fresh key sops custom maxDf c.cp c.sp ch sh cw sw) (f : Nat → Happens) (hf : FairNet f) :
    (∃ a b, ((c.cp a = none ∧ c.sp b = none) ∨
        (c.cp a = some .hear ∧ c.sp b = some .hear ∧ (saidIn b).length ≤ hearsIn a ∧ (saidIn a).length ≤ hearsIn b)) ∧
      ∃ n, ∀ k, n ≤ k → let m := (c.start ch sh cw sw).run preq pres ((List.range k).map f)
        m.client.past = a ∧ m.server.past = b) ∨
    ∀ N, ∃ n, let m := (c.start ch sh cw sw).run preq pres ((List.range n).map f)
      N ≤ m.client.past.length + m.server.past.length := by
  rcases rests_or_grows c.cp c.sp with ⟨a, b, hu, hc, hs⟩ | hg
  · refine .inl ⟨a, b, both_rest hc hs, ?_⟩
    obtain ⟨n, hn⟩ := C82_everything_happens preq pres h f hf hu
    refine ⟨n, fun k hk => ?_⟩
    obtain ⟨h1, h2⟩ := hn k hk
    exact settled hu (C82_safe preq pres h ((List.range k).map f)).1 h1 h2 ((rests_iff _ _ _ _).mp hc) ((rests_iff _ _ _ _).mp hs)
  · refine .inr fun N => ?_
    obtain ⟨a, b, hu, hl⟩ := hg N
    obtain ⟨n, hn⟩ := C82_everything_happens preq pres h f hf hu
    obtain ⟨h1, h2⟩ := hn n (Nat.le_refl _)
    exact ⟨n, by have := h1.length_le; have := h2.length_le; omega⟩

/-! ## A client of examples/server.rs that does what it likes -/

/-- Whatever a client does that connects to examples/server.rs, the messages it has been given are, in order, the greeting and the answers to the messages it has
sent, up to the first close. -/
theorem C82_server_says [B64] (preq : ReqParser) (pres : ResParser) {url ops fresh key sops custom maxDf ch sh cw sw} {c : Cast} (hsp : c.sp = serverPlan)
    (h : Rendezvous url ops fresh key sops custom maxDf c.cp c.sp ch sh cw sw) (es : List Happens) :
    let m := (c.start ch sh cw sw).run preq pres es
    gotIn m.client.past <+: greetedReplies (saidIn m.client.past) := by
  intro m
  have hu := (C82_safe preq pres h es).1
  rw [hsp] at hu
  show gotIn m.client.past <+: _
  rw [(got_said hu).1]
  exact (List.take_prefix _ _).trans (server_said hu)

/-- And under a fair schedule, a client that listens when it has been given fewer than that gets the next one; before the handshake too. -/
theorem C82_server_answers [B64] (preq : ReqParser) (pres : ResParser) {url ops fresh key sops custom maxDf ch sh cw sw} {c : Cast} (hsp : c.sp = serverPlan)
    (h : Rendezvous url ops fresh key sops custom maxDf c.cp c.sp ch sh cw sw) (f : Nat → Happens) (hf : FairNet f) (n : Nat) {a : List Event} {m : OwnedMsg}
    (ha : ((c.start ch sh cw sw).run preq pres ((List.range n).map f)).client.past = a) (hh : c.cp a = some .hear)
    (hm : (greetedReplies (saidIn a))[hearsIn a]? = some m) :
    ∃ k, n ≤ k ∧ a ++ [.heard (.message m)] <+: ((c.start ch sh cw sw).run preq pres ((List.range k).map f)).client.past := by
  have hu := (C82_safe preq pres h ((List.range n).map f)).1
  rw [ha, hsp] at hu
  obtain ⟨b', h1, h2⟩ := server_alone hu (by rw [hh]; simp)
  have hn : Next c.cp serverPlan a b' (.heard (.message m)) := .inr ⟨hh, .inl ⟨m, by rw [h2]; exact hm, rfl⟩⟩
  obtain ⟨k, hk⟩ := C82_everything_happens preq pres h f hf (by rw [hsp]; exact .client h1 hn)
  exact ⟨max n k, Nat.le_max_left _ _, (hk _ (Nat.le_max_right _ _)).1⟩

/-! ## The theorems speak about something -/

theorem speakable_mono {cp sp lim lc ls} (h : Speakable cp sp lim lim) (hc : lim ≤ lc) (hs : lim ≤ ls) : Speakable cp sp lc ls := by
  have key : ∀ {m : OwnedMsg} {l : Nat}, lim ≤ l → m.spec.Sendable lim → m.spec.Sendable l := by
    intro m l hl hm
    cases m with
    | text b => exact ⟨hm.1, Nat.le_trans hm.2 hl⟩
    | binary b => exact Nat.le_trans hm hl
    | close c =>
      cases c with
      | none => exact trivial
      | some c => exact ⟨hm.1, hm.2.1, Nat.le_trans hm.2.2 hl⟩
    | ping b => exact ⟨hm.1, Nat.le_trans hm.2 hl⟩
    | pong b => exact ⟨hm.1, Nat.le_trans hm.2 hl⟩
  exact ⟨fun hu hm => key hs (h.client hu hm), fun hu hm => key hc (h.server hu hm)⟩

def sampleCast : Cast := ⟨nosyPlan, fun n => ⟨UInt8.ofNat n, 2, 3, 4⟩, fun _ => 0, serverPlan, fun _ => ⟨0, 0, 0, 0⟩, fun _ => 0⟩

/-- Other masking keys. -/
def otherCast : Cast := ⟨nosyPlan, fun _ => ⟨9, 9, 9, 9⟩, fun _ => 7, serverPlan, fun _ => ⟨1, 1, 1, 1⟩, fun _ => 7⟩

/-- A blocking client and an async server; the transport of the server takes a while. -/
theorem sampleRendezvous : @Rendezvous B64.strict sampleUrl sampleOps sampleKey sampleKey [.useProtocol (ascii "chat")] none 100 sampleCast.cp sampleCast.sp
    (.client ((Builder.init sampleUrl).run sampleOps) sampleKey)
    (.asyncServer (Upgrade.run · [.useProtocol (ascii "chat")]) none 100 100 0) ⟨[], []⟩ ⟨[], [.error .wouldBlock, .accept 2]⟩ := by
  obtain ⟨h1, h2, h3, h4, h5, h6, h7, -, -⟩ := sampleAppointment
  refine @Rendezvous.mk B64.strict _ _ _ _ _ _ _ _ _ _ _ _ _ (@Appointment.mk B64.strict _ _ _ _ _ _ _ _ _ _ _ _ _ h1 h2 h3 h4 h5 h6 h7 (by intro x hx; cases hx) (by intro x hx; cases hx)) ?_
  exact speakable_mono (nosy_speakable (lim := 100) (by decide)) (by decide +kernel) (by decide +kernel)

/-- An async client and a blocking server that takes larger frames. -/
theorem otherRendezvous : @Rendezvous B64.strict sampleUrl sampleOps sampleKey sampleKey [.useProtocol (ascii "chat")] none 5000 otherCast.cp otherCast.sp
    (.asyncClient ((Builder.init sampleUrl).run sampleOps) sampleKey 3)
    (.server (Upgrade.run · [.useProtocol (ascii "chat")]) none 5000 20) ⟨[], []⟩ ⟨[], []⟩ := by
  obtain ⟨h1, h2, h3, h4, h5, -, -, -, -⟩ := sampleAppointment
  refine @Rendezvous.mk B64.strict _ _ _ _ _ _ _ _ _ _ _ _ _ (@Appointment.mk B64.strict _ _ _ _ _ _ _ _ _ _ _ _ _ h1 h2 h3 h4 h5
    (.async _ (by intro e he; cases he) rfl 3) (.blocking _ (by intro e he; cases he) rfl 20 (by decide +kernel)) (by intro x hx; cases hx) (by intro x hx; cases hx)) ?_
  exact speakable_mono (nosy_speakable (lim := 100) (by decide)) (by decide +kernel) (by decide +kernel)

abbrev sampleEncounter : Encounter :=
  sampleCast.start (.client ((Builder.init sampleUrl).run sampleOps) sampleKey) (.asyncServer (Upgrade.run · [.useProtocol (ascii "chat")]) none 100 100 0)
    ⟨[], []⟩ ⟨[], [.error .wouldBlock, .accept 2]⟩

abbrev otherEncounter : Encounter :=
  otherCast.start (.asyncClient ((Builder.init sampleUrl).run sampleOps) sampleKey 3) (.server (Upgrade.run · [.useProtocol (ascii "chat")]) none 5000 20) ⟨[], []⟩ ⟨[], []⟩

def someTurns : List Happens := (List.replicate 20 [.act .client, .carry .client 69, .act .server, .carry .server 69]).flatten
def otherTurns : List Happens := (List.replicate 20 [.act .server, .carry .client 299, .carry .server 299, .act .client]).flatten

theorem sampleEncounter_past : (@Encounter.run B64.strict reqParser resParser sampleEncounter someTurns).client.past = nosyPast ∧
    (@Encounter.run B64.strict reqParser resParser sampleEncounter someTurns).server.past = servedPast := by decide +kernel

theorem otherEncounter_past : (@Encounter.run B64.strict reqParser resParser otherEncounter otherTurns).client.past = nosyPast ∧
    (@Encounter.run B64.strict reqParser resParser otherEncounter otherTurns).server.past = servedPast := by decide +kernel

/-- After a few turns the server has said its greeting, and the client still has no connection. -/
example : (@Encounter.run B64.strict reqParser resParser sampleEncounter (someTurns.take 16)).client.past = [] ∧
    (@Encounter.run B64.strict reqParser resParser sampleEncounter (someTurns.take 16)).server.past = [.said (.text (ascii "Hello")) true] := by decide +kernel

example := @C82_safe B64.strict reqParser resParser _ _ _ _ _ _ _ _ _ _ _ _ sampleRendezvous
example := @C82_deterministic B64.strict B64.strict reqParser reqParser resParser resParser _ _ _ _ _ _ _ _ _ _ _ _ _ _ _ _ _ _ _ _ _ _ sampleCast otherCast rfl rfl
  sampleRendezvous otherRendezvous
example := @C82_both_connect B64.strict reqParser resParser _ _ _ _ _ _ _ _ _ _ _ _ sampleRendezvous _ sampleFair
example := @C82_rests_or_goes_on B64.strict reqParser resParser _ _ _ _ _ _ _ _ _ _ _ _ sampleRendezvous _ sampleFair
example := @C82_server_says B64.strict reqParser resParser _ _ _ _ _ _ _ _ _ _ _ sampleCast rfl sampleRendezvous

/-- `C82_everything_happens`, with something that can happen. -/
example := @C82_everything_happens B64.strict reqParser resParser _ _ _ _ _ _ _ _ _ _ _ sampleCast sampleRendezvous _ sampleFair _ _
  (@C82_safe B64.strict reqParser resParser _ _ _ _ _ _ _ _ _ _ _ _ otherRendezvous otherTurns).1

/-- `C82_same_end`: both have ended in the one run, so they end in the other, under any fair schedule. -/
theorem sample_same_end (es' : List Happens) (he : (@Encounter.run B64.strict reqParser resParser otherEncounter es').client.past = nosyPast ∧
    (@Encounter.run B64.strict reqParser resParser otherEncounter es').server.past = servedPast) (f : Nat → Happens) (hf : FairNet f) :
    ∃ n, ∀ k, n ≤ k → (@Encounter.run B64.strict reqParser resParser sampleEncounter ((List.range k).map f)).client.past = nosyPast ∧
      (@Encounter.run B64.strict reqParser resParser sampleEncounter ((List.range k).map f)).server.past = servedPast := by
  have h := @C82_same_end B64.strict B64.strict reqParser reqParser resParser resParser _ _ _ _ _ _ _ _ _ _ _ _ _ _ _ _ _ _ _ _ _ _ sampleCast otherCast rfl rfl
    sampleRendezvous otherRendezvous es' ⟨by rw [he.1]; exact .inl rfl, by rw [he.2]; exact .inl rfl⟩ f hf
  obtain ⟨n, hn⟩ := h
  refine ⟨n, fun k hk => ?_⟩
  obtain ⟨h1, h2⟩ := hn k hk
  exact ⟨h1.trans he.1, h2.trans he.2⟩

example := sample_same_end otherTurns otherEncounter_past

/-- `C82_server_answers`: a client that has not even connected yet will be greeted. -/
example (f : Nat → Happens) (hf : FairNet f) :
    ∃ k, [.heard (.message (.text (ascii "Hello")))] <+: (@Encounter.run B64.strict reqParser resParser sampleEncounter ((List.range k).map f)).client.past := by
  obtain ⟨k, -, h⟩ := @C82_server_answers B64.strict reqParser resParser _ _ _ _ _ _ _ _ _ _ _ sampleCast rfl sampleRendezvous f hf 0 [] (.text (ascii "Hello")) rfl rfl rfl
  exact ⟨k, h⟩

end WS
