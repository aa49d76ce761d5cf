import Verif.Lemmas.Gone
import Verif.Props.Connection
/-!
# C67: from a bare transport to the last message, nobody gets stuck

A client program that connects and talks, a server program that accepts and talks, each blocking or async; an arbitrary scheduler gives them turns and
lets the network carry any number of bytes at a time, from the first byte of the request on.
-/

namespace WS
open Spec

/-- A client that connects: the builder and the calls made on it, a transport for its bytes, and, for a blocking one, an answer of at most 417792 bytes
(the largest head `hyper`'s reader holds). -/
inductive Connects (url : Url) (ops : List BOp) (fresh : WsKey) (answer : Bytes) : Opening → Sink → Prop
  | blocking (w : Sink) (hw : w.Willing) (h0 : w.wire = []) (hl : answer.length ≤ 417792) :
    Connects url ops fresh answer (.client ((Builder.init url).run ops) fresh) w
  | async (w : Sink) (hw : w.Patient) (h0 : w.wire = []) (extra : Nat) :
    Connects url ops fresh answer (.asyncClient ((Builder.init url).run ops) fresh extra) w

/-- A server that accepts. -/
inductive Accepts (sops : List UpgradeOp) (custom : Option Headers) (maxDf : Nat) (request : Bytes) : Opening → Sink → Prop
  | blocking (w : Sink) (hw : w.Willing) (h0 : w.wire = []) (maxMsg : Nat) (hl : request.length ≤ 417792) :
    Accepts sops custom maxDf request (.server (Upgrade.run · sops) custom maxDf maxMsg) w
  | async (w : Sink) (hw : w.Patient) (h0 : w.wire = []) (maxMsg extra : Nat) :
    Accepts sops custom maxDf request (.asyncServer (Upgrade.run · sops) custom maxDf maxMsg extra) w

/-- A client and a server that go together: the request asks for a WebSocket with the key `key`, the lines of both heads can be sent, and each
program sends what the other can take. -/
structure Appointment [B64] (url : Url) (ops : List BOp) (fresh key : WsKey) (sops : List UpgradeOp) (custom : Option Headers) (maxDf : Nat) (cts sts : List Talk)
    (ch sh : Opening) (cw sw : Sink) : Prop where
  asks : Asks key (requestLines url ops fresh)
  keyed : (((Builder.init url).run ops).buildRequest fresh).2.headers.getKey = some key
  target : Target url.resource
  request : SendableRequest url ops fresh
  answer : SendableResponse sops custom key
  client : Connects url ops fresh (head101 .http11 (responseLines sops custom key)) ch cw
  server : Accepts sops custom maxDf (Head (requestStart url) (requestLines url ops fresh)) sh sw
  client_says : ∀ x ∈ said cts, x.1.spec.Sendable (min maxDf u32Max)
  server_says : ∀ x ∈ said sts, x.1.spec.Sendable (min (lastSet setsDf (100 * 2 ^ 20) ops) u32Max)

/-- What a program has done: nothing while it waits for its connection; then the first `i` calls of its list, all its sends have succeeded
and its receiving calls have told it exactly what the other's list says, in order. It never fails. -/
def Agent.Did (mine theirs : List Talk) (i : Nat) : Agent → Prop
  | .opening _ => i = 0
  | .talking p => p.todo = mine.drop i ∧ p.sent = (said (mine.take i)).map (fun _ => true) ∧
      p.heard = expected ((said theirs).map Prod.fst) (hears (mine.take i))
  | .failed _ => False

/-- It has its connection. -/
def Agent.Connected : Agent → Prop
  | .talking _ => True
  | _ => False

theorem Appointment.arranged [B64] (preq : ReqParser) (pres : ResParser) {url ops fresh key sops custom maxDf cts sts ch sh cw sw}
    (h : Appointment url ops fresh key sops custom maxDf cts sts ch sh cw sw) :
    Arranged preq pres ch sh cw sw (Head (requestStart url) (requestLines url ops fresh)) (head101 .http11 (responseLines sops custom key))
      (min (lastSet setsDf (100 * 2 ^ 20) ops) u32Max) (min maxDf u32Max) cts sts := by
  have hm : 417792 ≤ maxBufferSize := by unfold maxBufferSize; omega
  refine ⟨?_, ?_, ?_, ?_, Nat.min_le_right _ _, Nat.min_le_right _ _, h.client_says, h.server_says⟩
  · cases h.client with
    | blocking w hw h0 hl => exact opens_client preq pres key fresh url ops _ h.request.2 (response_answers sops custom key) h.answer.1 h.keyed (Nat.le_trans hl hm) cw hw h0
    | async w hw h0 extra => exact opens_async_client preq pres key fresh url ops _ extra h.request.2 (response_answers sops custom key) h.answer.1 h.keyed cw hw h0
  · cases h.server with
    | blocking w hw h0 maxMsg hl => exact opens_server preq pres key url.resource _ h.answer.2 h.asks h.target h.request.1 (Nat.le_trans hl hm) sw hw h0 sops maxDf maxMsg
    | async w hw h0 maxMsg extra => exact opens_async_server preq pres key url.resource _ h.answer.2 h.asks h.target h.request.1 sw hw h0 sops maxDf maxMsg extra
  · intro hx
    have := congrArg List.length hx
    simp [Head, requestStart, ascii] at this
  · intro hx
    have := congrArg List.length hx
    simp only [head101, Head, List.length_append] at this
    have e : (ascii " 101 Switching Protocols").length = 24 := by decide +kernel
    rw [List.length_nil] at this
    omega

theorem Appointment.start [B64] {url ops fresh key sops custom maxDf cts sts ch sh cw sw}
    (h : Appointment url ops fresh key sops custom maxDf cts sts ch sh cw sw) :
    Stage ch sh cw sw (Head (requestStart url) (requestLines url ops fresh)) (head101 .http11 (responseLines sops custom key))
      (min (lastSet setsDf (100 * 2 ^ 20) ops) u32Max) (min maxDf u32Max) cts sts ⟨.start ch cts cw, .start sh sts sw⟩ 0 := by
  refine .quiet cw sw ?_ ?_
  · cases h.client <;> assumption
  · cases h.server <;> assumption

theorem together_did {lc ls cts sts i j bc bs} {d : Dialogue} {req res : Bytes} (h : Together false true lc ls cts sts d i j bc bs) :
    (d.behind req res).client.Did cts sts i ∧ (d.behind req res).server.Did sts cts j :=
  ⟨⟨h.server.todo, h.server.sent, h.client.heard⟩, h.client.todo, h.client.sent, h.server.heard⟩

/-- Whatever the schedule: no program is ever refused, each has done the first so many calls of its list with the results the other's list says, they have
come no further than the two lists allow, and a client that has its connection has it with a server that has its. -/
theorem C67_safe [B64] (preq : ReqParser) (pres : ResParser) {url ops fresh key sops custom maxDf cts sts ch sh cw sw}
    (h : Appointment url ops fresh key sops custom maxDf cts sts ch sh cw sw) (es : List Happens) :
    let m := Meeting.run preq pres ⟨.start ch cts cw, .start sh sts sw⟩ es
    (∃ i j, Reach cts sts i j ∧ m.client.Did cts sts i ∧ m.server.Did sts cts j) ∧ (m.client.Connected → m.server.Connected) := by
  intro m
  obtain ⟨r, hst, -⟩ := run_stage (h.arranged preq pres) es h.start
  change Stage _ _ _ _ _ _ _ _ _ _ m r at hst
  generalize m = m' at hst
  cases hst with
  | quiet => exact ⟨⟨0, 0, .start, rfl, rfl⟩, fun x => x⟩
  | asking => exact ⟨⟨0, 0, .start, rfl, rfl⟩, fun x => x⟩
  | answering wc s ended k q v j bs hc hch hf hk he hq fc fs hr =>
    exact ⟨⟨0, j, hr, rfl, fc.todo, fc.sent, fs.heard⟩, fun _ => trivial⟩
  | talking d i j bc bs h hr => exact ⟨⟨i, j, hr, together_did h⟩, fun _ => trivial⟩

/-- Under every fair schedule both programs get their connections, however the network cuts the request and the answer. -/
theorem C67_both_connect [B64] (preq : ReqParser) (pres : ResParser) {url ops fresh key sops custom maxDf cts sts ch sh cw sw}
    (h : Appointment url ops fresh key sops custom maxDf cts sts ch sh cw sw) (f : Nat → Happens) (hf : FairNet f) :
    ∃ n, ∀ k, n ≤ k → (Meeting.run preq pres ⟨.start ch cts cw, .start sh sts sw⟩ ((List.range k).map f)).client.Connected ∧
      (Meeting.run preq pres ⟨.start ch cts cw, .start sh sts sw⟩ ((List.range k).map f)).server.Connected := by
  obtain ⟨n, r, -, h1, h2⟩ := stage_grows (h.arranged preq pres) hf ⟨.start ch cts cw, .start sh sts sw⟩ _ (n := 0) h.start (Nat.le_of_eq (Nat.zero_add _).symm)
  refine ⟨n, fun k hk => ?_⟩
  obtain ⟨g, rfl⟩ := Nat.exists_eq_add_of_le hk
  obtain ⟨d, i, j, bc, bs, e, -, -⟩ := h1.final h2
  rw [range_add, mrun_append, e, run_behind]
  exact ⟨trivial, trivial⟩

theorem fair_later {f : Nat → Happens} (h : FairNet f) (n : Nat) : FairNet fun i => f (n + i) := by
  intro who k
  obtain ⟨⟨a, a1, a2⟩, b, l, b1, b2⟩ := h who (n + k)
  exact ⟨⟨a - n, by omega, by simp only [Nat.add_sub_cancel' (show n ≤ a by omega)]; exact a2⟩,
    b - n, l, by omega, by simp only [Nat.add_sub_cancel' (show n ≤ b by omega)]; exact b2⟩

/-- If the two lists can be carried out at all, then under every fair schedule both programs connect, come to their ends, and each has heard everything it
listened for. -/
theorem C67_no_deadlock [B64] (preq : ReqParser) (pres : ResParser) {url ops fresh key sops custom maxDf cts sts ch sh cw sw}
    (h : Appointment url ops fresh key sops custom maxDf cts sts ch sh cw sw) (hm : Matched cts sts) (f : Nat → Happens) (hf : FairNet f) :
    ∃ n, ∀ k, n ≤ k →
      let m := Meeting.run preq pres ⟨.start ch cts cw, .start sh sts sw⟩ ((List.range k).map f)
      m.client.Connected ∧ m.server.Connected ∧ m.client.Did cts sts cts.length ∧ m.server.Did sts cts sts.length := by
  have ha := h.arranged preq pres
  obtain ⟨n, r, -, h1, h2⟩ := stage_grows ha hf ⟨.start ch cts cw, .start sh sts sw⟩ _ (n := 0) h.start (Nat.le_of_eq (Nat.zero_add _).symm)
  obtain ⟨d, i, j, bc, bs, e, h3, -⟩ := h1.final h2
  have h0 : Together false true _ _ cts sts (d.at (fun i => f (n + i)) 0) i j bc bs := h3
  obtain ⟨n', bc', bs', -, h4⟩ := matched_ends (lim_lt ha.lc_le) (lim_lt ha.ls_le) (fair_later hf n) hm (cts.length + sts.length) h0 (by omega)
  refine ⟨n + n', fun k hk => ?_⟩
  obtain ⟨g, rfl⟩ := Nat.exists_eq_add_of_le (show n ≤ k by omega)
  simp only [range_add, mrun_append, e, run_behind]
  obtain ⟨i', j', bc'', bs'', h5, h6⟩ := at_together (lim_lt ha.lc_le) (lim_lt ha.ls_le) h4 g (by omega)
  have ei : i' = cts.length := by have := h6.hi; have := h5.server.le; omega
  have ej : j' = sts.length := by have := h6.hj; have := h5.client.le; omega
  subst ei ej
  exact ⟨trivial, trivial, together_did h5⟩

/-- From any point of any schedule the two can still be brought to their ends. -/
theorem C67_never_too_late [B64] (preq : ReqParser) (pres : ResParser) {url ops fresh key sops custom maxDf cts sts ch sh cw sw}
    (h : Appointment url ops fresh key sops custom maxDf cts sts ch sh cw sw) (hm : Matched cts sts) (es : List Happens) :
    ∃ fs, let m := Meeting.run preq pres ⟨.start ch cts cw, .start sh sts sw⟩ (es ++ fs)
      m.client.Connected ∧ m.server.Connected ∧ m.client.Did cts sts cts.length ∧ m.server.Did sts cts sts.length := by
  let rest : Nat → Happens := fun n => if n % 4 = 0 then .act .client else if n % 4 = 1 then .carry .client 0 else if n % 4 = 2 then .act .server else .carry .server 0
  have hfair : FairNet rest := by
    intro who n
    cases who
    · exact ⟨⟨4 * n, by omega, by simp [rest]⟩, 4 * n + 1, 0, by omega, by simp [rest, Nat.add_mod]⟩
    · exact ⟨⟨4 * n + 2, by omega, by simp [rest, Nat.add_mod]⟩, 4 * n + 3, 0, by omega, by simp [rest, Nat.add_mod]⟩
  let all : Nat → Happens := fun n => if hn : n < es.length then es[n] else rest n
  have hall : FairNet all := by
    intro who n
    obtain ⟨⟨a, a1, a2⟩, b, l, b1, b2⟩ := hfair who (n + es.length)
    refine ⟨⟨a, by omega, ?_⟩, b, l, by omega, ?_⟩
    · simp only [all]; rw [dif_neg (by omega)]; exact a2
    · simp only [all]; rw [dif_neg (by omega)]; exact b2
  obtain ⟨n, hn⟩ := C67_no_deadlock preq pres h hm all hall
  have hes : (List.range es.length).map all = es := by
    apply List.ext_getElem
    · simp
    · intro k hk1 hk2
      simp only [List.getElem_map, List.getElem_range, all]
      rw [dif_pos hk2]
  refine ⟨(List.range n).map fun i => all (es.length + i), ?_⟩
  have := hn (es.length + n) (by omega)
  rw [range_add, hes] at this
  exact this

/-- If both come to their ends under some schedule, the lists allow it. -/
theorem C67_deadlock_is_the_programs [B64] (preq : ReqParser) (pres : ResParser) {url ops fresh key sops custom maxDf cts sts ch sh cw sw}
    (h : Appointment url ops fresh key sops custom maxDf cts sts ch sh cw sw) (es : List Happens)
    (p q : Party) (hr : Meeting.run preq pres ⟨.start ch cts cw, .start sh sts sw⟩ es = ⟨.talking p, .talking q⟩) (hp : p.todo = []) (hq : q.todo = []) :
    Matched cts sts := by
  obtain ⟨r, hst, -⟩ := run_stage (h.arranged preq pres) es h.start
  rw [hr] at hst
  obtain ⟨i, j, h1, h2, h3, hi, hj⟩ : ∃ i j, Reach cts sts i j ∧ p.todo = cts.drop i ∧ q.todo = sts.drop j ∧ i ≤ cts.length ∧ j ≤ sts.length := by
    generalize hx : (⟨.talking p, .talking q⟩ : Meeting) = m at hst
    cases hst with
    | quiet => cases hx
    | asking => cases hx
    | answering => cases hx
    | talking d i j bc bs h hre =>
      unfold Dialogue.behind at hx
      simp only [Meeting.mk.injEq, Agent.talking.injEq] at hx
      obtain ⟨rfl, rfl⟩ := hx
      exact ⟨i, j, hre, h.server.todo, h.client.todo, h.server.le, h.client.le⟩
  rw [hp] at h2
  rw [hq] at h3
  have e1 := List.drop_eq_nil_iff.mp h2.symm
  have e2 := List.drop_eq_nil_iff.mp h3.symm
  have ei : i = cts.length := by omega
  have ej : j = sts.length := by omega
  subst ei ej
  exact h1

/-! ## When one of them is refused -/

/-- A program that is done: its connection was refused, or it has made all its calls. It drops its connection. -/
inductive Agent.Finished : Agent → Prop
  | refused (l) : Finished (.failed l)
  | talked (p) : p.todo = [] → Finished (.talking p)

theorem finished_gone (a : Agent) : a.Finished ↔ a.gone = true := by
  constructor
  · intro h
    cases h with
    | refused => rfl
    | talked p h => simp [Agent.gone, h]
  · intro h
    cases a with
    | opening l => simp [Agent.gone] at h
    | failed l => exact .refused l
    | talking p => exact .talked p (by simpa [Agent.gone] using h)

/-- Nobody is left waiting. Two programs in whatever state, with whatever openings, transports, lists of calls and bytes under way: once one of them is
done — be it that its connection was refused — the other one gets done as well, however it goes on, and then both stay done. -/
theorem C67_nobody_left_waiting [B64] (preq : ReqParser) (pres : ResParser) (m : Meeting) (f : Nat → Happens) (hf : FairNet f) (n : Nat)
    (h : (m.run preq pres ((List.range n).map f)).client.Finished ∨ (m.run preq pres ((List.range n).map f)).server.Finished) :
    ∃ k, n ≤ k ∧ ∀ j, k ≤ j → (m.run preq pres ((List.range j).map f)).client.Finished ∧ (m.run preq pres ((List.range j).map f)).server.Finished := by
  simp only [finished_gone] at h ⊢
  rcases h with h | h
  · have hw : ((m.swap).run preq pres ((List.range n).map fun i => (f i).swap)).server.gone = true := by
      rw [meeting_run_swap]; exact h
    obtain ⟨k, hk, h1, h2⟩ := client_ends preq pres m.swap _ (fair_swap hf) _ n hw (Nat.le_refl _)
    refine ⟨k, hk, fun j hj => ?_⟩
    obtain ⟨g1, g2⟩ := stays_gone preq pres m.swap _ k h1 h2 j hj
    rw [meeting_run_swap] at g1 g2
    exact ⟨g1, g2⟩
  · obtain ⟨k, hk, h1, h2⟩ := client_ends preq pres m f hf _ n h (Nat.le_refl _)
    refine ⟨k, hk, fun j hj => ?_⟩
    obtain ⟨g1, g2⟩ := stays_gone preq pres m f k h1 h2 j hj
    exact ⟨g2, g1⟩

/-! ## An example -/

/-- A blocking client and an async server that answers a question. -/
def sampleMeeting : Meeting :=
  ⟨.start (.client ((Builder.init sampleUrl).run sampleOps) sampleKey) (questions (.text (ascii "hi")) ⟨1, 2, 3, 4⟩ 1 ++ [.hear]) ⟨[], []⟩,
    .start (.asyncServer (Upgrade.run · [.useProtocol (ascii "chat")]) none 100 100 0) (answers (.binary [7]) ⟨0, 0, 0, 0⟩ 1) ⟨[], [.error .wouldBlock, .accept 2]⟩⟩

/-- They go together. -/
theorem sampleAppointment : @Appointment B64.strict sampleUrl sampleOps sampleKey sampleKey [.useProtocol (ascii "chat")] none 100 (questions (.text (ascii "hi")) ⟨1, 2, 3, 4⟩ 1 ++ [.hear])
    (answers (.binary [7]) ⟨0, 0, 0, 0⟩ 1) (.client ((Builder.init sampleUrl).run sampleOps) sampleKey)
    (.asyncServer (Upgrade.run · [.useProtocol (ascii "chat")]) none 100 100 0) ⟨[], []⟩ ⟨[], [.error .wouldBlock, .accept 2]⟩ := by
  have hops : ∀ op ∈ sampleOps, (∀ k, op ≠ .key k) ∧ ∀ v, op ≠ .version v := by
    intro op ho
    simp only [sampleOps, List.mem_cons, List.not_mem_nil, or_false] at ho
    rcases ho with rfl | rfl | rfl <;> exact ⟨fun k h => (nomatch h), fun v h => (nomatch h)⟩
  refine @Appointment.mk B64.strict _ _ _ _ _ _ _ _ _ _ _ _ _ (C35_request_asks sampleUrl sampleOps sampleKey hops).1
    (@(C35_request_asks sampleUrl sampleOps sampleKey hops).2 B64.strict) (by unfold Target; decide +kernel) sampleSendable sampleResponse
    (.blocking _ (by intro e he; cases he) rfl (by decide +kernel)) (.async _ ?_ rfl 100 0) ?_ ?_
  · intro e he
    simp only [List.mem_cons, List.not_mem_nil, or_false] at he
    rcases he with rfl | rfl
    · exact .inl rfl
    · exact .inr ⟨2, by decide, rfl⟩
  · intro x hx
    simp only [questions, said, List.nil_append, List.cons_append, List.mem_cons, List.not_mem_nil, or_false] at hx
    subst hx
    exact ⟨(utf8Valid_iff _).mp (by decide +kernel), by decide⟩
  · intro x hx
    simp only [answers, said, List.nil_append, List.mem_cons, List.not_mem_nil, or_false] at hx
    subst hx
    show ([7] : List UInt8).length ≤ _
    decide

def Agent.view : Agent → Option (List Heard × Bool)
  | .talking p => some (p.heard, p.todo.isEmpty)
  | _ => none

def Meeting.view (m : Meeting) : Option (List Heard × Bool) × Option (List Heard × Bool) := (m.client.view, m.server.view)

/-- Everybody acts and the network carries seventy bytes at a time, in turn. After a while the server has its connection and the client still waits for the rest of the answer, -/
example : (@Meeting.run B64.strict reqParser resParser sampleMeeting (List.replicate 3 [.act .client, .carry .client 69, .act .server, .carry .server 69]).flatten).view =
    (none, some ([], false)) := by
  decide +kernel

/-- in the end both have heard everything. -/
example : (@Meeting.run B64.strict reqParser resParser sampleMeeting (List.replicate 12 [.act .client, .carry .client 69, .act .server, .carry .server 69]).flatten).view =
    (some ([.message (.binary [7]), .ended], true), some ([.message (.text (ascii "hi"))], true)) := by
  decide +kernel

/-- A client that asks for version 8 of the protocol, and a server. -/
def sampleRefusal : Meeting :=
  ⟨.start (.client ((Builder.init sampleUrl).run [.version (.unknown (ascii "8"))]) sampleKey) [.hear] ⟨[], []⟩,
    .start (.asyncServer (Upgrade.run · []) none 100 100 0) [.hear] ⟨[], []⟩⟩

def Agent.refused : Agent → Bool
  | .failed _ => true
  | _ => false

/-- The server refuses while the client still waits; then the client finds out. -/
example :
    let m := @Meeting.run B64.strict reqParser resParser sampleRefusal (List.replicate 3 [.act .client, .carry .client 69, .act .server]).flatten
    let m' := @Meeting.run B64.strict reqParser resParser m [.carry .server 0, .act .client]
    (m.client.refused, m.server.refused) = (false, true) ∧ (m'.client.refused, m'.server.refused) = (true, true) := by
  decide +kernel

/-- The same without the client's last wait. -/
theorem shortAppointment : @Appointment B64.strict sampleUrl sampleOps sampleKey sampleKey [.useProtocol (ascii "chat")] none 100 (questions (.text (ascii "hi")) ⟨1, 2, 3, 4⟩ 1)
    (answers (.binary [7]) ⟨0, 0, 0, 0⟩ 1) (.client ((Builder.init sampleUrl).run sampleOps) sampleKey)
    (.asyncServer (Upgrade.run · [.useProtocol (ascii "chat")]) none 100 100 0) ⟨[], []⟩ ⟨[], [.error .wouldBlock, .accept 2]⟩ := by
  obtain ⟨h1, h2, h3, h4, h5, h6, h7, h8, h9⟩ := sampleAppointment
  refine @Appointment.mk B64.strict _ _ _ _ _ _ _ _ _ _ _ _ _ h1 h2 h3 h4 h5 h6 h7 ?_ h9
  intro x hx
  simp only [questions, said, List.nil_append, List.mem_cons, List.not_mem_nil, or_false] at hx
  subst hx
  exact ⟨(utf8Valid_iff _).mp (by decide +kernel), by decide⟩
example := @C67_safe B64.strict reqParser resParser _ _ _ _ _ _ _ _ _ _ _ _ _ sampleAppointment
example := @C67_both_connect B64.strict reqParser resParser _ _ _ _ _ _ _ _ _ _ _ _ _ sampleAppointment _ sampleFair
example := @C67_no_deadlock B64.strict reqParser resParser _ _ _ _ _ _ _ _ _ _ _ _ _ shortAppointment (questions_answers _ _ _ _ 1) _ sampleFair
example := @C67_never_too_late B64.strict reqParser resParser _ _ _ _ _ _ _ _ _ _ _ _ _ shortAppointment (questions_answers _ _ _ _ 1)
/-- `C67_deadlock_is_the_programs`, `C67_nobody_left_waiting`: after enough turns both have connected and both programs are through. -/
example : ∃ p q, @Meeting.run B64.strict reqParser resParser sampleMeeting
    (List.replicate 12 [.act .client, .carry .client 69, .act .server, .carry .server 69]).flatten = ⟨.talking p, .talking q⟩ ∧ p.todo = [] ∧ q.todo = [] := by
  have h : (@Meeting.run B64.strict reqParser resParser sampleMeeting (List.replicate 12 [.act .client, .carry .client 69, .act .server, .carry .server 69]).flatten).view =
    (some ([.message (.binary [7]), .ended], true), some ([.message (.text (ascii "hi"))], true)) := by decide +kernel
  generalize @Meeting.run B64.strict reqParser resParser sampleMeeting _ = m at h
  obtain ⟨c, s⟩ := m
  cases c <;> cases s <;> simp [Meeting.view, Agent.view] at h
  exact ⟨_, _, rfl, h.1.2, h.2.2⟩

end WS
