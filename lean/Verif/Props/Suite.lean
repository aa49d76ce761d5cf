import Verif.Lemmas.Suite
/-!
# C76: the programs that run the test suite

`main` of examples/autobahn-client.rs and of examples/async-autobahn-client.rs, in any world: every connection meets a network,
a server and a transport of its own.
-/

namespace WS
open Spec

/-- The URL of an errand, and where its connection goes. -/
theorem errand_url [B64] (p : ResParser) (t : Trip) (e : Errand) :
    e.Asks (errandVisit p t e).2.url.resource ∧ e.Asks (asyncErrandVisit p t e).2.url.resource := by
  have hc : Errand.Asks .count countUrl.resource := by
    have : countUrl.resource = ascii "/getCaseCount" := by decide
    rw [this]; exact .count
  have hr : Errand.Asks .reports reportsUrl.resource := by
    have : reportsUrl.resource = ascii "/updateReports?agent=rust-websocket" := by decide
    rw [this]; exact .reports
  have hk : ∀ n, Errand.Asks (.case n) (caseUrl n).resource := by
    intro n
    have : (caseUrl n).resource = ascii "/runCase?case=" ++ decimal n ++ ascii "&agent=rust-websocket" := by
      unfold caseUrl suiteUrl Url.resource
      have e : ascii "/runCase?case=" = ascii "/runCase" ++ [63] ++ ascii "case=" := by decide
      rw [e]
      simp
    rw [this]
    exact .case (decimal_spec n)
  cases e with
  | count =>
    refine ⟨?_, ?_⟩
    · simp only [errandVisit]
      have : (countVisit p t).2.url = countUrl := by unfold countVisit; split <;> (try split) <;> rfl
      split <;> (next h => rw [h] at this; simp only at this ⊢; rw [this]; exact hc)
    · simp only [asyncErrandVisit]
      have : (asyncCountVisit p t).2.url = countUrl := by unfold asyncCountVisit; split <;> rfl
      split <;> (next h => rw [h] at this; simp only at this ⊢; rw [this]; exact hc)
  | case n =>
    refine ⟨?_, ?_⟩
    · have : (caseVisit p t n).2.url = caseUrl n := by unfold caseVisit; split <;> (try split) <;> rfl
      simp only [errandVisit, this, hk]
    · have : (asyncCaseVisit p t n).2.url = caseUrl n := by unfold asyncCaseVisit; split <;> rfl
      simp only [asyncErrandVisit, this, hk]
  | reports =>
    refine ⟨?_, ?_⟩
    · have : (reportsVisit p t).2.url = reportsUrl := by unfold reportsVisit; split <;> (try split) <;> rfl
      simp only [errandVisit, this, hr]
    · have : (asyncReportsVisit p t).2.url = reportsUrl := by unfold asyncReportsVisit; split <;> rfl
      simp only [asyncErrandVisit, this, hr]

/-- No two errands ask for the same thing. -/
theorem C76_requests_distinct {e e' : Errand} {bs : Bytes} (h : e.Asks bs) (h' : e'.Asks bs) : e = e' := by
  have hlen : ∀ s : String, ascii s = s.toList.map fun c => UInt8.ofNat c.toNat := fun _ => rfl
  cases h with
  | count =>
    generalize hb : ascii "/getCaseCount" = b at h'
    cases h' with
    | count => rfl
    | case _ =>
      have := congrArg (·[1]?) hb
      simp only [List.append_assoc] at this
      rw [List.getElem?_append_left (by decide)] at this
      exact absurd this (by decide)
    | reports => exact absurd hb (by decide)
  | reports =>
    generalize hb : ascii "/updateReports?agent=rust-websocket" = b at h'
    cases h' with
    | count => exact absurd hb (by decide)
    | case _ =>
      have := congrArg (·[1]?) hb
      simp only [List.append_assoc] at this
      rw [List.getElem?_append_left (by decide)] at this
      exact absurd this (by decide)
    | reports => rfl
  | @case n ds h =>
    generalize hb : ascii "/runCase?case=" ++ ds ++ ascii "&agent=rust-websocket" = b at h'
    cases h' with
    | count =>
      have := congrArg (·[1]?) hb
      simp only [List.append_assoc] at this
      rw [List.getElem?_append_left (by decide)] at this
      exact absurd this (by decide)
    | reports =>
      have := congrArg (·[1]?) hb
      simp only [List.append_assoc] at this
      rw [List.getElem?_append_left (by decide)] at this
      exact absurd this (by decide)
    | @case m ds' h' =>
      have := List.append_cancel_right hb
      have := List.append_cancel_left this
      subst this
      rw [decimal_inj h h']

/-! ## The order of the connections -/

/-- C76, blocking, in any world in which the number of cases is obtained: the connections are those of the plan, in order, none
left out and none made twice, each of them is what it would be on its own, and the next one is only made when it has ended
without a panic. Either all have been made, or the program has panicked, and in the last connection. -/
theorem C76_order [B64] (p : ResParser) (world : Nat → Trip) (n : Nat) (hc : (countVisit p (world 0)).1 = some n) (hn : n < 2 ^ 64 - 1) :
    let o := suiteMain p world
    (∀ (i : Nat) v, o.2[i]? = some v → ∃ e, (plan n)[i]? = some e ∧ e.Asks v.url.resource ∧ v = (errandVisit p (world i) e).2 ∧
      (i + 1 < o.2.length → (errandVisit p (world i) e).1 = .returned)) ∧
    (o.1 = .returned ∧ o.2.length = (plan n).length ∨
     o.1 = .panicked ∧ ∃ e, (plan n)[o.2.length - 1]? = some e ∧ (errandVisit p (world (o.2.length - 1)) e).1 ≠ .returned) := by
  have hs := runCases_spec p world n 1 (by unfold usizeMax; exact hn) (by omega) (by omega)
  simp only at hs ⊢
  cases hv : countVisit p (world 0) with
  | mk c v0 =>
    rw [hv] at hc
    simp only at hc
    subst hc
    have h0 : errandVisit p (world 0) .count = (.returned, v0) := by simp only [errandVisit, hv]
    have hm : suiteMain p world = ((runCases p world n 1).1, v0 :: (runCases p world n 1).2) := by
      unfold suiteMain; rw [hv]
    rw [hm]
    obtain ⟨h1, h2, h3, h4⟩ := hs
    refine ⟨?_, ?_⟩
    · intro i v hi
      cases i with
      | zero =>
        simp only [List.getElem?_cons_zero, Option.some.injEq] at hi
        subst hi
        have := errand_url p (world 0) .count
        rw [h0] at this
        exact ⟨.count, by simp [plan], this.1, by rw [h0], fun _ => by rw [h0]⟩
      | succ i =>
        simp only [List.getElem?_cons_succ] at hi
        obtain ⟨g1, g2⟩ := h3 i v hi
        have hlt : i < (runCases p world n 1).2.length := (List.getElem?_eq_some_iff.mp hi).1
        rw [Nat.add_comm 1 i] at g1 g2
        refine ⟨errandAt n (i + 1), by rw [plan_get, if_pos (by omega)], ?_, g1, ?_⟩
        · rw [g1]; exact (errand_url p (world (i + 1)) _).1
        · intro hl
          simp only [List.length_cons] at hl
          exact g2 (by omega)
    · rcases h4 with ⟨g1, g2, -⟩ | ⟨g1, g2⟩
      · exact .inl ⟨g1, by rw [List.length_cons, g2, plan_length]; omega⟩
      · refine .inr ⟨g1, errandAt n ((v0 :: (runCases p world n 1).2).length - 1), ?_, ?_⟩
        · rw [plan_get, if_pos]
          simp only [List.length_cons]; omega
        · rw [show (v0 :: (runCases p world n 1).2).length - 1 = 1 + ((runCases p world n 1).2.length - 1) by
            simp only [List.length_cons]; omega]
          exact g2

/-- If no connection of the plan panics on its own, the whole plan is carried out and the program returns. -/
theorem C76_complete [B64] (p : ResParser) (world : Nat → Trip) (n : Nat) (hc : (countVisit p (world 0)).1 = some n) (hn : n < 2 ^ 64 - 1)
    (h : ∀ (i : Nat) e, (plan n)[i]? = some e → (errandVisit p (world i) e).1 = .returned) :
    (suiteMain p world).1 = .returned ∧ (suiteMain p world).2.length = (plan n).length := by
  obtain ⟨-, h2⟩ := C76_order p world n hc hn
  rcases h2 with h2 | ⟨-, e, he, h2⟩
  · exact h2
  · exact absurd (h _ e he) h2

/-- Without a number there is one connection, and a panic. -/
theorem C76_no_number [B64] (p : ResParser) (world : Nat → Trip) (hc : (countVisit p (world 0)).1 = none) :
    suiteMain p world = (.panicked, [(countVisit p (world 0)).2]) := by
  unfold suiteMain
  cases hv : countVisit p (world 0) with
  | mk c v0 =>
    rw [hv] at hc
    simp only at hc
    subst hc
    rfl

/-- Without a first connection there are no cases: the blocking program asks for the reports and returns (if these do not panic),
the async one panics. -/
theorem C76_no_server [B64] (p : ResParser) (world : Nat → Trip) :
    (∀ d e calls, (world 0).connect p countUrl = (.err d e, calls) →
      ∃ v, suiteMain p world = ((reportsVisit p (world 1)).1, [v, (reportsVisit p (world 1)).2])) ∧
    (∀ d e calls, (world 0).asyncConnect p countUrl = (.err d e, calls) →
      ∃ v, asyncSuiteMain p world = (.panicked, [v])) := by
  constructor
  · intro d e calls h
    have : countVisit p (world 0) = (some 0, ⟨countUrl, calls, d.map (·.output.wire)⟩) := by unfold countVisit; rw [h]
    unfold suiteMain
    rw [this]
    refine ⟨⟨countUrl, calls, d.map (·.output.wire)⟩, ?_⟩
    simp only
    rw [runCases, if_neg (by omega)]
  · intro d e calls h
    have : asyncCountVisit p (world 0) = (none, ⟨countUrl, calls, d.map (·.output.wire)⟩) := by unfold asyncCountVisit; rw [h]
    unfold asyncSuiteMain
    rw [this]
    exact ⟨_, rfl⟩

/-- C76 refuted (one bad case spoils the rest): if the server does not take the connection of case `k`, the blocking program
panics there; no later case is run and no report is asked for. -/
theorem C76_refuted_refused_case [B64] (p : ResParser) (world : Nat → Trip) (n k : Nat) (hc : (countVisit p (world 0)).1 = some n)
    (hn : n < 2 ^ 64 - 1) (hk : 1 ≤ k) (hkn : k ≤ n) (d : Option Duplex) (e : ConnectErr) (calls : List NetCall)
    (hr : (world k).connect p (caseUrl k) = (.err d e, calls)) :
    (suiteMain p world).1 = .panicked ∧ (suiteMain p world).2.length ≤ k + 1 := by
  obtain ⟨h1, h2⟩ := C76_order p world n hc hn
  have hp : (plan n)[k]? = some (.case k) := by
    rw [plan_get, if_pos (by omega)]
    unfold errandAt
    rw [if_neg (by omega), if_pos hkn]
  have hx : (errandVisit p (world k) (.case k)).1 ≠ .returned := by
    simp only [errandVisit, caseVisit, hr]
    intro h; cases h
  have hle : (suiteMain p world).2.length ≤ k + 1 := by
    by_cases hl : k + 1 < (suiteMain p world).2.length
    · obtain ⟨e, g1, -, -, g4⟩ := h1 k _ (List.getElem?_eq_getElem (by omega))
      rw [hp] at g1
      cases g1
      exact absurd (g4 hl) hx
    · omega
  refine ⟨?_, hle⟩
  rcases h2 with ⟨-, h2⟩ | ⟨h2, -⟩
  · rw [plan_length] at h2; omega
  · exact h2

/-- C76, async, in any world in which the number of cases is obtained: all connections of the plan are made, in order, whatever
happens in the cases; the program ends as the last connection ends. -/
theorem C76_async_order [B64] (p : ResParser) (world : Nat → Trip) (n : Nat) (hc : (asyncCountVisit p (world 0)).1 = some n) (hn : n < 2 ^ 64 - 1) :
    let o := asyncSuiteMain p world
    o.2.length = (plan n).length ∧
    (∀ (i : Nat) v, o.2[i]? = some v → ∃ e, (plan n)[i]? = some e ∧ e.Asks v.url.resource ∧ v = (asyncErrandVisit p (world i) e).2) ∧
    o.1 = (asyncReportsVisit p (world (n + 1))).1 ∧ (o.1 = .returned ∨ o.1 = .panicked) := by
  have hs := asyncRunCases_spec p world n 1 (by omega) (by omega)
  simp only at hs ⊢
  cases hv : asyncCountVisit p (world 0) with
  | mk c v0 =>
    rw [hv] at hc
    simp only at hc
    subst hc
    have h0 : asyncErrandVisit p (world 0) .count = (.returned, v0) := by simp only [asyncErrandVisit, hv]
    have hm : asyncSuiteMain p world = ((asyncRunCases p world n 1).1, v0 :: (asyncRunCases p world n 1).2) := by
      unfold asyncSuiteMain; rw [hv]
      simp only
      rw [if_neg]
      unfold usizeMax; omega
    rw [hm]
    obtain ⟨h2, h3, h4⟩ := hs
    have he : errandAt n (n + 1) = .reports := by unfold errandAt; rw [if_neg (by omega), if_neg (by omega)]
    rw [he] at h4
    refine ⟨by simp only [List.length_cons, plan_length]; omega, ?_, h4, by simp only; rw [h4]; exact asyncReportsVisit_end p (world (n + 1))⟩
    intro i v hi
    cases i with
    | zero =>
      simp only [List.getElem?_cons_zero, Option.some.injEq] at hi
      subst hi
      have := errand_url p (world 0) .count
      rw [h0] at this
      exact ⟨.count, by simp [plan], this.2, by rw [h0]⟩
    | succ i =>
      simp only [List.getElem?_cons_succ] at hi
      have g1 := h3 i v hi
      have hlt : i < (asyncRunCases p world n 1).2.length := (List.getElem?_eq_some_iff.mp hi).1
      rw [Nat.add_comm 1 i] at g1
      refine ⟨errandAt n (i + 1), by rw [plan_get, if_pos (by omega)], ?_, g1⟩
      rw [g1]; exact (errand_url p (world (i + 1)) _).2

/-- C76 refuted (the largest number): a server that announces 2^64 - 1 cases, a number both programs understand, makes the async
program panic before the first case; the blocking one panics too, at the latest before the last case. -/
theorem C76_refuted_largest [B64] (p : ResParser) (world : Nat → Trip) :
    ((asyncCountVisit p (world 0)).1 = some (2 ^ 64 - 1) → asyncSuiteMain p world = (.panicked, [(asyncCountVisit p (world 0)).2])) ∧
    ((countVisit p (world 0)).1 = some (2 ^ 64 - 1) → (suiteMain p world).1 = .panicked) := by
  constructor
  · intro hc
    cases hv : asyncCountVisit p (world 0) with
    | mk c v0 =>
      rw [hv] at hc
      simp only at hc
      subst hc
      unfold asyncSuiteMain; rw [hv]
      simp only
      rw [if_pos (show (2 ^ 64 - 1 : Nat) = usizeMax from rfl)]
  · intro hc
    cases hv : countVisit p (world 0) with
    | mk c v0 =>
      rw [hv] at hc
      simp only at hc
      subst hc
      unfold suiteMain; rw [hv]
      exact runCases_overflow p world 1 (by unfold usizeMax; omega)

/-! ## What is said in the connections -/

/-- The network takes the connection to `url`, the server answers the handshake in any segments, and `y` follows. -/
structure Served (t : Trip) (url : Url) (d : Duplex) (y : Bytes) : Prop where
  opened : ((Builder.init url).openStream t.net .insecure).1 = .ok d
  answered : ∃ lines, Answers t.fresh lines ∧ Sendable lines ∧
    (head101 .http11 lines).length ≤ maxBufferSize ∧ d.input.flat = head101 .http11 lines ++ y
  input : d.input.Chunks
  output : d.output.Willing
  clone : t.clone = .ok ()

theorem served_connects [B64] (p : ResParser) (t : Trip) (url : Url) (d : Duplex) (y : Bytes) (h : Served t url d y) :
    ∃ (c : Client) (calls : List NetCall) (r : Reader) (w : Writer), t.connect p url = (.client c, calls) ∧ c.split t.clone = .ok (r, w) ∧
      r.receiver = Receiver.newWithLimits false (100 * 2 ^ 20) (100 * 2 ^ 20) ∧ r.stream.src.Clean ∧ r.stream.src.flat = y ∧ w.stream.Willing ∧ w.sender.mask = true ∧
      w.stream.wire = d.output.wire ++ Head (requestStart url) (requestLines url [] t.fresh) := by
  obtain ⟨lines, ha, hs, hl, hf⟩ := h.answered
  have hk := (C35_request_asks url [] t.fresh (by simp)).2
  have hp := parse_lines p .http11 ⟨101, ascii "Switching Protocols"⟩ okRes101 hs
  rw [← resStart] at hp
  have hwa := writeAll_willing (Head (requestStart url) (requestLines url [] t.fresh)) d.output h.output
  rcases C35_client_takes p t.fresh t.fresh url [] lines d y (by simp) ha hs hk hl h.input hf with ⟨k, hk', _⟩ | ⟨c, g1, g2, g3, g4, g5, g6⟩
  · rw [hwa.1] at hk'; cases hk'
  · have hlm := C39_client_limits_partial p t.fresh d url [] c g1
    have hin := connectOn_chunks p t.fresh _ d _ y _ hp hl h.input hf c g1
    rcases C30_split_state c (.ok ()) with ⟨k, hk, -⟩ | ⟨r, w, q1, q2, q3, q4, q5, q6⟩
    · cases hk
    · refine ⟨c, ((Builder.init url).openStream t.net .insecure).2, r, w, ?_, by rw [h.clone]; exact q1, by rw [q4]; exact receiver_eq hlm.1 g5, ?_, ?_, ?_, ?_, ?_⟩
      · unfold Trip.connect Builder.connect
        cases ho : (Builder.init url).openStream t.net .insecure with
        | mk r0 calls =>
          have := h.opened
          rw [ho] at this
          simp only at this
          subst this
          simp only
          have e : ((Builder.init url).connectOn p t.fresh d).1 = .client c := g1
          cases hx : (Builder.init url).connectOn p t.fresh d with
          | mk a b => rw [hx] at e; simp only at e; subst e; rfl
      · rw [q2]; exact src_clean hin.1
      · rw [q2, C41_pending_read, g4]
      · rw [q5]; exact h.output.suffix hin.2
      · rw [q6]; exact g6
      · rw [q5]; exact g2

/-- A case with a server: whatever it sends, the program has asked for this case, answered everything it heard, said Close,
and goes on. -/
theorem C76_case_served [B64] (p : ResParser) (t : Trip) (n : Nat) (d : Duplex) (y : Bytes) (h : Served t (caseUrl n) d y) :
    ∃ s ms x bs calls, s.Clean ∧ s.flat = y ∧ Hears (Receiver.newWithLimits false (100 * 2 ^ 20) (100 * 2 ^ 20)) s ms x ∧
      caseVisit p t n = (.returned, ⟨caseUrl n, calls, some (d.output.wire ++ Head (requestStart (caseUrl n)) (requestLines (caseUrl n) [] t.fresh) ++ bs)⟩) ∧
      Says true ((ms.map OwnedMsg.spec).filterMap Message.reply ++ [.close]) bs := by
  obtain ⟨c, calls, r, w, h1, h2, h3, h4, h5, h6, h7, h8⟩ := served_connects p t _ d y h
  obtain ⟨ms, x, w', bs, g1, g2, g3, g4⟩ := C48_autobahn_any_input false (100 * 2 ^ 20) (100 * 2 ^ 20) t.keys r.stream.src w h6
  refine ⟨r.stream.src, ms, x, bs, calls, h4, h5, g1, ?_, by rw [h7] at g4; exact g4⟩
  unfold caseVisit
  rw [h1]
  simp only
  rw [h2]
  simp only
  rw [h3, g2]
  simp only
  rw [g3, h8]

/-- Asking for the number with a server that sends numbers: the number is the last one before its Close, and the program has asked
for the number, answered the pings and said Close. -/
theorem C76_count_served [B64] (p : ResParser) (t : Trip) (d : Duplex) (y : Bytes) (h : Served t countUrl d y)
    (frames : List Frame) (ms : List Message) (held' : List Frame)
    (hd : Delivers (FitsBlocking (min (100 * 2 ^ 20) u32Max)) [] frames ms held') (hl : ∀ f ∈ frames, f.payload.length ≤ min (100 * 2 ^ 20) u32Max)
    (bs x : Bytes) (hf : Wire false frames bs) (hx : (∃ m ∈ ms, m.isClose = true) ∨ Truncated false (min (100 * 2 ^ 20) u32Max) x)
    (n : Nat) (hn : LastNumber 0 (ms.takeWhile fun m => !m.isClose) n) (hy : y = bs ++ x) :
    ∃ out calls, countVisit p t = (some n, ⟨countUrl, calls, some (d.output.wire ++ Head (requestStart countUrl) (requestLines countUrl [] t.fresh) ++ out)⟩) ∧
      ((∃ m ∈ ms, m.isClose = true) → Says true ((ms.takeWhile fun m => !m.isClose).filterMap Message.pongFor ++ [.close]) out) ∧
      ((∀ m ∈ ms, m.isClose = false) → Says true (ms.filterMap Message.pongFor ++ [.closeWith 1002 []]) out) := by
  obtain ⟨c, calls, r, w, h1, h2, h3, h4, h5, h6, h7, h8⟩ := served_connects p t _ d y h
  obtain ⟨w', out, g1, g2, g3, g4⟩ := C63_count_of_traffic false (100 * 2 ^ 20) (100 * 2 ^ 20) frames ms held' hd hl bs x hf hx n hn r.stream.src h4 (by rw [h5, hy]) t.keys w h6
  rw [h7] at g3 g4
  refine ⟨out, calls, ?_, g3, g4⟩
  unfold countVisit
  rw [h1]
  simp only
  rw [h2]
  simp only
  rw [h3, g1]
  simp only
  rw [g2, h8]

/-- Asking for the reports with a server: the program returns. -/
theorem C76_reports_served [B64] (p : ResParser) (t : Trip) (d : Duplex) (y : Bytes) (h : Served t reportsUrl d y) :
    ∃ s ms x bs calls, s.Clean ∧ s.flat = y ∧ Hears (Receiver.newWithLimits false (100 * 2 ^ 20) (100 * 2 ^ 20)) s ms x ∧
      reportsVisit p t = (.returned, ⟨reportsUrl, calls, some (d.output.wire ++ Head (requestStart reportsUrl) (requestLines reportsUrl [] t.fresh) ++ bs)⟩) ∧
      Says true ((ms.map OwnedMsg.spec).filterMap Message.pongFor ++ [.close]) bs := by
  obtain ⟨c, calls, r, w, h1, h2, h3, h4, h5, h6, h7, h8⟩ := served_connects p t _ d y h
  obtain ⟨ms, x, w', bs, g1, g2, g3, g4⟩ := C63_reports_any_input false (100 * 2 ^ 20) (100 * 2 ^ 20) t.keys r.stream.src w h6
  refine ⟨r.stream.src, ms, x, bs, calls, h4, h5, g1, ?_, by rw [h7] at g4; exact g4⟩
  unfold reportsVisit
  rw [h1]
  simp only
  rw [h2]
  simp only
  rw [h3, g2]
  simp only
  rw [g3, h8]

/-- C76, for servers that take every connection, answer every handshake and announce the number `n`, whatever they send in the
cases: the blocking program runs every case once, in order, asks for the reports and returns. -/
theorem C76_all_cases_partial [B64] (p : ResParser) (world : Nat → Trip) (n : Nat) (hc : (countVisit p (world 0)).1 = some n) (hn : n < 2 ^ 64 - 1)
    (hs : ∀ k, 1 ≤ k → k ≤ n → ∃ d y, Served (world k) (caseUrl k) d y) (hr : ∃ d y, Served (world (n + 1)) reportsUrl d y) :
    (suiteMain p world).1 = .returned ∧ (suiteMain p world).2.length = (plan n).length ∧
    ∀ k, 1 ≤ k → k ≤ n → (suiteMain p world).2[k]? = some (caseVisit p (world k) k).2 := by
  have key := C76_complete p world n hc hn (by
    intro i e he
    rw [plan_get] at he
    split at he
    · next hi =>
      cases he
      unfold errandAt
      split
      · next h0 =>
        subst h0
        simp only [errandVisit]
        cases hv : countVisit p (world 0) with
        | mk c v0 =>
          rw [hv] at hc
          simp only at hc
          subst hc
          rfl
      · split
        · obtain ⟨d, y, h⟩ := hs i (by omega) (by omega)
          obtain ⟨_, _, _, _, _, -, -, -, g, -⟩ := C76_case_served p (world i) i d y h
          simp only [errandVisit, g]
        · obtain ⟨d, y, h⟩ := hr
          obtain ⟨_, _, _, _, _, -, -, -, g, -⟩ := C76_reports_served p (world (n + 1)) d y h
          rw [show i = n + 1 by omega]
          simp only [errandVisit, g]
    · cases he)
  refine ⟨key.1, key.2, fun k h1 h2 => ?_⟩
  have hlt : k < (suiteMain p world).2.length := by rw [key.2, plan_length]; omega
  obtain ⟨e, g1, -, g3, -⟩ := (C76_order p world n hc hn).1 k _ (List.getElem?_eq_getElem hlt)
  rw [plan_get, if_pos (by omega)] at g1
  unfold errandAt at g1
  rw [if_neg (by omega), if_pos h2] at g1
  cases g1
  rw [List.getElem?_eq_getElem hlt, g3]
  rfl

/-- The network takes the async connection to `url`, the server answers the handshake in any segments and at any pace, and `y` follows. -/
structure AsyncServed (t : Trip) (url : Url) (d : Duplex) (y : Bytes) : Prop where
  opened : ((Builder.init url).asyncOpenStream t.net .insecure).1 = .ok d
  answered : ∃ lines, Answers t.fresh lines ∧ Sendable lines ∧
    d.input.flat = head101 .http11 lines ++ y
  input : d.input.Ready
  output : d.output.Patient

theorem asyncServed_connects [B64] (p : ResParser) (t : Trip) (url : Url) (d : Duplex) (y : Bytes) (h : AsyncServed t url d y) :
    ∃ (c : AsyncClient) (calls : List NetCall) (buf : Bytes), t.asyncConnect p url = (.client c, calls) ∧
      c.read = Framed.fromParts (MsgCodec.newWithLimits .client (100 * 2 ^ 20) (200 * 2 ^ 20)) buf ∧ buf ++ c.stream.input.flat = y ∧
      c.stream.input.Ready ∧ c.stream.output.Patient ∧ c.write.buf.WF ∧ c.write.buf.data = [] ∧ c.write.isServer = false ∧
      c.stream.output.wire = d.output.wire ++ Head (requestStart url) (requestLines url [] t.fresh) := by
  obtain ⟨lines, ha, hs, hf⟩ := h.answered
  have hk := (C35_request_asks url [] t.fresh (by simp)).2
  have hwa := httpSend_patient (Head (requestStart url) (requestLines url [] t.fresh)) t.extra d.output h.output
  rcases C35_async_client_takes p t.fresh t.fresh url [] lines t.extra d y (by simp) ha hs hk (ready_iff.mp h.input) hf with
    ⟨k, hk', _⟩ | ⟨c, g1, g2, g3, g4, g5, g6, g7⟩
  · rw [hwa] at hk'; cases hk'
  · have hx : t.asyncConnect p url = (.client c, ((Builder.init url).asyncOpenStream t.net .insecure).2) := by
      unfold Trip.asyncConnect Builder.asyncConnect
      cases ho : (Builder.init url).asyncOpenStream t.net .insecure with
      | mk r0 calls =>
        have := h.opened
        rw [ho] at this
        simp only at this
        subst this
        simp only
        have e : (Builder.init url).asyncConnectOn p t.fresh t.extra d = .client c := g1
        rw [e]
    obtain ⟨k1, k2, k3, -⟩ := asyncConnectOn_keeps p t.fresh t.extra _ d c g1
    obtain ⟨s1, s2, s3, s4⟩ := asyncConnect_state p t url c _ hx
    exact ⟨c, _, c.read.buf, hx, s1, g5, ready_iff.mpr fun e he => ready_iff.mp h.input e (k1.mem he), h.output.suffix k2, s2, s3, s4, g2⟩

/-- A case of the async program with a server: it has asked for this case and answered everything it heard, with a Close at the
end unless the server's stream just ended. -/
theorem C76_async_case_served [B64] (p : ResParser) (t : Trip) (n : Nat) (d : Duplex) (y : Bytes) (h : AsyncServed t (caseUrl n) d y) :
    ∃ s buf ms x bs calls, s.Ready ∧ buf ++ s.flat = y ∧
      AHears (Framed.fromParts (MsgCodec.newWithLimits .client (100 * 2 ^ 20) (200 * 2 ^ 20)) buf) s ms x ∧
      asyncCaseVisit p t n = (.returned, ⟨caseUrl n, calls, some (d.output.wire ++ Head (requestStart (caseUrl n)) (requestLines (caseUrl n) [] t.fresh) ++ bs)⟩) ∧
      ((x = .done ∧ Says true ((ms.map OwnedMsg.spec).filterMap Message.reply) bs) ∨
       (((∃ m, x = .item m) ∨ ∃ e, x = .err e) ∧ Says true ((ms.map OwnedMsg.spec).filterMap Message.reply ++ [.close]) bs)) := by
  obtain ⟨c, calls, buf, h1, h2, h3, h4, h5, h6, h7, h8, h9⟩ := asyncServed_connects p t _ d y h
  obtain ⟨ms, x, bs, w', g1, g2, g3, g4⟩ :=
    C63_case_any_input .client (100 * 2 ^ 20) (200 * 2 ^ 20) t.keys t.extra buf c.stream.input c.write h6 h7 c.stream.output h5
  rw [h8] at g4
  refine ⟨c.stream.input, buf, ms, x, bs, calls, h4, h3, g1, ?_, g4⟩
  unfold asyncCaseVisit
  rw [h1]
  simp only
  rw [h2, g2]
  simp only
  rw [g3, h9]

/-- Asking for the number in the async program, with a server: the number is that of the first message, which must be a text; the
program has written its request and nothing else. -/
theorem C76_async_count_served [B64] (p : ResParser) (t : Trip) (d : Duplex) (y : Bytes) (h : AsyncServed t countUrl d y) :
    ∃ s buf calls, s.Ready ∧ buf ++ s.flat = y ∧
      (asyncCountVisit p t).2 = ⟨countUrl, calls, some (d.output.wire ++ Head (requestStart countUrl) (requestLines countUrl [] t.fresh))⟩ ∧
      ∀ n, (asyncCountVisit p t).1 = some n ↔ ∃ txt, Number txt n ∧
        ((Framed.fromParts (MsgCodec.newWithLimits .client (100 * 2 ^ 20) (200 * 2 ^ 20)) buf).nextMany msgDecoder 1 s).1 = [.item (.text txt)] := by
  obtain ⟨c, calls, buf, h1, h2, h3, h4, h5, h6, h7, h8, h9⟩ := asyncServed_connects p t _ d y h
  have e : asyncCountVisit p t = (asyncCaseCount c.read c.stream.input, ⟨countUrl, calls, some c.stream.output.wire⟩) := by
    unfold asyncCountVisit; rw [h1]
  refine ⟨c.stream.input, buf, calls, h4, h3, by rw [e, h9], fun n => ?_⟩
  rw [e, ← h2]
  exact (C63_async_count_partial c.read c.stream.input n).trans ⟨fun ⟨x, a, b⟩ => ⟨x, b, a⟩, fun ⟨x, a, b⟩ => ⟨x, b, a⟩⟩

/-- Asking for the reports in the async program, with a server: it has asked for them and said Close, whatever the server sends. -/
theorem C76_async_reports_served [B64] (p : ResParser) (t : Trip) (d : Duplex) (y : Bytes) (h : AsyncServed t reportsUrl d y) :
    ∃ bs calls, asyncReportsVisit p t = (.returned, ⟨reportsUrl, calls, some (d.output.wire ++ Head (requestStart reportsUrl) (requestLines reportsUrl [] t.fresh) ++ bs)⟩) ∧
      Says true [.close] bs := by
  obtain ⟨c, calls, buf, h1, h2, h3, h4, h5, h6, h7, h8, h9⟩ := asyncServed_connects p t _ d y h
  obtain ⟨w', bs, g1, g2, g3⟩ := C63_async_reports t.keys t.extra c.write h6 h7 c.stream.output h5
  rw [h8] at g3
  refine ⟨bs, calls, ?_, g3⟩
  unfold asyncReportsVisit
  rw [h1]
  simp only
  rw [g1]
  simp only
  rw [g2, h9]

/-- Where the connections go, in any world: the only name looked up is 127.0.0.1, at port 9001, and only addresses it resolves to
are dialled; TLS is not spoken. -/
def ToSuiteServer (net : Net) (calls : List NetCall) : Prop :=
  ∃ rest, calls = .resolve (ascii "127.0.0.1") 9001 :: rest ∧
    ∀ c ∈ rest, ∃ addrs, net.resolve (ascii "127.0.0.1") 9001 = .ok addrs ∧ ∃ a ∈ addrs, c = .dial a

theorem suite_calls (path : Bytes) (query : Option Bytes) (net : Net) (calls : List NetCall)
    (h : calls = ((Builder.init (suiteUrl path query)).openStream net .insecure).2 ∨
      calls = ((Builder.init (suiteUrl path query)).asyncOpenStream net .insecure).2) : ToSuiteServer net calls := by
  obtain ⟨port, rest, h1, h2, h3⟩ := C40_every_call (Builder.init (suiteUrl path query)) net .insecure (ascii "127.0.0.1") rfl calls h
  have hp : port = 9001 := by
    have := h2.2 (.inl (by simp [suiteUrl, Builder.init]))
    simpa [DesignatedPort, suiteUrl, Builder.init, eq_comm] using this
  subst hp
  refine ⟨rest, h1, fun c hc => ?_⟩
  rcases h3 c hc with g | ⟨-, g⟩
  · exact g
  · exact g.elim

theorem connect_calls [B64] (p : ResParser) (t : Trip) (path : Bytes) (query : Option Bytes) :
    ToSuiteServer t.net (t.connect p (suiteUrl path query)).2 := by
  refine suite_calls path query t.net _ (.inl ?_)
  unfold Trip.connect Builder.connect
  split
  next h => split at h <;> (cases h; next h => rw [h])

theorem asyncConnect_calls [B64] (p : ResParser) (t : Trip) (path : Bytes) (query : Option Bytes) :
    ToSuiteServer t.net (t.asyncConnect p (suiteUrl path query)).2 := by
  refine suite_calls path query t.net _ (.inr ?_)
  unfold Trip.asyncConnect Builder.asyncConnect
  split <;> (next h => rw [h])

/-- C76, in any world: both programs, on any errand, go to the server at 127.0.0.1, port 9001, and nowhere else. -/
theorem C76_where [B64] (p : ResParser) (t : Trip) (e : Errand) :
    ToSuiteServer t.net (errandVisit p t e).2.calls ∧ ToSuiteServer t.net (asyncErrandVisit p t e).2.calls := by
  have hc : ToSuiteServer t.net (t.connect p countUrl).2 := connect_calls p t _ _
  have hr : ToSuiteServer t.net (t.connect p reportsUrl).2 := connect_calls p t _ _
  have hk : ∀ n, ToSuiteServer t.net (t.connect p (caseUrl n)).2 := fun n => connect_calls p t _ _
  have ac : ToSuiteServer t.net (t.asyncConnect p countUrl).2 := asyncConnect_calls p t _ _
  have ar : ToSuiteServer t.net (t.asyncConnect p reportsUrl).2 := asyncConnect_calls p t _ _
  have ak : ∀ n, ToSuiteServer t.net (t.asyncConnect p (caseUrl n)).2 := fun n => asyncConnect_calls p t _ _
  cases e with
  | count =>
    refine ⟨?_, ?_⟩
    · have : (countVisit p t).2.calls = (t.connect p countUrl).2 := by unfold countVisit; split <;> (try split) <;> (simp only [*])
      simp only [errandVisit]
      split <;> (next h => rw [h] at this; simp only at this ⊢; rw [this]; exact hc)
    · have : (asyncCountVisit p t).2.calls = (t.asyncConnect p countUrl).2 := by unfold asyncCountVisit; split <;> (simp only [*])
      simp only [asyncErrandVisit]
      split <;> (next h => rw [h] at this; simp only at this ⊢; rw [this]; exact ac)
  | case n =>
    refine ⟨?_, ?_⟩
    · have : (caseVisit p t n).2.calls = (t.connect p (caseUrl n)).2 := by unfold caseVisit; split <;> (try split) <;> (simp only [*])
      simp only [errandVisit, this, hk]
    · have : (asyncCaseVisit p t n).2.calls = (t.asyncConnect p (caseUrl n)).2 := by unfold asyncCaseVisit; split <;> (simp only [*])
      simp only [asyncErrandVisit, this, ak]
  | reports =>
    refine ⟨?_, ?_⟩
    · have : (reportsVisit p t).2.calls = (t.connect p reportsUrl).2 := by unfold reportsVisit; split <;> (try split) <;> (simp only [*])
      simp only [errandVisit, this, hr]
    · have : (asyncReportsVisit p t).2.calls = (t.asyncConnect p reportsUrl).2 := by unfold asyncReportsVisit; split <;> (simp only [*])
      simp only [asyncErrandVisit, this, ar]

/-! ## Samples -/

/-- What a server says to a client with the sample key. -/
def suiteHead : Bytes := head101 .http11 (responseLines [] none sampleKey)

/-- A connection on which the server sends `bs` behind its answer, in one segment. -/
def suiteTrip (bs : Bytes) : Trip :=
  ⟨⟨fun _ _ => .ok [1], fun _ => .ok ⟨[.chunk (suiteHead ++ bs)], ⟨[], []⟩⟩, true, fun _ d => .ok d⟩, sampleKey, .ok (), fun _ => ⟨0, 0, 0, 0⟩, 0⟩

/-- A connection nobody takes. -/
def refusedTrip : Trip := { suiteTrip [] with net := ⟨fun _ _ => .ok [1], fun _ => .error .connectionReset, true, fun _ d => .ok d⟩ }

/-- Two cases; in the first the connection is refused. -/
def suiteWorld : Nat → Trip
  | 0 => suiteTrip ([0x81, 1, 50] ++ [0x88, 0])
  | 1 => refusedTrip
  | 2 => suiteTrip [0x89, 1, 7, 0x88, 0]
  | _ => suiteTrip [0x88, 0]

/-- Two cases, both served. -/
def goodWorld : Nat → Trip
  | 1 => suiteTrip [0x81, 1, 65]
  | i => suiteWorld i

theorem suiteHead_answers : Answers sampleKey (responseLines [] none sampleKey) :=
  (@C35_server_answers B64.strict sampleTaken sampleKey [] none 10 20 rfl (by decide +kernel) textCustom_none).1

theorem suiteHead_sendable : Sendable (responseLines [] none sampleKey) := by
  refine ⟨fun e he => legalLine_of ?_, by decide +kernel⟩
  revert e
  decide +kernel

theorem suiteHead_length : suiteHead.length = 129 := by decide +kernel

theorem suiteTrip_chunks (bs : Bytes) : Src.Chunks [.chunk (suiteHead ++ bs)] := by
  intro e he
  rw [List.mem_singleton.mp he]
  exact ⟨_, rfl, by intro h; have := congrArg List.length h; simp [suiteHead_length] at this⟩

theorem suiteTrip_flat (bs : Bytes) : Src.flat [.chunk (suiteHead ++ bs)] = suiteHead ++ bs := by simp [Src.flat]

/-- Every connection of the programs to a `suiteTrip` is served. -/
theorem suiteTrip_served (path : Bytes) (query : Option Bytes) (bs : Bytes) :
    Served (suiteTrip bs) (suiteUrl path query) ⟨[.chunk (suiteHead ++ bs)], ⟨[], []⟩⟩ bs :=
  ⟨rfl, ⟨_, suiteHead_answers, suiteHead_sendable, by decide +kernel, suiteTrip_flat bs⟩, suiteTrip_chunks bs, Sink.willing_of rfl, rfl⟩

theorem suiteTrip_asyncServed (path : Bytes) (query : Option Bytes) (bs : Bytes) :
    AsyncServed (suiteTrip bs) (suiteUrl path query) ⟨[.chunk (suiteHead ++ bs)], ⟨[], []⟩⟩ bs :=
  ⟨rfl, ⟨_, suiteHead_answers, suiteHead_sendable, suiteTrip_flat bs⟩,
    ⟨by intro h; have := congrArg List.length h; simp [suiteHead_length] at this, trivial⟩, Sink.patient_of rfl⟩

/-- The blocking program stops at the refused case; the async one runs the second case and asks for the reports. -/
example : (@suiteMain B64.strict resParser suiteWorld).1 = .panicked ∧ (@suiteMain B64.strict resParser suiteWorld).2.length = 2 ∧
    (@asyncSuiteMain B64.strict resParser suiteWorld).1 = .returned ∧ (@asyncSuiteMain B64.strict resParser suiteWorld).2.length = 4 := by
  decide +kernel

theorem goodWorld_count : (@countVisit B64.strict resParser (goodWorld 0)).1 = some 2 := by decide +kernel
theorem suiteWorld_count : (@countVisit B64.strict resParser (suiteWorld 0)).1 = some 2 ∧
    (@asyncCountVisit B64.strict resParser (suiteWorld 0)).1 = some 2 := by decide +kernel

/-! Concrete cases of the theorems above. -/

example : Errand.Asks (.case 17) (ascii "/runCase?case=17&agent=rust-websocket") :=
  .case (n := 17) (ds := ascii "17") (.more (n := 1) (d := 7) (by decide) (by decide) (.one (by decide)))
example := C76_requests_distinct (e := .reports) .reports .reports
example := @C76_order B64.strict resParser suiteWorld 2 suiteWorld_count.1 (by decide)
example := @C76_complete B64.strict resParser goodWorld 2 goodWorld_count (by decide) (by
  intro i e he
  rw [plan_get] at he
  split at he
  · next hi =>
    cases he
    have : ∀ i : Fin 4, (@errandVisit B64.strict resParser (goodWorld i.1) (errandAt 2 i.1)).1 = .returned := by decide +kernel
    exact this ⟨i, hi⟩
  · cases he)
example := @C76_no_number B64.strict resParser (fun _ => suiteTrip [0x81, 1, 65]) (by decide +kernel)
example : ∃ v, @suiteMain B64.strict resParser (fun _ => refusedTrip) =
    ((@reportsVisit B64.strict resParser refusedTrip).1, [v, (@reportsVisit B64.strict resParser refusedTrip).2]) :=
  (@C76_no_server B64.strict resParser fun _ => refusedTrip).1 none (.io .connectionReset) _ rfl
example := @C76_refuted_refused_case B64.strict resParser suiteWorld 2 1 suiteWorld_count.1 (by decide) (by decide) (by decide) none (.io .connectionReset) _ rfl
example := @C76_async_order B64.strict resParser suiteWorld 2 suiteWorld_count.2 (by decide)
/-- A server that announces the largest number. -/
example := (@C76_refuted_largest B64.strict resParser fun _ => suiteTrip ([0x81, 20] ++ ascii "18446744073709551615" ++ [0x88, 0])).1 (by decide +kernel)
example := (@C76_refuted_largest B64.strict resParser fun _ => suiteTrip ([0x81, 20] ++ ascii "18446744073709551615" ++ [0x88, 0])).2 (by decide +kernel)
example := @C76_case_served B64.strict resParser (suiteTrip [0x81, 1, 65]) 17 _ _ (suiteTrip_served _ _ _)
example := @C76_reports_served B64.strict resParser (suiteTrip [0x88, 0]) _ _ (suiteTrip_served _ _ _)
example := @C76_async_case_served B64.strict resParser (suiteTrip [0x81, 1, 65]) 17 _ _ (suiteTrip_asyncServed _ _ _)
example := @C76_async_count_served B64.strict resParser (suiteTrip [0x81, 1, 50]) _ _ (suiteTrip_asyncServed _ _ _)
example := @C76_async_reports_served B64.strict resParser (suiteTrip [0x88, 0]) _ _ (suiteTrip_asyncServed _ _ _)
example := @C76_where B64.strict resParser refusedTrip (.case 17)
/-- The refused connection dials the one address there is. -/
example : (@errandVisit B64.strict resParser refusedTrip (.case 17)).2.calls = [.resolve (ascii "127.0.0.1") 9001, .dial 1] := by decide +kernel
example := @C76_all_cases_partial B64.strict resParser goodWorld 2 goodWorld_count (by decide)
  (by
    intro k h1 h2
    have : k = 1 ∨ k = 2 := by omega
    rcases this with rfl | rfl
    · exact ⟨_, _, suiteTrip_served _ _ _⟩
    · exact ⟨_, _, suiteTrip_served _ _ _⟩)
  ⟨_, _, suiteTrip_served _ _ _⟩
example := @C76_count_served B64.strict resParser (suiteTrip ([0x81, 1, 0x35] ++ [0x82])) _ _ (suiteTrip_served _ _ _)
  [⟨true, false, false, false, 1, [0x35]⟩] [.text [0x35]] []
  (.final (.inl ⟨rfl, by decide, by decide⟩) rfl ⟨_, _, rfl, by decide, by decide, .text ((utf8Valid_iff _).mp (by decide +kernel))⟩ .nil) (by decide)
  [0x81, 1, 0x35] [0x82]
  (.cons (bs := [0x81, 1, 0x35]) (rest := []) (key := none) ⟨0x81, 1, 1, [], [0x35], rfl, by decide, by decide, by decide, .short (by decide), by simp, rfl⟩ rfl .nil)
  (.inr (exByte_truncated _)) 5 (.text (k := 5) ((parseUsize_iff _ _).mp (by decide +kernel)) .none) rfl

end WS
