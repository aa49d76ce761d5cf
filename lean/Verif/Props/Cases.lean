import Verif.Props.Echo
import Verif.Lemmas.Cases
/-!
# C63: the clients that drive the test suite

examples/async-autobahn-client.rs and the rest of examples/autobahn-client.rs, for every input.
-/

namespace WS
open Spec

theorem takeWhile_none {ms : List Message} (h : ∀ m ∈ ms, m.isClose = false) : ms.takeWhile (fun m => !m.isClose) = ms := by
  induction ms with
  | nil => rfl
  | cons m ms ih => simp [h m List.mem_cons_self, ih fun m hm => h m (List.mem_cons_of_mem _ hm)]

/-! ## Running a case (async) -/

/-- Whatever arrives: the loop returns without a panic and has written exactly the replies to what it heard, all of them, and a
Close unless the stream just ended. An error of the stream does not cost a reply. -/
theorem C63_case_any_input (ctx : Context) (maxDf maxMsg : Nat) (keys : Nat → Key4) (extra : Nat) (buf : Bytes) (s : Src)
    (fw : FramedWrite) (hb : fw.buf.WF) (he : fw.buf.data = []) (w : Sink) (hw : w.Patient) :
    ∃ ms x bs w', AHears (Framed.fromParts (MsgCodec.newWithLimits ctx maxDf maxMsg) buf) s ms x ∧
      asyncCaseLoop keys extra (Framed.fromParts (MsgCodec.newWithLimits ctx maxDf maxMsg) buf) s fw w = (.returned, w') ∧
      w'.wire = w.wire ++ bs ∧
      ((x = .done ∧ Says (!fw.isServer) ((ms.map OwnedMsg.spec).filterMap Message.reply) bs) ∨
       (((∃ m, x = .item m) ∨ ∃ e, x = .err e) ∧ Says (!fw.isServer) ((ms.map OwnedMsg.spec).filterMap Message.reply ++ [.close]) bs)) := by
  obtain ⟨ms, x, bs, h1, h2, h3, h4, h5⟩ := async_case_loop keys extra (Framed.fromParts (MsgCodec.newWithLimits ctx maxDf maxMsg) buf) s fw w
    (fitAsync_new ctx maxDf maxMsg) hw hb he
  refine ⟨ms, x, bs, _, h1, Prod.ext h3 rfl, h4, ?_⟩
  cases x with
  | done => exact .inl ⟨rfl, by simpa [asyncFarewell] using h5⟩
  | item m => exact .inr ⟨.inl ⟨m, rfl⟩, h5⟩
  | err e => exact .inr ⟨.inr ⟨e, rfl⟩, h5⟩
  | panic p => exact absurd rfl (h2 p)

/-- A peer that sends frames which deliver `ms`, among them a Close or after them the end of the stream (perhaps inside a frame),
gets the replies to everything before the Close, and a Close unless its stream ended between frames without one. -/
theorem C63_case_echoes (ctx : Context) (maxDf maxMsg : Nat) (frames : List Frame) (ms : List Message) (held' : List Frame)
    (hd : Delivers (FitsAsync (min maxMsg u32Max)) [] frames ms held') (hl : ∀ f ∈ frames, f.payload.length ≤ min maxDf u32Max)
    (bs x : Bytes) (hf : Wire (decide (ctx = .server)) frames bs)
    (hx : (∃ m ∈ ms, m.isClose = true) ∨ Truncated (decide (ctx = .server)) (min maxDf u32Max) x)
    (buf : Bytes) (s : Src) (hs : s.Ready) (hsx : buf ++ s.flat = bs ++ x) (keys : Nat → Key4) (extra : Nat)
    (fw : FramedWrite) (hb : fw.buf.WF) (he : fw.buf.data = []) (w : Sink) (hw : w.Patient) :
    ∃ w' out, asyncCaseLoop keys extra (Framed.fromParts (MsgCodec.newWithLimits ctx maxDf maxMsg) buf) s fw w = (.returned, w') ∧
      w'.wire = w.wire ++ out ∧
      ((∃ m ∈ ms, m.isClose = true) ∨ x ≠ [] → Says (!fw.isServer) (echoes ms) out) ∧
      ((∀ m ∈ ms, m.isClose = false) → x = [] → Says (!fw.isServer) (ms.filterMap Message.reply) out) := by
  obtain ⟨oms, y, out, w', h1, h2, h3, h4⟩ := C63_case_any_input ctx maxDf maxMsg keys extra buf s fw hb he w hw
  obtain ⟨k1, k2, k3⟩ := ahears_wire hd hl hf hs hsx hx h1
  refine ⟨w', out, h2, h3, ?_, ?_⟩
  · intro hc
    rcases h4 with ⟨rfl, -⟩ | ⟨-, h4⟩
    · by_cases hm : ∃ m ∈ ms, m.isClose = true
      · obtain ⟨m, hm⟩ := k2 hm; cases hm
      · have := k3 hm
        rcases hc with hc | hc
        · exact absurd hc hm
        · rw [if_neg hc] at this; cases this
    · rw [k1] at h4
      exact h4
  · intro hn hxe
    have hm : ¬ ∃ m ∈ ms, m.isClose = true := by
      rintro ⟨m, hm, hc⟩
      rw [hn m hm] at hc
      cases hc
    have hy := k3 hm
    rw [if_pos hxe] at hy
    rw [takeWhile_none hn] at k1
    rcases h4 with ⟨-, h4⟩ | ⟨⟨m, h⟩ | ⟨e, h⟩, -⟩
    · rw [k1] at h4; exact h4
    · rw [hy] at h; cases h
    · rw [hy] at h; cases h

/-! ## Asking for the number of cases -/

/-- `parse::<usize>` accepts exactly the decimal numbers that fit. -/
theorem C63_parse_exact (bs : Bytes) (n : Nat) : parseUsize bs = some n ↔ Number bs n := parseUsize_iff bs n

/-- Whatever arrives: either every text heard up to the Close or the error is a number, then the count is the last of them (0 if
there was none) and what was written are the pongs that were due and a Close (1002 after an error, an empty one otherwise); or
some text is not a number, then the program panics there, having written the pongs due before it. -/
theorem C63_count_any_input (mask : Bool) (maxDf maxMsg : Nat) (keys : Nat → Key4) (s : Src) (w : Writer) (hw : w.stream.Willing) :
    ∃ res w' bs, caseCountLoop keys 0 (Receiver.newWithLimits mask maxDf maxMsg) s w = (res, w') ∧ w'.stream.wire = w.stream.wire ++ bs ∧
      ((∃ ms x n, Hears (Receiver.newWithLimits mask maxDf maxMsg) s ms x ∧ LastNumber 0 (ms.map OwnedMsg.spec) n ∧ res = some n ∧
          (((∃ m, x = .ok m) ∧ Says w.sender.mask ((ms.map OwnedMsg.spec).filterMap Message.pongFor ++ [.close]) bs) ∨
           ((¬ ∃ m, x = .ok m) ∧ Says w.sender.mask ((ms.map OwnedMsg.spec).filterMap Message.pongFor ++ [.closeWith 1002 []]) bs))) ∨
       (∃ ms t k, HearsText (Receiver.newWithLimits mask maxDf maxMsg) s ms t ∧ LastNumber 0 (ms.map OwnedMsg.spec) k ∧
          (∀ n, ¬ Number t n) ∧ res = none ∧ Says w.sender.mask ((ms.map OwnedMsg.spec).filterMap Message.pongFor) bs)) := by
  rcases case_count_loop keys 0 _ s w (fit_new mask maxDf maxMsg) hw with
    ⟨ms, x, n, bs, h1, h2, h3, h4, h5⟩ | ⟨ms, t, k, bs, h1, h2, h3, h4, h5, h6⟩
  · refine ⟨_, _, bs, rfl, h4, .inl ⟨ms, x, n, h1, h2, h3, ?_⟩⟩
    cases x with
    | ok m => exact .inl ⟨⟨m, rfl⟩, h5⟩
    | _ => exact .inr ⟨(by rintro ⟨m, hm⟩; cases hm), h5⟩
  · exact ⟨_, _, bs, rfl, h5, .inr ⟨ms, t, k, h1, h2, h3, h4, h6⟩⟩

theorem lastNumber_unique {start : Nat} {ms : List Message} {m n : Nat} (h : LastNumber start ms m) (h' : LastNumber start ms n) :
    m = n := by
  induction h with
  | none => cases h'; rfl
  | text hk _ ih =>
    cases h' with
    | text hk' g => exact ih (number_unique hk' hk ▸ g)
    | other hn _ => exact absurd rfl (hn _)
  | other hn _ ih =>
    cases h' with
    | text _ _ => exact absurd rfl (hn _)
    | other _ g => exact ih g

theorem lastNumber_text {start : Nat} {ms : List Message} {n : Nat} (h : LastNumber start ms n) {t : Bytes} (ht : .text t ∈ ms) :
    ∃ k, Number t k := by
  induction h with
  | none => cases ht
  | text hk _ ih =>
    rcases List.mem_cons.mp ht with e | ht
    · cases e; exact ⟨_, hk⟩
    · exact ih ht
  | other hn _ ih =>
    rcases List.mem_cons.mp ht with e | ht
    · exact absurd e.symm (hn _)
    · exact ih ht

/-- A text that is heard is among the messages heard up to the first Close. -/
theorem hearsText_mem {r : Receiver} {s : Src} {ms oms : List OwnedMsg} {t : Bytes} {x : Res OwnedMsg} (h : HearsText r s ms t)
    (g : Hears r s oms x) : .text t ∈ oms := by
  induction ms generalizing r s oms with
  | nil =>
    have hc := h.calls
    have gc := g.calls
    simp only [Receiver.recvMany, List.length_nil, List.map_nil, List.nil_append, List.cons.injEq] at hc
    cases oms with
    | nil =>
      simp only [Receiver.recvMany, List.length_nil, List.map_nil, List.nil_append, List.cons.injEq] at gc
      rw [hc.1] at gc
      exact absurd (g.stop _ gc.1.symm) (by simp [OwnedMsg.isClose])
    | cons o oms =>
      simp only [Receiver.recvMany, List.length_cons, List.map_cons, List.cons_append, List.cons.injEq] at gc
      rw [hc.1] at gc
      rw [← Res.ok.inj gc.1]
      exact List.mem_cons_self
  | cons m ms ih =>
    have hc := h.calls
    cases hr : r.recvMessage s with
    | mk y q =>
      obtain ⟨r1, s1⟩ := q
      simp only [List.length_cons, Receiver.recvMany, hr, List.map_cons, List.cons_append, List.cons.injEq] at hc
      obtain ⟨rfl, hc⟩ := hc
      have ht : HearsText r1 s1 ms t := by
        refine ⟨?_, fun a ha => h.open_ a (List.mem_cons_of_mem _ ha)⟩
        simp only [Receiver.recvMany]
        exact hc
      cases oms with
      | nil =>
        have gc := g.calls
        simp only [Receiver.recvMany, List.length_nil, List.map_nil, List.nil_append, List.cons.injEq, hr] at gc
        exact absurd (g.stop _ gc.1.symm) (by simp [h.open_ m List.mem_cons_self])
      | cons o oms => exact List.mem_cons_of_mem _ (ih ht (g.tail hr).2)

/-- A peer whose frames deliver `ms`, every text in front of the Close a number: the count is the last of these numbers, however
the bytes are cut. -/
theorem C63_count_of_traffic (mask : Bool) (maxDf maxMsg : Nat) (frames : List Frame) (ms : List Message) (held' : List Frame)
    (hd : Delivers (FitsBlocking (min maxMsg u32Max)) [] frames ms held') (hl : ∀ f ∈ frames, f.payload.length ≤ min maxDf u32Max)
    (bs x : Bytes) (hf : Wire mask frames bs) (hx : (∃ m ∈ ms, m.isClose = true) ∨ Truncated mask (min maxDf u32Max) x)
    (n : Nat) (hn : LastNumber 0 (ms.takeWhile fun m => !m.isClose) n)
    (s : Src) (hs : s.Clean) (hsx : s.flat = bs ++ x) (keys : Nat → Key4) (w : Writer) (hw : w.stream.Willing) :
    ∃ w' out, caseCountLoop keys 0 (Receiver.newWithLimits mask maxDf maxMsg) s w = (some n, w') ∧
      w'.stream.wire = w.stream.wire ++ out ∧
      ((∃ m ∈ ms, m.isClose = true) → Says w.sender.mask ((ms.takeWhile fun m => !m.isClose).filterMap Message.pongFor ++ [.close]) out) ∧
      ((∀ m ∈ ms, m.isClose = false) → Says w.sender.mask (ms.filterMap Message.pongFor ++ [.closeWith 1002 []]) out) := by
  obtain ⟨oms, y, -, -, g, -⟩ := autobahn_loop keys _ s w (fit_new mask maxDf maxMsg) hw
  have k := hears_wire hd hl hf hs hsx hx g
  obtain ⟨res, w', out, h1, h2, ⟨qs, z, n', h3, h4, rfl, h5⟩ | ⟨qs, t, k', h3, -, h5, -⟩⟩ :=
    C63_count_any_input mask maxDf maxMsg keys s w hw
  · obtain ⟨k1, k2, k3⟩ := hears_wire hd hl hf hs hsx hx h3
    rw [k1] at h4 h5
    cases lastNumber_unique h4 hn
    refine ⟨w', out, h1, h2, fun hc => ?_, fun hc => ?_⟩
    · rcases h5 with ⟨-, h5⟩ | ⟨h5, -⟩
      · exact h5
      · exact absurd (k2 hc) h5
    · have hm : ¬ ∃ m ∈ ms, m.isClose = true := by
        rintro ⟨m, hm, h⟩
        rw [hc m hm] at h
        cases h
      rw [takeWhile_none hc] at h5
      rcases h5 with ⟨⟨m, h5⟩, -⟩ | ⟨-, h5⟩
      · rw [k3 hm] at h5; cases h5
      · exact h5
  · have : Message.text t ∈ ms.takeWhile fun m => !m.isClose := by
      rw [← k.1]
      exact List.mem_map_of_mem (f := OwnedMsg.spec) (hearsText_mem h3 g)
    obtain ⟨j, hj⟩ := lastNumber_text hn this
    exact absurd hj (h5 j)

/-- The async form looks at the first message only: it has a count exactly if that is a number. -/
theorem C63_async_count_partial (fr : Framed MsgCodec) (s : Src) (n : Nat) :
    asyncCaseCount fr s = some n ↔ ∃ t, (fr.nextMany msgDecoder 1 s).1 = [.item (.text t)] ∧ Number t n := by
  have e : (fr.nextMany msgDecoder 1 s).1 = [(fr.next msgDecoder s).1] := by simp [Framed.nextMany]
  rw [e]
  unfold asyncCaseCount
  split
  · next t _ _ h =>
    rw [h, parseUsize_iff]
    constructor
    · exact fun g => ⟨t, rfl, g⟩
    · rintro ⟨t', e, g⟩
      cases e
      exact g
  · next hne =>
    constructor
    · intro h; cases h
    · rintro ⟨t, e, -⟩
      have e := List.head_eq_of_cons_eq e
      exact (hne t (fr.next msgDecoder s).2.1 (fr.next msgDecoder s).2.2 (Prod.ext e rfl)).elim

/-- A peer that pings first makes the async client panic: its first message is no text. The blocking client answers the ping and
gets the number. -/
theorem C63_async_count_refuted_ping :
    ∃ s : Src, s.Clean ∧ s.Ready ∧ asyncCaseCount (Framed.fromParts (MsgCodec.newWithLimits .client 125 1000) []) s = none ∧
      (caseCountLoop (fun _ => ⟨1, 2, 3, 4⟩) 0 (Receiver.newWithLimits false 125 1000) s ⟨⟨[], []⟩, ⟨true⟩⟩).1 = some 517 := by
  refine ⟨[.chunk [0x89, 0, 0x81, 3, 53, 49, 55, 0x88, 0]], ?_, ?_, ?_, ?_⟩
  · exact ⟨by simp, trivial⟩
  · exact ⟨by simp, trivial⟩
  · decide +kernel
  · decide +kernel

/-! ## Asking for the reports -/

/-- Whatever arrives: the loop returns, and has written the pongs that were due and one Close. -/
theorem C63_reports_any_input (mask : Bool) (maxDf maxMsg : Nat) (keys : Nat → Key4) (s : Src) (w : Writer) (hw : w.stream.Willing) :
    ∃ ms x w' bs, Hears (Receiver.newWithLimits mask maxDf maxMsg) s ms x ∧
      reportsLoop keys (Receiver.newWithLimits mask maxDf maxMsg) s w = (.returned, w') ∧
      w'.stream.wire = w.stream.wire ++ bs ∧ Says w.sender.mask ((ms.map OwnedMsg.spec).filterMap Message.pongFor ++ [.close]) bs := by
  obtain ⟨ms, x, bs, w', h1, h2, h3, h4⟩ := reports_loop keys _ s w (fit_new mask maxDf maxMsg) hw
  exact ⟨ms, x, w', bs, h1, h2, h3, h4⟩

/-- The async form writes one Close. -/
theorem C63_async_reports (keys : Nat → Key4) (extra : Nat) (fw : FramedWrite) (hb : fw.buf.WF) (he : fw.buf.data = []) (w : Sink)
    (hw : w.Patient) :
    ∃ w' bs, asyncReports keys extra fw w = (.returned, w') ∧ w'.wire = w.wire ++ bs ∧ Says (!fw.isServer) [.close] bs := by
  obtain ⟨bs, fw', w', h1, h2, h3, -⟩ := await_says hw hb he (sendable_close _) (keys 0) extra
  refine ⟨w', bs, ?_, h2, h3⟩
  unfold asyncReports
  rw [h1]

/-- Over any transport: it returns exactly if the Close was written whole, and panics otherwise, having written a part of it. -/
theorem C63_async_reports_any_transport (keys : Nat → Key4) (extra : Nat) (fw : FramedWrite) (hb : fw.buf.WF) (he : fw.buf.data = [])
    (w : Sink) :
    ∃ bs, Says (!fw.isServer) [.close] bs ∧
      (((asyncReports keys extra fw w).1 = .returned ∧ (asyncReports keys extra fw w).2.wire = w.wire ++ bs) ∨
        ((asyncReports keys extra fw w).1 = .panicked ∧ ∃ pre, pre <+: bs ∧ (asyncReports keys extra fw w).2.wire = w.wire ++ pre)) := by
  obtain ⟨bs, h1, h2⟩ := await_any w hb he (sendable_close _) (keys 0) extra
  refine ⟨bs, h1, ?_⟩
  unfold asyncReports
  cases hx : fw.sendAwait (OwnedMsg.close none).view (keys 0) extra w with
  | mk r q =>
    rw [hx] at h2
    rcases h2 with ⟨rfl, h2⟩ | ⟨e, pre, rfl, h2, h3⟩
    · exact Or.inl ⟨rfl, h2⟩
    · exact Or.inr ⟨rfl, pre, h2, h3⟩

/-! ## Samples -/

/-- A ping, then an illegal frame in the same segment: here the ping is answered and a Close follows (the async server writes
neither, `C48_async_loses_replies`). The hypotheses hold for this transport. -/
example : let s : Src := [.chunk [0x89, 1, 7, 0x83, 0]]
    let out := asyncCaseLoop (fun _ => ⟨0, 0, 0, 0⟩) 0 (Framed.fromParts (MsgCodec.newWithLimits .client 125 1000) []) s
      (FramedWrite.new false) ⟨[], [.accept 1]⟩
    out.1 = .returned ∧ out.2.wire = [0x8a, 0x81, 0, 0, 0, 0, 7, 0x88, 0x80, 0, 0, 0, 0] := by
  decide +kernel

/-- Texts with a number, with a sign, and without a number; the largest that fits and the next. -/
example : Number (ascii "517") 517 ∧ Number (ascii "+8") 8 ∧ (∀ n, ¬ Number (ascii "-1") n) ∧ (∀ n, ¬ Number [] n) ∧
    Number (ascii "18446744073709551615") (2 ^ 64 - 1) ∧ ∀ n, ¬ Number (ascii "18446744073709551616") n := by
  simp only [← parseUsize_iff]
  refine ⟨by decide +kernel, by decide +kernel, ?_, ?_, by decide +kernel, ?_⟩
  · rw [show parseUsize (ascii "-1") = none by decide +kernel]; simp
  · rw [show parseUsize [] = none by decide +kernel]; simp
  · rw [show parseUsize (ascii "18446744073709551616") = none by decide +kernel]; simp

/-- Traffic with a number among other things. -/
example : LastNumber 0 [.ping [7], .text (ascii "5"), .binary [], .text (ascii "517")] 517 := by
  refine .other (by simp) (.text (k := 5) ?_ (.other (by simp) (.text (k := 517) ?_ .none)))
  · exact (parseUsize_iff _ _).mp (by decide +kernel)
  · exact (parseUsize_iff _ _).mp (by decide +kernel)

/-! Concrete cases of the theorems above. -/

example := fun keys extra => C63_case_any_input .client 125 1000 keys extra [0x89] [.chunk [1], .error .wouldBlock, .error .connectionReset] (FramedWrite.new false)
  (Nat.zero_le _) rfl ⟨[], [.accept 1, .error .wouldBlock]⟩ (Sink.patient_of rfl)
example := fun keys extra => C63_case_echoes .client 125 1000 _ _ _ (exDelivers _ (by decide)).2 (by decide) _ [0x82] exWire (.inr (exByte_truncated _))
  [0x01, 1] [.chunk [72, 0x89], .error .wouldBlock, .chunk [1, 7, 0x80, 1, 105, 0x82]] (by simp [Src.Ready]) rfl keys extra (FramedWrite.new false)
  (Nat.zero_le _) rfl ⟨[], [.accept 1, .error .wouldBlock]⟩ (Sink.patient_of rfl)
example := fun keys => C63_count_any_input false 125 1000 keys [.chunk [0x81, 1, 0x35, 0x89, 1], .error .connectionReset] ⟨⟨[], [.accept 1]⟩, ⟨true⟩⟩ (Sink.willing_of rfl)
example := fun keys => C63_count_of_traffic false 125 1000 [⟨true, false, false, false, 1, [0x35]⟩] [.text [0x35]] []
  (.final (.inl ⟨rfl, by decide, by decide⟩) rfl ⟨_, _, rfl, by decide, by decide, .text ((utf8Valid_iff _).mp (by decide +kernel))⟩ .nil) (by decide)
  [0x81, 1, 0x35] [0x82]
  (.cons (bs := [0x81, 1, 0x35]) (rest := []) (key := none) ⟨0x81, 1, 1, [], [0x35], rfl, by decide, by decide, by decide, .short (by decide), by simp, rfl⟩ rfl .nil)
  (.inr (exByte_truncated _)) 5 (.text (k := 5) ((parseUsize_iff _ _).mp (by decide +kernel)) .none)
  [.chunk [0x81, 1], .chunk [0x35, 0x82]] (by simp [Src.Clean]) rfl keys ⟨⟨[], [.accept 1]⟩, ⟨true⟩⟩ (Sink.willing_of rfl)
example := fun keys => C63_reports_any_input false 125 1000 keys [.chunk [0x89, 1], .error .connectionReset] ⟨⟨[], [.accept 1]⟩, ⟨true⟩⟩ (Sink.willing_of rfl)
example := fun keys extra => C63_async_reports keys extra (FramedWrite.new false) (Nat.zero_le _) rfl ⟨[], [.accept 1, .error .wouldBlock]⟩ (Sink.patient_of rfl)

end WS
