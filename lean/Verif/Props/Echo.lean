import Verif.Lemmas.Echo
/-!
# C48: the echo programs

The programs in /repo/examples that send back what they hear, for every input: whatever the peer sends and
however it is cut, and for whole connections from the request on.
-/

namespace WS
open Spec

/-! ## The loop of autobahn-server.rs and autobahn-client.rs -/

/-- Whatever arrives (legal or not, with transport errors anywhere): the loop ends without a panic, and has written
exactly the replies to the messages it heard, in order, and one Close. -/
theorem C48_autobahn_any_input (mask : Bool) (maxDf maxMsg : Nat) (keys : Nat → Key4) (s : Src) (w : Writer) (hw : w.stream.Willing) :
    ∃ ms x w' bs, Hears (Receiver.newWithLimits mask maxDf maxMsg) s ms x ∧
      autobahnLoop keys (Receiver.newWithLimits mask maxDf maxMsg) s w = (.returned, w') ∧
      w'.stream.wire = w.stream.wire ++ bs ∧ Says w.sender.mask ((ms.map OwnedMsg.spec).filterMap Message.reply ++ [.close]) bs := by
  obtain ⟨ms, x, bs, w', h1, h2, h3, h4⟩ := autobahn_loop keys _ s w (fit_new mask maxDf maxMsg) hw
  exact ⟨ms, x, w', bs, h1, h2, h3, h4⟩

/-- A peer that sends frames which deliver the messages `ms`, among them a Close or after them the end of the stream
(perhaps inside a frame), gets the echo of `ms`. -/
theorem C48_autobahn_echoes (mask : Bool) (maxDf maxMsg : Nat) (frames : List Frame) (ms : List Message) (held' : List Frame)
    (hd : Delivers (FitsBlocking (min maxMsg u32Max)) [] frames ms held') (hl : ∀ f ∈ frames, f.payload.length ≤ min maxDf u32Max)
    (bs x : Bytes) (hf : Wire mask frames bs) (hx : (∃ m ∈ ms, m.isClose = true) ∨ Truncated mask (min maxDf u32Max) x)
    (s : Src) (hs : s.Clean) (hsx : s.flat = bs ++ x) (keys : Nat → Key4) (w : Writer) (hw : w.stream.Willing) :
    ∃ w' out, autobahnLoop keys (Receiver.newWithLimits mask maxDf maxMsg) s w = (.returned, w') ∧
      w'.stream.wire = w.stream.wire ++ out ∧ Says w.sender.mask (echoes ms) out := by
  obtain ⟨oms, y, w', out, h1, h2, h3, h4⟩ := C48_autobahn_any_input mask maxDf maxMsg keys s w hw
  refine ⟨w', out, h2, h3, ?_⟩
  rw [(hears_wire hd hl hf hs hsx hx h1).1] at h4
  exact h4

/-! ## The loop of server.rs and hyper.rs -/

/-- Whatever arrives: the loop has written the replies to what it heard (a pong comes back too); it writes a Close and
returns if it heard one, and panics otherwise. -/
theorem C48_server_any_input (mask : Bool) (maxDf maxMsg : Nat) (keys : Nat → Key4) (s : Src) (w : Writer) (hw : w.stream.Willing) :
    ∃ ms x w' bs fin, Hears (Receiver.newWithLimits mask maxDf maxMsg) s ms x ∧
      serverLoop keys (Receiver.newWithLimits mask maxDf maxMsg) s w = (fin, w') ∧ w'.stream.wire = w.stream.wire ++ bs ∧
      (((∃ m, x = .ok m) ∧ fin = .returned ∧ Says w.sender.mask ((ms.map OwnedMsg.spec).filterMap Message.reflect ++ [.close]) bs) ∨
       ((¬ ∃ m, x = .ok m) ∧ fin = .panicked ∧ Says w.sender.mask ((ms.map OwnedMsg.spec).filterMap Message.reflect) bs)) := by
  obtain ⟨ms, x, bs, w', h1, h2, h3, h4⟩ := server_loop keys _ s w (fit_new mask maxDf maxMsg) hw
  refine ⟨ms, x, w', bs, (unwrapped x).1, h1, h2, h3, ?_⟩
  cases x with
  | ok m => exact .inl ⟨⟨m, rfl⟩, rfl, h4⟩
  | _ => exact .inr ⟨(by rintro ⟨m, hm⟩; cases hm), rfl, by simpa [unwrapped] using h4⟩

/-- A peer that says goodbye gets its messages back, and a Close. -/
theorem C48_server_echoes_partial (mask : Bool) (maxDf maxMsg : Nat) (frames : List Frame) (ms : List Message) (held' : List Frame)
    (hd : Delivers (FitsBlocking (min maxMsg u32Max)) [] frames ms held') (hl : ∀ f ∈ frames, f.payload.length ≤ min maxDf u32Max)
    (bs x : Bytes) (hf : Wire mask frames bs) (hx : ∃ m ∈ ms, m.isClose = true)
    (s : Src) (hs : s.Clean) (hsx : s.flat = bs ++ x) (keys : Nat → Key4) (w : Writer) (hw : w.stream.Willing) :
    ∃ w' out, serverLoop keys (Receiver.newWithLimits mask maxDf maxMsg) s w = (.returned, w') ∧
      w'.stream.wire = w.stream.wire ++ out ∧
      Says w.sender.mask ((ms.takeWhile fun m => !m.isClose).filterMap Message.reflect ++ [.close]) out := by
  obtain ⟨oms, y, w', out, fin, h1, h2, h3, h4⟩ := C48_server_any_input mask maxDf maxMsg keys s w hw
  obtain ⟨k1, k2, -⟩ := hears_wire hd hl hf hs hsx (.inl hx) h1
  rcases h4 with ⟨-, rfl, h4⟩ | ⟨hn, -⟩
  · refine ⟨w', out, h2, h3, ?_⟩
    rw [k1] at h4
    exact h4
  · exact absurd (k2 hx) hn

/-- A peer that just goes away makes the thread panic (after everything it said was answered). -/
theorem C48_server_panics_at_end (mask : Bool) (maxDf maxMsg : Nat) (frames : List Frame) (ms : List Message) (held' : List Frame)
    (hd : Delivers (FitsBlocking (min maxMsg u32Max)) [] frames ms held') (hl : ∀ f ∈ frames, f.payload.length ≤ min maxDf u32Max)
    (bs x : Bytes) (hf : Wire mask frames bs) (hn : ∀ m ∈ ms, m.isClose = false) (hx : Truncated mask (min maxDf u32Max) x)
    (s : Src) (hs : s.Clean) (hsx : s.flat = bs ++ x) (keys : Nat → Key4) (w : Writer) (hw : w.stream.Willing) :
    ∃ w' out, serverLoop keys (Receiver.newWithLimits mask maxDf maxMsg) s w = (.panicked, w') ∧
      w'.stream.wire = w.stream.wire ++ out ∧ Says w.sender.mask (ms.filterMap Message.reflect) out := by
  obtain ⟨oms, y, w', out, fin, h1, h2, h3, h4⟩ := C48_server_any_input mask maxDf maxMsg keys s w hw
  have hno : ¬ ∃ m ∈ ms, m.isClose = true := by
    rintro ⟨m, hm, hc⟩
    rw [hn m hm] at hc
    cases hc
  obtain ⟨k1, -, k3⟩ := hears_wire hd hl hf hs hsx (.inr hx) h1
  have : ms.takeWhile (fun m => !m.isClose) = ms := by
    clear hno k1 k3 hd
    induction ms with
    | nil => rfl
    | cons m ms ih => simp [hn m List.mem_cons_self, ih fun m hm => hn m (List.mem_cons_of_mem _ hm)]
  rw [this] at k1
  rcases h4 with ⟨⟨m, hm⟩, -⟩ | ⟨-, rfl, h4⟩
  · rw [k3 hno] at hm; cases hm
  · refine ⟨w', out, h2, h3, ?_⟩
    rw [k1] at h4
    exact h4

/-! ## The forwarding loop of async-autobahn-server.rs and async-server.rs -/

/-- Whatever arrives: no panic. At a Close or at the end of the stream the program has written exactly the replies to
what it heard and one Close; on an error of the stream it fails with that error, having written some first part of
the replies and no Close. -/
theorem C48_async_any_input (ctx : Context) (maxDf maxMsg : Nat) (keys : Nat → Key4) (extra : Nat) (buf : Bytes) (s : Src)
    (fw : FramedWrite) (hb : fw.buf.WF) (he : fw.buf.data = []) (w : Sink) (hw : w.Patient) :
    ∃ ms x bs, AHears (Framed.fromParts (MsgCodec.newWithLimits ctx maxDf maxMsg) buf) s ms x ∧
      Says (!fw.isServer) ((ms.map OwnedMsg.spec).filterMap Message.reply) bs ∧
      match x, forwardLoop keys extra none (Framed.fromParts (MsgCodec.newWithLimits ctx maxDf maxMsg) buf) s fw w with
      | .err e, (fin, out) => fin = .failed e ∧ ∃ sent, sent <+: bs ∧ out.wire = w.wire ++ sent
      | .panic _, _ => False
      | _, (fin, out) => fin = .returned ∧ ∃ bye, Says (!fw.isServer) [.close] bye ∧ out.wire = w.wire ++ bs ++ bye := by
  obtain ⟨ms, x, bs, h1, h2, h3⟩ := forward_loop keys extra none (Framed.fromParts (MsgCodec.newWithLimits ctx maxDf maxMsg) buf) s fw w
    (fitAsync_new ctx maxDf maxMsg) (by simp) hw hb
  refine ⟨ms, x, bs, h1, h2, ?_⟩
  rw [he, List.append_nil] at h3
  generalize forwardLoop keys extra none (Framed.fromParts (MsgCodec.newWithLimits ctx maxDf maxMsg) buf) s fw w = o at h3 ⊢
  obtain ⟨fin, out⟩ := o
  cases x with
  | err e =>
    obtain ⟨g1, ⟨sent, g2⟩, g3⟩ := h3
    refine ⟨g1, sent, ?_, g2.symm⟩
    simp only at g2 g3
    rw [← g2] at g3
    exact (List.prefix_append_right_inj _).mp g3
  | panic p => exact h3
  | item m => exact h3
  | done => exact h3

/-- A peer that sends frames which deliver `ms`, among them a Close or after them the end of the stream (between
frames), gets the echo of `ms`. -/
theorem C48_async_echoes_partial (ctx : Context) (maxDf maxMsg : Nat) (frames : List Frame) (ms : List Message) (held' : List Frame)
    (hd : Delivers (FitsAsync (min maxMsg u32Max)) [] frames ms held') (hl : ∀ f ∈ frames, f.payload.length ≤ min maxDf u32Max)
    (bs x : Bytes) (hf : Wire (decide (ctx = .server)) frames bs) (hx : (∃ m ∈ ms, m.isClose = true) ∨ x = [])
    (buf : Bytes) (s : Src) (hs : s.Ready) (hsx : buf ++ s.flat = bs ++ x) (keys : Nat → Key4) (extra : Nat)
    (fw : FramedWrite) (hb : fw.buf.WF) (he : fw.buf.data = []) (w : Sink) (hw : w.Patient) :
    ∃ w' out, forwardLoop keys extra none (Framed.fromParts (MsgCodec.newWithLimits ctx maxDf maxMsg) buf) s fw w = (.returned, w') ∧
      w'.wire = w.wire ++ out ∧ Says (!fw.isServer) (echoes ms) out := by
  obtain ⟨oms, y, out, h1, h2, h3⟩ := C48_async_any_input ctx maxDf maxMsg keys extra buf s fw hb he w hw
  have hstop : Stops (decide (ctx = .server)) (min maxDf u32Max) ms x := by
    rcases hx with h | rfl
    · exact .inl h
    · exact .inr (truncated_nil _ _)
  obtain ⟨k1, k2, k3⟩ := ahears_wire hd hl hf hs hsx hstop h1
  generalize forwardLoop keys extra none (Framed.fromParts (MsgCodec.newWithLimits ctx maxDf maxMsg) buf) s fw w = o at h3 ⊢
  obtain ⟨fin, w'⟩ := o
  have key : fin = .returned ∧ ∃ bye, Says (!fw.isServer) [.close] bye ∧ w'.wire = w.wire ++ out ++ bye := by
    by_cases hc : ∃ m ∈ ms, m.isClose = true
    · obtain ⟨m, rfl⟩ := k2 hc
      exact h3
    · have hxe : x = [] := by
        rcases hx with h | h
        · exact absurd h hc
        · exact h
      have := k3 hc
      rw [if_pos hxe] at this
      subst this
      exact h3
  obtain ⟨rfl, bye, g1, g2⟩ := key
  refine ⟨w', out ++ bye, rfl, by rw [g2, List.append_assoc], ?_⟩
  unfold echoes
  rw [← k1]
  exact Says.append h2 g1

/-- How the program ended, without the reason. -/
def Ending.failedOnly : Ending → Bool
  | .failed _ => true
  | _ => false

/-- A well-behaved start does not help when an illegal frame follows in the same segment: the ping was heard, but its
answer is never written, and the peer gets no Close. -/
theorem C48_async_loses_replies :
    ∃ (s : Src) (keys : Nat → Key4), s.Ready ∧
      (let fr := Framed.fromParts (MsgCodec.newWithLimits .server 125 1000) []
       (fr.nextMany msgDecoder 1 s).1 = [.item (.ping [7])] ∧
       (forwardLoop keys 0 none fr s (FramedWrite.new true) ⟨[], []⟩).2.wire = [] ∧
       (forwardLoop keys 0 none fr s (FramedWrite.new true) ⟨[], []⟩).1.failedOnly = true) := by
  refine ⟨[.chunk [0x89, 0x81, 1, 2, 3, 4, 6, 0x83, 0x80, 1, 2, 3, 4]], fun _ => ⟨0, 0, 0, 0⟩, ⟨by simp, trivial⟩, ?_⟩
  simp only
  rw [forward_item (m := .ping [7]) (a := .pong [7]) (by decide +kernel) rfl rfl (by decide +kernel),
    forward_err (e := .protocol "Unsupported opcode received") (by decide +kernel)]
  refine ⟨?_, ?_, ?_⟩ <;> decide +kernel

/-! ## Whole connections -/

/-- The limit both loops receive under: the builder's and the server's defaults. -/
def echoLimit : Nat := min defaultMaxDataframe u32Max

theorem wire_heard {mask : Bool} {ms : List OwnedMsg} (hm : ∀ m ∈ ms, m.spec.Sendable echoLimit) {x : Bytes}
    (hx : Wire mask (ms.map fun m => m.view.spec) x) {s : Src} (hs : s.Clean) (hf : s.flat = x) {oms : List OwnedMsg} {y : Res OwnedMsg}
    (h : Hears (Receiver.newWithLimits mask defaultMaxDataframe defaultMaxMessage) s oms y) :
    oms.map OwnedMsg.spec = (ms.map OwnedMsg.spec).takeWhile fun m => !m.isClose :=
  have hd := msgs_delivers (fits := FitsBlocking (min defaultMaxMessage u32Max)) ms hm
  (hears_wire hd.1 hd.2 hx hs (by rw [hf, List.append_nil]) (.inr (truncated_nil _ _)) h).1

/-- One connection of autobahn-server.rs, from a legal request to the end, whatever follows the request: the program
answers 101, and returns having answered everything it heard and said Close. -/
theorem C48_program_autobahn [B64] (p : ReqParser) (key : WsKey) (uri : Bytes) (lines : List (Bytes × Bytes)) (d : Duplex) (x : Bytes)
    (ha : Asks key lines) (hu : Target uri) (hs : Sendable lines) (hl : (Head (getLine uri) lines).length ≤ maxBufferSize)
    (hc : d.input.Chunks) (hf : d.input.flat = Head (getLine uri) lines ++ x) (hw : d.output.Willing) (keys : Nat → Key4) :
    ∃ out s ms y bs, autobahnServer p (.ok ()) keys d = some (.returned, out) ∧ s.Clean ∧ s.flat = x ∧
      Hears (Receiver.newWithLimits true defaultMaxDataframe defaultMaxMessage) s ms y ∧
      out.wire = d.output.wire ++ head101 .http11 (responseLines [] none key) ++ bs ∧
      Says false ((ms.map OwnedMsg.spec).filterMap Message.reply ++ [.close]) bs := by
  obtain ⟨s, w, h1, h2, h3, h4, h5, h6⟩ := autobahn_accepts p key uri lines d x ha hu hs hl hc hf hw keys
  obtain ⟨ms, y, w', bs, g1, g2, g3, g4⟩ := C48_autobahn_any_input true defaultMaxDataframe defaultMaxMessage keys s w h3
  rw [g2] at h6
  rw [h4] at g4
  exact ⟨w'.stream, s, ms, y, bs, h6, h1, h2, g1, by rw [g3, h5], g4⟩

/-- One connection of server.rs with a client that offers the protocol it wants: 101 with that protocol, a greeting, the
answers; a Close if the client said Close, a panic otherwise. -/
theorem C48_program_server [B64] (p : ReqParser) (key : WsKey) (uri : Bytes) (lines : List (Bytes × Bytes)) (d : Duplex) (x : Bytes)
    (ha : Asks key lines) (hu : Target uri) (hs : Sendable lines) (hl : (Head (getLine uri) lines).length ≤ maxBufferSize)
    (hc : d.input.Chunks) (hf : d.input.flat = Head (getLine uri) lines ++ x) (hw : d.output.Willing) (keys : Nat → Key4)
    (hp : ascii "rust-websocket" ∈ (Headers.fromRaw lines).getProtocol.getD []) :
    ∃ fin out s ms y bs, exampleServer p (.ok ()) keys d = some (fin, out) ∧ s.Clean ∧ s.flat = x ∧
      Hears (Receiver.newWithLimits true defaultMaxDataframe defaultMaxMessage) s ms y ∧
      out.wire = d.output.wire ++ head101 .http11 (responseLines [.useProtocol (ascii "rust-websocket")] none key) ++ bs ∧
      (((∃ m, y = .ok m) ∧ fin = .returned ∧
          Says false (.text (ascii "Hello") :: (ms.map OwnedMsg.spec).filterMap Message.reflect ++ [.close]) bs) ∨
       ((¬ ∃ m, y = .ok m) ∧ fin = .panicked ∧
          Says false (.text (ascii "Hello") :: (ms.map OwnedMsg.spec).filterMap Message.reflect) bs)) := by
  obtain ⟨s, w, b0, h1, h2, h3, h4, h5, h5', h6⟩ := example_accepts p key uri lines d x ha hu hs hl hc hf hw keys hp
  obtain ⟨ms, y, w', bs, fin, g1, g2, g3, g4⟩ := C48_server_any_input true defaultMaxDataframe defaultMaxMessage (fun n => keys (n + 1)) s w h3
  rw [g2] at h6
  rw [h4] at g4
  refine ⟨fin, w'.stream, s, ms, y, b0 ++ bs, h6, h1, h2, g1, by rw [g3, h5, List.append_assoc]; rfl, ?_⟩
  rcases g4 with ⟨k1, k2, k3⟩ | ⟨k1, k2, k3⟩
  · exact .inl ⟨k1, k2, Says.append (ms := [.text (ascii "Hello")]) h5' k3⟩
  · exact .inr ⟨k1, k2, Says.append (ms := [.text (ascii "Hello")]) h5' k3⟩

/-- One connection of server.rs with a client that does not offer the protocol: 400, nothing else. -/
theorem C48_program_server_refuses [B64] (p : ReqParser) (key : WsKey) (uri : Bytes) (lines : List (Bytes × Bytes)) (d : Duplex) (x : Bytes)
    (ha : Asks key lines) (hu : Target uri) (hs : Sendable lines) (hl : (Head (getLine uri) lines).length ≤ maxBufferSize)
    (hc : d.input.Chunks) (hf : d.input.flat = Head (getLine uri) lines ++ x) (hw : d.output.Willing) (keys : Nat → Key4)
    (hp : ascii "rust-websocket" ∉ (Headers.fromRaw lines).getProtocol.getD []) :
    ∃ out, exampleServer p (.ok ()) keys d = some (.returned, out) ∧
      out.wire = d.output.wire ++ ascii "HTTP/1.1 400 Bad Request\r\n\r\n" := by
  obtain ⟨u, h1, h2, h3, h4, h5, -⟩ := C35_server_takes p key uri lines d x ha hu hs hl hc hf
  have hp' : rustWebsocket ∉ u.protocols := by unfold Upgrade.protocols; rw [h2]; exact hp
  have e : (SyncUpgrade.reject u).1 = .ok () ∧ (SyncUpgrade.reject u).2.output.wire = d.output.wire ++ ascii "HTTP/1.1 400 Bad Request\r\n\r\n" := by
    have hwr : (u.addCustom none).headers.writable = true := by simp only [Upgrade.addCustom, h4]; rfl
    unfold SyncUpgrade.reject SyncUpgrade.internalReject
    rw [send_text _ _ hwr]
    unfold Upgrade.sendText
    rw [fmt_response_400]
    simp only [Upgrade.addCustom]
    rw [h2, h4, h5]
    have hb : head400 .http11 (Headers.wire []) = ascii "HTTP/1.1 400 Bad Request\r\n\r\n" := by decide +kernel
    simp only [hb]
    have hwa := writeAll_willing (ascii "HTTP/1.1 400 Bad Request\r\n\r\n") d.output hw
    have hwp := writeAll_ok (Prod.ext hwa.1 rfl)
    exact ⟨by rw [hwa.1]; rfl, hwp⟩
  unfold exampleServer serveExample
  rw [h1]
  simp only [hp', if_false]
  cases hq : SyncUpgrade.reject u with
  | mk a b =>
    rw [hq] at e
    obtain ⟨rfl, e⟩ := e
    exact ⟨b.output, rfl, e⟩

/-- One connection of autobahn-server.rs or of server.rs whose socket cannot be duplicated (`split().unwrap()`): after a legal
request the thread writes its answer, server.rs also its greeting, and panics; nothing the client says is answered. -/
theorem C48_program_no_clone [B64] (p : ReqParser) (key : WsKey) (uri : Bytes) (lines : List (Bytes × Bytes)) (d : Duplex) (x : Bytes)
    (ha : Asks key lines) (hu : Target uri) (hs : Sendable lines) (hl : (Head (getLine uri) lines).length ≤ maxBufferSize)
    (hc : d.input.Chunks) (hf : d.input.flat = Head (getLine uri) lines ++ x) (hw : d.output.Willing) (keys : Nat → Key4) (k : IoKind) :
    (∃ out, autobahnServer p (.error k) keys d = some (.panicked, out) ∧
      out.wire = d.output.wire ++ head101 .http11 (responseLines [] none key)) ∧
    (ascii "rust-websocket" ∈ (Headers.fromRaw lines).getProtocol.getD [] →
      ∃ out bs, exampleServer p (.error k) keys d = some (.panicked, out) ∧
        out.wire = d.output.wire ++ head101 .http11 (responseLines [.useProtocol (ascii "rust-websocket")] none key) ++ bs ∧
        Says false [.text (ascii "Hello")] bs) := by
  constructor
  · obtain ⟨u, c, h1, -, h2, h3, h4, h5, h6, h7, h8, -⟩ := server_reaches p key uri lines d x ha hu hs hl hc hf hw []
    have h2 : u.accept = .client c := h2
    refine ⟨c.stream.inner.output, ?_, h7⟩
    unfold autobahnServer serveAutobahn
    rw [h1]
    simp only [h2]
    rfl
  · intro hp
    obtain ⟨u, c, h1, h0, h2, h3, h4, h5, h6, h7, h8, -⟩ :=
      server_reaches p key uri lines d x ha hu hs hl hc hf hw [.useProtocol rustWebsocket]
    have h2 : SyncUpgrade.accept (Upgrade.useProtocol rustWebsocket u) = .client c := h2
    have hp' : rustWebsocket ∈ u.protocols := by unfold Upgrade.protocols; rw [h0]; exact hp
    have hsend : (OwnedMsg.text (ascii "Hello")).spec.Sendable isizeMax := ⟨(utf8Valid_iff _).mp (by decide +kernel), by decide⟩
    obtain ⟨bs, w', g1, g2, g3, g4, g5⟩ := writer_send ⟨c.stream.inner.output, c.sender⟩ h5 isize_lt hsend (keys 0)
    refine ⟨w'.stream, bs, ?_, by rw [g4]; exact congrArg (· ++ bs) h7, by rw [← h6]; exact g5⟩
    have e : c.send (OwnedMsg.text (ascii "Hello")).view (keys 0) =
        (.ok (), { c with stream := { c.stream with inner := { c.stream.inner with output := w'.stream } } }) := by
      unfold Writer.send at g1
      unfold Client.send
      generalize c.sender.send (OwnedMsg.text (ascii "Hello")).view (keys 0) c.stream.inner.output = q at g1 ⊢
      obtain ⟨a, b⟩ := q
      simp only [Prod.mk.injEq] at g1
      obtain ⟨rfl, rfl⟩ := g1
      rfl
    unfold exampleServer serveExample
    rw [h1]
    simp only [hp', if_true, h2, e]
    rfl

/-- A client program and autobahn-server.rs, joined by two byte streams cut in any way: the client hears the echo of
what it says, and a Close. -/
theorem C48_blocking_client_hears_echo [B64] (preq : ReqParser) (pres : ResParser) (url : Url) (ops : List BOp) (fresh key : WsKey)
    (cts : List Talk) (keys : Nat → Key4) (cd sd : Duplex)
    (ha : Asks key (requestLines url ops fresh))
    (hk : (((Builder.init url).run ops).buildRequest fresh).2.headers.getKey = some key)
    (hu : Target url.resource) (hs : SendableRequest url ops fresh)
    (hl : (Head (requestStart url) (requestLines url ops fresh)).length ≤ maxBufferSize)
    (hc : ∀ p ∈ said cts, p.1.spec.Sendable echoLimit)
    (hcl : ∀ p ∈ said cts, p.1.spec.Sendable (min (lastSet setsDf (100 * 2 ^ 20) ops) u32Max))
    (hcw : cd.output.Willing) (hsw : sd.output.Willing) (hc0 : cd.output.wire = []) (hs0 : sd.output.wire = [])
    (hci : cd.input.Chunks) (hsi : sd.input.Chunks)
    (hcs : sd.input.flat = (clientProgram pres fresh ((Builder.init url).run ops) cts cd).wire)
    (hsc : ∃ fin out, autobahnServer preq (.ok ()) keys sd = some (fin, out) ∧ cd.input.flat = out.wire)
    (hs' : Sendable (responseLines [] none key)) (hl' : (head101 .http11 (responseLines [] none key)).length ≤ maxBufferSize) :
    let c := clientProgram pres fresh ((Builder.init url).run ops) cts cd
    c.connected = true ∧ c.sent = ((said cts).map fun _ => true) ∧
      ∃ es : List OwnedMsg, es.map OwnedMsg.spec = echoes ((said cts).map fun p => p.1.spec) ∧ c.heard = expected es (hears cts) := by
  have hlc : echoLimit < 2 ^ 63 := Nat.lt_of_le_of_lt (Nat.min_le_right _ _) (by decide)
  obtain ⟨fin, out, ho, hsc⟩ := hsc
  refine echo_compose (req := Head (requestStart url) (requestLines url ops fresh)) (res := head101 .http11 (responseLines [] none key))
    (out := out.wire) ?_ ?_ ?_ hc hcl
  · have := client_asks pres fresh url ops cts cd hs.2 hcw hlc hc
    rwa [hc0] at this
  · intro x hx
    obtain ⟨out', s, ms, y, bs, g1, g2, g3, g4, g5, g6⟩ := C48_program_autobahn preq key url.resource (requestLines url ops fresh) sd x ha hu hs.1 hl hsi
      (by rw [hcs, hx]; rfl) hsw keys
    rw [ho] at g1
    cases g1
    refine ⟨bs, by rw [g5, hs0, List.nil_append], fun oms hom hox => ?_⟩
    rw [wire_heard hom hox g2 g3 g4] at g6
    exact g6
  · intro y hy
    have := client_end pres key fresh url ops _ cd y hs.2 (response_answers [] none key) hs' hk hl' hci (by rw [hsc, hy]) hcw cts hlc hc
    rwa [hc0] at this

/-- The same for an async client. -/
theorem C48_async_client_hears_echo [B64] (preq : ReqParser) (pres : ResParser) (url : Url) (ops : List BOp) (fresh key : WsKey)
    (cextra : Nat) (cts : List Talk) (keys : Nat → Key4) (cd sd : Duplex)
    (ha : Asks key (requestLines url ops fresh))
    (hk : (((Builder.init url).run ops).buildRequest fresh).2.headers.getKey = some key)
    (hu : Target url.resource) (hs : SendableRequest url ops fresh)
    (hl : (Head (requestStart url) (requestLines url ops fresh)).length ≤ maxBufferSize)
    (hc : ∀ p ∈ said cts, p.1.spec.Sendable echoLimit)
    (hcl : ∀ p ∈ said cts, p.1.spec.Sendable (min (lastSet setsDf (100 * 2 ^ 20) ops) u32Max))
    (hcw : cd.output.Patient) (hsw : sd.output.Willing) (hc0 : cd.output.wire = []) (hs0 : sd.output.wire = [])
    (hci : cd.input.Ready) (hsi : sd.input.Chunks)
    (hcs : sd.input.flat = (asyncClientProgram pres fresh cextra ((Builder.init url).run ops) cts cd).wire)
    (hsc : ∃ fin out, autobahnServer preq (.ok ()) keys sd = some (fin, out) ∧ cd.input.flat = out.wire)
    (hs' : Sendable (responseLines [] none key)) :
    let c := asyncClientProgram pres fresh cextra ((Builder.init url).run ops) cts cd
    c.connected = true ∧ c.sent = ((said cts).map fun _ => true) ∧
      ∃ es : List OwnedMsg, es.map OwnedMsg.spec = echoes ((said cts).map fun p => p.1.spec) ∧ c.heard = expected es (hears cts) := by
  have hlc : echoLimit < 2 ^ 63 := Nat.lt_of_le_of_lt (Nat.min_le_right _ _) (by decide)
  obtain ⟨fin, out, ho, hsc⟩ := hsc
  refine echo_compose (req := Head (requestStart url) (requestLines url ops fresh)) (res := head101 .http11 (responseLines [] none key))
    (out := out.wire) ?_ ?_ ?_ hc hcl
  · have := async_client_asks pres fresh cextra url ops cts cd hs.2 hcw hlc hc
    rwa [hc0] at this
  · intro x hx
    obtain ⟨out', s, ms, y, bs, g1, g2, g3, g4, g5, g6⟩ := C48_program_autobahn preq key url.resource (requestLines url ops fresh) sd x ha hu hs.1 hl hsi
      (by rw [hcs, hx]; rfl) hsw keys
    rw [ho] at g1
    cases g1
    refine ⟨bs, by rw [g5, hs0, List.nil_append], fun oms hom hox => ?_⟩
    rw [wire_heard hom hox g2 g3 g4] at g6
    exact g6
  · intro y hy
    have := async_client_end pres key fresh url ops _ cextra cd y hs.2 (response_answers [] none key) hs' hk hci (by rw [hsc, hy]) hcw cts hlc hc
    rwa [hc0] at this

/-- One connection of async-autobahn-server.rs, from a legal request to the end, whatever follows the request. -/
theorem C48_program_async_autobahn [B64] (p : ReqParser) (key : WsKey) (uri : Bytes) (lines : List (Bytes × Bytes)) (d : Duplex) (x : Bytes)
    (ha : Asks key lines) (hu : Target uri) (hs : Sendable lines)
    (hc : d.input.Ready) (hf : d.input.flat = Head (getLine uri) lines ++ x) (hw : d.output.Patient) (keys : Nat → Key4) (extra : Nat) :
    ∃ fin out buf s ms y bs, asyncAutobahnServer p keys extra d = some (fin, out) ∧ s.Ready ∧ buf ++ s.flat = x ∧
      AHears (Framed.fromParts (MsgCodec.newWithLimits .server defaultMaxDataframe defaultMaxMessage) buf) s ms y ∧
      Says false ((ms.map OwnedMsg.spec).filterMap Message.reply) bs ∧
      match y with
      | .err e => fin = .failed e ∧ ∃ sent, sent <+: bs ∧ out.wire = d.output.wire ++ head101 .http11 (responseLines [] none key) ++ sent
      | .panic _ => False
      | _ => fin = .returned ∧ ∃ bye, Says false [.close] bye ∧
          out.wire = d.output.wire ++ head101 .http11 (responseLines [] none key) ++ bs ++ bye := by
  obtain ⟨buf, s, fw, w, h1, h2, h3, h4, h5, h6, h7, h8⟩ := async_autobahn_accepts p key uri lines d x ha hu hs hc hf hw keys extra
  obtain ⟨ms, y, bs, g1, g2, g3⟩ := C48_async_any_input .server defaultMaxDataframe defaultMaxMessage keys extra buf s fw h4 h7 w h3
  rw [h7, List.append_nil] at h6
  rw [h5] at g2 g3
  generalize forwardLoop keys extra none (Framed.fromParts (MsgCodec.newWithLimits .server defaultMaxDataframe defaultMaxMessage) buf) s fw w = o at h8 g3
  obtain ⟨fin, out⟩ := o
  refine ⟨fin, out, buf, s, ms, y, bs, h8, h1, h2, g1, g2, ?_⟩
  rw [h6] at g3
  cases y <;> exact g3

/-- One connection of async-server.rs with a client that offers the protocol it wants: 101 with that protocol, a greeting,
the answers, a Close; if the stream fails, a beginning of the answers. -/
theorem C48_program_async_server [B64] (p : ReqParser) (key : WsKey) (uri : Bytes) (lines : List (Bytes × Bytes)) (d : Duplex) (x : Bytes)
    (ha : Asks key lines) (hu : Target uri) (hs : Sendable lines)
    (hc : d.input.Ready) (hf : d.input.flat = Head (getLine uri) lines ++ x) (hw : d.output.Patient) (keys : Nat → Key4) (extra : Nat)
    (hp : ascii "rust-websocket" ∈ (Headers.fromRaw lines).getProtocol.getD []) :
    ∃ fin out buf s ms y hi bs, asyncExampleServer p keys extra d = some (fin, out) ∧ s.Ready ∧ buf ++ s.flat = x ∧
      AHears (Framed.fromParts (MsgCodec.newWithLimits .server defaultMaxDataframe defaultMaxMessage) buf) s ms y ∧
      Says false [.text (ascii "Hello World!")] hi ∧ Says false ((ms.map OwnedMsg.spec).filterMap Message.reply) bs ∧
      match y with
      | .err e => fin = .failed e ∧ ∃ sent, sent <+: bs ∧
          out.wire = d.output.wire ++ head101 .http11 (responseLines [.useProtocol (ascii "rust-websocket")] none key) ++ hi ++ sent
      | .panic _ => False
      | _ => fin = .returned ∧ ∃ bye, Says false [.close] bye ∧
          out.wire = d.output.wire ++ head101 .http11 (responseLines [.useProtocol (ascii "rust-websocket")] none key) ++ hi ++ bs ++ bye := by
  obtain ⟨buf, s, fw, w, hi, h1, h2, h3, h4, h5, h6, h7, h8, h9⟩ := async_example_accepts p key uri lines d x ha hu hs hc hf hw keys extra hp
  obtain ⟨ms, y, bs, g1, g2, g3⟩ :=
    C48_async_any_input .server defaultMaxDataframe defaultMaxMessage (fun n => keys (n + 1)) extra buf s fw h4 h6 w h3
  rw [h5] at g2 g3
  generalize forwardLoop (fun n => keys (n + 1)) extra none
    (Framed.fromParts (MsgCodec.newWithLimits .server defaultMaxDataframe defaultMaxMessage) buf) s fw w = o at h9 g3
  obtain ⟨fin, out⟩ := o
  refine ⟨fin, out, buf, s, ms, y, hi, bs, h9, h1, h2, g1, h8, g2, ?_⟩
  rw [h7] at g3
  cases y <;> exact g3

/-- One connection of async-server.rs with a client that does not offer the protocol: 400, nothing else. -/
theorem C48_program_async_server_refuses [B64] (p : ReqParser) (key : WsKey) (uri : Bytes) (lines : List (Bytes × Bytes)) (d : Duplex) (x : Bytes)
    (ha : Asks key lines) (hu : Target uri) (hs : Sendable lines)
    (hc : d.input.Ready) (hf : d.input.flat = Head (getLine uri) lines ++ x) (hw : d.output.Patient) (keys : Nat → Key4) (extra : Nat)
    (hp : ascii "rust-websocket" ∉ (Headers.fromRaw lines).getProtocol.getD []) :
    ∃ out, asyncExampleServer p keys extra d = some (.returned, out) ∧
      out.wire = d.output.wire ++ ascii "HTTP/1.1 400 Bad Request\r\n\r\n" := by
  obtain ⟨u, h1, h2, h3, h4, h5, -⟩ := C35_async_server_takes p key uri lines d x ha hu hs (ready_iff.mp hc) hf
  have hp' : rustWebsocket ∉ u.protocols := by unfold Upgrade.protocols; rw [h2]; exact hp
  have hb : head400 .http11 (Headers.wire []) = ascii "HTTP/1.1 400 Bad Request\r\n\r\n" := by decide +kernel
  have e : (AsyncUpgrade.reject u extra).1 = .ready ∧
      (AsyncUpgrade.reject u extra).2.1.output.wire = d.output.wire ++ ascii "HTTP/1.1 400 Bad Request\r\n\r\n" := by
    have hwr : (u.addCustom none).headers.writable = true := by simp only [Upgrade.addCustom, h4]; rfl
    unfold AsyncUpgrade.reject AsyncUpgrade.internalReject
    simp only [hwr, Bool.true_eq_false, if_false]
    rw [fmt_response_400]
    simp only [Upgrade.addCustom]
    rw [h2, h4, h5, hb]
    have hwa := httpSend_patient (ascii "HTTP/1.1 400 Bad Request\r\n\r\n") extra d.output hw
    rcases httpSend_spec (ascii "HTTP/1.1 400 Bad Request\r\n\r\n") extra d.output with hsp | ⟨_, _, hsp, -⟩
    · exact ⟨hsp.1, hsp.2.1⟩
    · rw [hwa] at hsp; cases hsp
  unfold asyncExampleServer serveAsyncExample
  rw [h1]
  simp only [hp', if_false]
  cases hq : AsyncUpgrade.reject u extra with
  | mk a b =>
    rw [hq] at e
    obtain ⟨rfl, e⟩ := e
    exact ⟨b.1.output, rfl, e⟩

theorem wire_aheard {ms : List OwnedMsg} (hm : ∀ m ∈ ms, m.spec.Sendable echoLimit) {x : Bytes}
    (hx : Wire true (ms.map fun m => m.view.spec) x) {buf : Bytes} {s : Src} (hs : s.Ready) (hf : buf ++ s.flat = x) {oms : List OwnedMsg}
    {y : Item OwnedMsg}
    (h : AHears (Framed.fromParts (MsgCodec.newWithLimits .server defaultMaxDataframe defaultMaxMessage) buf) s oms y) :
    oms.map OwnedMsg.spec = ((ms.map OwnedMsg.spec).takeWhile fun m => !m.isClose) ∧ (∀ e, y ≠ .err e) := by
  have hd := msgs_delivers (fits := FitsAsync (min defaultMaxMessage u32Max)) ms hm
  have := ahears_wire (x := []) hd.1 hd.2 (ctx := .server) hx hs (by rw [hf, List.append_nil]) (.inr (truncated_nil _ _)) h
  refine ⟨this.1, ?_⟩
  rintro e rfl
  by_cases hc : ∃ m ∈ ms.map OwnedMsg.spec, m.isClose = true
  · obtain ⟨m, hm⟩ := this.2.1 hc; cases hm
  · have := this.2.2 hc; simp at this

theorem async_autobahn_serves [B64] (preq : ReqParser) (key : WsKey) (uri : Bytes) (lines : List (Bytes × Bytes)) (keys : Nat → Key4) (extra : Nat)
    (sd : Duplex) (ha : Asks key lines) (hu : Target uri) (hs : Sendable lines)
    (hsi : sd.input.Ready) (hsw : sd.output.Patient) (hs0 : sd.output.wire = []) {fin : Ending} {out : Sink}
    (ho : asyncAutobahnServer preq keys extra sd = some (fin, out)) {x : Bytes} (hx : sd.input.flat = Head (getLine uri) lines ++ x) :
    ∃ bs, out.wire = head101 .http11 (responseLines [] none key) ++ bs ∧
      ∀ ms : List OwnedMsg, (∀ m ∈ ms, m.spec.Sendable echoLimit) → Wire true (ms.map fun m => m.view.spec) x →
        Says false (echoes (ms.map OwnedMsg.spec)) bs := by
  obtain ⟨fin', out', buf, s, oms, y, bs, g1, g2, g3, g4, g5, g6⟩ := C48_program_async_autobahn preq key uri lines sd x ha hu hs hsi hx hsw keys extra
  rw [ho] at g1
  cases g1
  rw [hs0, List.nil_append] at g6
  cases y with
  | panic p => exact absurd g6 id
  | err e =>
    obtain ⟨-, sent, -, g7⟩ := g6
    exact ⟨sent, g7, fun ms hm hw => absurd rfl ((wire_aheard hm hw g2 g3 g4).2 e)⟩
  | item m =>
    obtain ⟨-, bye, g7, g8⟩ := g6
    refine ⟨bs ++ bye, by rw [g8, List.append_assoc], fun ms hm hw => ?_⟩
    rw [(wire_aheard hm hw g2 g3 g4).1] at g5
    exact Says.append g5 g7
  | done =>
    obtain ⟨-, bye, g7, g8⟩ := g6
    refine ⟨bs ++ bye, by rw [g8, List.append_assoc], fun ms hm hw => ?_⟩
    rw [(wire_aheard hm hw g2 g3 g4).1] at g5
    exact Says.append g5 g7

/-- A blocking client and async-autobahn-server.rs. -/
theorem C48_blocking_client_hears_async_echo [B64] (preq : ReqParser) (pres : ResParser) (url : Url) (ops : List BOp) (fresh key : WsKey)
    (cts : List Talk) (keys : Nat → Key4) (extra : Nat) (cd sd : Duplex)
    (ha : Asks key (requestLines url ops fresh))
    (hk : (((Builder.init url).run ops).buildRequest fresh).2.headers.getKey = some key)
    (hu : Target url.resource) (hs : SendableRequest url ops fresh)
    (hc : ∀ p ∈ said cts, p.1.spec.Sendable echoLimit)
    (hcl : ∀ p ∈ said cts, p.1.spec.Sendable (min (lastSet setsDf (100 * 2 ^ 20) ops) u32Max))
    (hcw : cd.output.Willing) (hsw : sd.output.Patient) (hc0 : cd.output.wire = []) (hs0 : sd.output.wire = [])
    (hci : cd.input.Chunks) (hsi : sd.input.Ready)
    (hcs : sd.input.flat = (clientProgram pres fresh ((Builder.init url).run ops) cts cd).wire)
    (hsc : ∃ fin out, asyncAutobahnServer preq keys extra sd = some (fin, out) ∧ cd.input.flat = out.wire)
    (hs' : Sendable (responseLines [] none key)) (hl' : (head101 .http11 (responseLines [] none key)).length ≤ maxBufferSize) :
    let c := clientProgram pres fresh ((Builder.init url).run ops) cts cd
    c.connected = true ∧ c.sent = ((said cts).map fun _ => true) ∧
      ∃ es : List OwnedMsg, es.map OwnedMsg.spec = echoes ((said cts).map fun p => p.1.spec) ∧ c.heard = expected es (hears cts) := by
  have hlc : echoLimit < 2 ^ 63 := Nat.lt_of_le_of_lt (Nat.min_le_right _ _) (by decide)
  obtain ⟨fin, out, ho, hsc⟩ := hsc
  refine echo_compose (req := Head (requestStart url) (requestLines url ops fresh)) (res := head101 .http11 (responseLines [] none key))
    (out := out.wire) ?_ ?_ ?_ hc hcl
  · have := client_asks pres fresh url ops cts cd hs.2 hcw hlc hc
    rwa [hc0] at this
  · intro x hx
    exact async_autobahn_serves preq key url.resource (requestLines url ops fresh) keys extra sd ha hu hs.1 hsi hsw hs0 ho (by rw [hcs, hx]; rfl)
  · intro y hy
    have := client_end pres key fresh url ops _ cd y hs.2 (response_answers [] none key) hs' hk hl' hci (by rw [hsc, hy]) hcw cts hlc hc
    rwa [hc0] at this

/-- An async client and async-autobahn-server.rs. -/
theorem C48_async_client_hears_async_echo [B64] (preq : ReqParser) (pres : ResParser) (url : Url) (ops : List BOp) (fresh key : WsKey)
    (cextra : Nat) (cts : List Talk) (keys : Nat → Key4) (extra : Nat) (cd sd : Duplex)
    (ha : Asks key (requestLines url ops fresh))
    (hk : (((Builder.init url).run ops).buildRequest fresh).2.headers.getKey = some key)
    (hu : Target url.resource) (hs : SendableRequest url ops fresh)
    (hc : ∀ p ∈ said cts, p.1.spec.Sendable echoLimit)
    (hcl : ∀ p ∈ said cts, p.1.spec.Sendable (min (lastSet setsDf (100 * 2 ^ 20) ops) u32Max))
    (hcw : cd.output.Patient) (hsw : sd.output.Patient) (hc0 : cd.output.wire = []) (hs0 : sd.output.wire = [])
    (hci : cd.input.Ready) (hsi : sd.input.Ready)
    (hcs : sd.input.flat = (asyncClientProgram pres fresh cextra ((Builder.init url).run ops) cts cd).wire)
    (hsc : ∃ fin out, asyncAutobahnServer preq keys extra sd = some (fin, out) ∧ cd.input.flat = out.wire)
    (hs' : Sendable (responseLines [] none key)) :
    let c := asyncClientProgram pres fresh cextra ((Builder.init url).run ops) cts cd
    c.connected = true ∧ c.sent = ((said cts).map fun _ => true) ∧
      ∃ es : List OwnedMsg, es.map OwnedMsg.spec = echoes ((said cts).map fun p => p.1.spec) ∧ c.heard = expected es (hears cts) := by
  have hlc : echoLimit < 2 ^ 63 := Nat.lt_of_le_of_lt (Nat.min_le_right _ _) (by decide)
  obtain ⟨fin, out, ho, hsc⟩ := hsc
  refine echo_compose (req := Head (requestStart url) (requestLines url ops fresh)) (res := head101 .http11 (responseLines [] none key))
    (out := out.wire) ?_ ?_ ?_ hc hcl
  · have := async_client_asks pres fresh cextra url ops cts cd hs.2 hcw hlc hc
    rwa [hc0] at this
  · intro x hx
    exact async_autobahn_serves preq key url.resource (requestLines url ops fresh) keys extra sd ha hu hs.1 hsi hsw hs0 ho (by rw [hcs, hx]; rfl)
  · intro y hy
    have := async_client_end pres key fresh url ops _ cextra cd y hs.2 (response_answers [] none key) hs' hk hci (by rw [hsc, hy]) hcw cts hlc hc
    rwa [hc0] at this

/-! ## The hypotheses are met -/

/-- A loop that hears a ping, a text in two frames with a pong between, and then half a frame. -/
example : let s : Src := [.chunk [0x89, 1], .chunk [7, 0x01, 1, 72], .error .interrupted, .chunk [0x8a, 0, 0x80, 1, 105, 0x82]]
    let (fin, w) := autobahnLoop (fun _ => ⟨1, 2, 3, 4⟩) (Receiver.newWithLimits false 125 1000) s ⟨⟨[], [.accept 1]⟩, ⟨false⟩⟩
    fin = .returned ∧ w.stream.wire = [0x8a, 1, 7, 0x81, 2, 72, 105, 0x88, 0] := by
  decide +kernel

/-- The same input, with server.rs. -/
example : let s : Src := [.chunk [0x89, 1], .chunk [7, 0x01, 1, 72], .error .interrupted, .chunk [0x8a, 0, 0x80, 1, 105, 0x82]]
    let (fin, w) := serverLoop (fun _ => ⟨1, 2, 3, 4⟩) (Receiver.newWithLimits false 125 1000) s ⟨⟨[], [.accept 1]⟩, ⟨false⟩⟩
    fin = .panicked ∧ w.stream.wire = [0x8a, 1, 7, 0x8a, 0, 0x81, 2, 72, 105] := by
  decide +kernel

/-- Frames that deliver messages, with a Close and without. -/
example : Delivers (FitsBlocking 1000) [] [exPart, exPing, exLast] [.ping [7], .text [72, 105]] [] ∧
    echoes [.ping [7], .text [72, 105], .pong [], .close, .text []] = [.pong [7], .text [72, 105], .close] :=
  ⟨(exDelivers _ (by decide)).1, rfl⟩

/-- The client pings, says "Hi" and listens four times. -/
def echoTalk : List Talk :=
  [.say (.ping [7]) ⟨1, 2, 3, 4⟩ 0, .hear, .say (.text [72, 105]) ⟨5, 6, 7, 8⟩ 0, .hear, .hear, .hear]

def echoServerSide : Duplex :=
  let bs := Head (requestStart sampleUrl) (requestLines sampleUrl sampleOps sampleKey) ++
    [0x89, 0x81, 1, 2, 3, 4, 6] ++ [0x81, 0x82, 5, 6, 7, 8, 0x4d, 0x6f]
  ⟨[.chunk (bs.take 40), .chunk ((bs.drop 40).take 150), .chunk ((bs.drop 40).drop 150)], ⟨[], [.accept 10, .error .interrupted]⟩⟩

def echoClientSide : Duplex :=
  let bs := head101 .http11 (responseLines [] none sampleKey) ++ [0x8a, 1, 7, 0x81, 2, 72, 105, 0x88, 0]
  ⟨[.chunk (bs.take 30), .chunk (bs.drop 30)], ⟨[], [.accept 1]⟩⟩

/-- A client and autobahn-server.rs whose streams fit together, and what the client hears. -/
example : let c := @clientProgram B64.strict resParser sampleKey ((Builder.init sampleUrl).run sampleOps) echoTalk echoClientSide
    echoServerSide.input.flat = c.wire ∧
      (@autobahnServer B64.strict reqParser (.ok ()) (fun _ => ⟨0, 0, 0, 0⟩) echoServerSide).map (fun p => (p.1, p.2.wire)) =
        some (.returned, echoClientSide.input.flat) ∧
      c.heard = [.message (.pong [7]), .message (.text [72, 105]), .message (.close none), .ended] := by
  decide +kernel

example : (∀ p ∈ said echoTalk, p.1.spec.Sendable echoLimit) ∧ echoes ((said echoTalk).map fun p => p.1.spec) = [.pong [7], .text [72, 105], .close] := by
  refine ⟨?_, rfl⟩
  intro p hp
  simp only [echoTalk, said, List.mem_cons, List.not_mem_nil, or_false] at hp
  rcases hp with rfl | rfl
  · exact ⟨by decide, by decide⟩
  · exact ⟨(utf8Valid_iff _).mp (by decide +kernel), by decide⟩

theorem echoTalk_sendable {n : Nat} (h : 2 ≤ n) : ∀ p ∈ said echoTalk, p.1.spec.Sendable n := by
  intro p hp
  simp only [echoTalk, said, List.mem_cons, List.not_mem_nil, or_false] at hp
  rcases hp with rfl | rfl
  · exact ⟨by decide, show 1 ≤ n by omega⟩
  · exact ⟨(utf8Valid_iff _).mp (by decide +kernel), show 2 ≤ n by omega⟩

/-- A peer that sends a text in two frames with a ping between and a Close. -/
def exBye : Frame := ⟨true, false, false, false, 8, []⟩
theorem exBye_delivers (lim : Nat) (hl : 128 ≤ lim) :
    Delivers (FitsBlocking lim) [] [exPart, exPing, exLast, exBye] [.ping [7], .text [72, 105], .close] [] ∧
    Delivers (FitsAsync lim) [] [exPart, exPing, exLast, exBye] [.ping [7], .text [72, 105], .close] [] := by
  have hp : Assembles [exPing.fragment] (.ping [7]) :=
    ⟨_, _, rfl, by decide, by decide, .ping⟩
  have hb : Assembles [exBye.fragment] .close :=
    ⟨_, _, rfl, by decide, by decide, .close⟩
  have ht : Assembles (([exPart] ++ [exLast]).map Spec.Frame.fragment) (.text [72, 105]) :=
    ⟨_, _, rfl, by decide, by decide, .text ((utf8Valid_iff _).mp (by decide +kernel))⟩
  constructor <;>
  exact .part (.inl ⟨rfl, by decide, by decide⟩) rfl
    (by simp [FitsBlocking, FitsAsync, Spec.weight, exPart]; try omega)
    (.control (by decide) (fun _ => ⟨by decide, rfl⟩) hp
      (.final (.inr ⟨by simp, rfl⟩) rfl ht (.control (by decide) (fun _ => ⟨by decide, rfl⟩) hb .nil)))
theorem exBye_wire : Wire false [exPart, exPing, exLast, exBye] [0x01, 1, 72, 0x89, 1, 7, 0x80, 1, 105, 0x88, 0] := by
  refine .cons (bs := [0x01, 1, 72]) (key := none) ⟨0x01, 1, 1, [], [72], rfl, by decide, by decide, by decide,
      .short (by decide), by simp, rfl⟩ rfl
    (.cons (bs := [0x89, 1, 7]) (key := none) ⟨0x89, 1, 1, [], [7], rfl, by decide, by decide, by decide,
      .short (by decide), by simp, rfl⟩ rfl
    (.cons (bs := [0x80, 1, 105]) (key := none) ⟨0x80, 1, 1, [], [105], rfl, by decide, by decide, by decide,
      .short (by decide), by simp, rfl⟩ rfl
    (.cons (bs := [0x88, 0]) (rest := []) (key := none) ⟨0x88, 0, 0, [], [], rfl, by decide, by decide, by decide,
      .short (by decide), by simp, rfl⟩ rfl .nil)))
/-- One byte of a frame. -/
theorem exByte_truncated (n : Nat) : Truncated false n [0x82] :=
  ⟨⟨true, false, false, false, 2, []⟩, none, [0], ⟨0x82, 0, 0, [], [], rfl, by decide, by decide, by decide, .short (by decide), by simp, rfl⟩,
    by decide, rfl, fun h => absurd h (by decide), Nat.zero_le _⟩

example := fun keys => C48_autobahn_any_input false 125 1000 keys [.chunk [0x89, 1], .error .connectionReset] ⟨⟨[], [.accept 1]⟩, ⟨true⟩⟩ (Sink.willing_of rfl)
example := fun keys => C48_autobahn_echoes false 125 1000 _ _ _ (exBye_delivers _ (by decide)).1 (by decide) _ [9, 9] exBye_wire (.inl ⟨.close, by simp, rfl⟩)
  [.chunk [0x01, 1, 72, 0x89], .chunk [1, 7, 0x80, 1, 105, 0x88, 0, 9, 9]] (by simp [Src.Clean]) rfl keys ⟨⟨[], [.accept 1]⟩, ⟨true⟩⟩ (Sink.willing_of rfl)
example := fun keys => C48_autobahn_echoes false 125 1000 _ _ _ (exDelivers _ (by decide)).1 (by decide) _ [0x82] exWire (.inr (exByte_truncated _))
  [.chunk [0x01, 1, 72, 0x89], .chunk [1, 7, 0x80, 1, 105, 0x82]] (by simp [Src.Clean]) rfl keys ⟨⟨[], [.accept 1]⟩, ⟨true⟩⟩ (Sink.willing_of rfl)
example := fun keys => C48_server_any_input false 125 1000 keys [.chunk [0x89, 1], .error .connectionReset] ⟨⟨[], [.accept 1]⟩, ⟨true⟩⟩ (Sink.willing_of rfl)
example := fun keys => C48_server_echoes_partial false 125 1000 _ _ _ (exBye_delivers _ (by decide)).1 (by decide) _ [9, 9] exBye_wire ⟨.close, by simp, rfl⟩
  [.chunk [0x01, 1, 72, 0x89], .chunk [1, 7, 0x80, 1, 105, 0x88, 0, 9, 9]] (by simp [Src.Clean]) rfl keys ⟨⟨[], [.accept 1]⟩, ⟨true⟩⟩ (Sink.willing_of rfl)
example := fun keys => C48_server_panics_at_end false 125 1000 _ _ _ (exDelivers _ (by decide)).1 (by decide) _ [0x82] exWire (by decide +kernel) (exByte_truncated _)
  [.chunk [0x01, 1, 72, 0x89], .chunk [1, 7, 0x80, 1, 105, 0x82]] (by simp [Src.Clean]) rfl keys ⟨⟨[], [.accept 1]⟩, ⟨true⟩⟩ (Sink.willing_of rfl)
example := fun keys extra => C48_async_any_input .client 125 1000 keys extra [0x89] [.chunk [1], .error .wouldBlock, .error .connectionReset] (FramedWrite.new false)
  (Nat.zero_le _) rfl ⟨[], [.accept 1, .error .wouldBlock]⟩ (Sink.patient_of rfl)
example := fun keys extra => C48_async_echoes_partial .client 125 1000 _ _ _ (exBye_delivers _ (by decide)).2 (by decide) _ [9] exBye_wire (.inl ⟨.close, by simp, rfl⟩)
  [0x01, 1] [.chunk [72, 0x89], .error .wouldBlock, .chunk [1, 7, 0x80, 1, 105, 0x88, 0, 9]] (by simp [Src.Ready]) rfl keys extra (FramedWrite.new false)
  (Nat.zero_le _) rfl ⟨[], [.accept 1, .error .wouldBlock]⟩ (Sink.patient_of rfl)
example := fun keys => @C48_program_autobahn B64.strict reqParser sampleKey sampleUrl.resource (requestLines sampleUrl sampleOps sampleKey) sampleAsked
  [0x89, 0x80, 1, 2, 3, 4] sampleAsks sampleTarget sampleSendable.1 (by decide +kernel) (Src.chunks_of (by decide +kernel)) (by decide +kernel)
  (Sink.willing_of rfl) keys
example := fun keys => @C48_program_server_refuses B64.strict reqParser sampleKey sampleUrl.resource (requestLines sampleUrl sampleOps sampleKey) sampleAsked
  [0x89, 0x80, 1, 2, 3, 4] sampleAsks sampleTarget sampleSendable.1 (by decide +kernel) (Src.chunks_of (by decide +kernel)) (by decide +kernel)
  (Sink.willing_of rfl) keys (by decide +kernel)
example := fun keys => @C48_program_async_autobahn B64.strict reqParser sampleKey sampleUrl.resource (requestLines sampleUrl sampleOps sampleKey) sampleAsked
  [0x89, 0x80, 1, 2, 3, 4] sampleAsks sampleTarget sampleSendable.1 (Src.ready_of (by decide +kernel)) (by decide +kernel)
  (Sink.patient_of rfl) keys
example := fun keys => @C48_program_async_server_refuses B64.strict reqParser sampleKey sampleUrl.resource (requestLines sampleUrl sampleOps sampleKey) sampleAsked
  [0x89, 0x80, 1, 2, 3, 4] sampleAsks sampleTarget sampleSendable.1 (Src.ready_of (by decide +kernel)) (by decide +kernel)
  (Sink.patient_of rfl) keys 0 (by decide +kernel)

/-- A client that asks for the protocol of server.rs, and what it sends. -/
def rustOps : List BOp := [.addProtocol (ascii "chat"), .addProtocol (ascii "rust-websocket")]
theorem rustAsks : Asks sampleKey (requestLines sampleUrl rustOps sampleKey) :=
  (@C35_request_asks sampleUrl rustOps sampleKey (by
    intro op ho
    simp only [rustOps, List.mem_cons, List.not_mem_nil, or_false] at ho
    rcases ho with rfl | rfl <;> exact ⟨fun k h => (nomatch h), fun v h => (nomatch h)⟩)).1
theorem rustSendable : SendableRequest sampleUrl rustOps sampleKey := by
  refine ⟨⟨fun e he => legalLine_of ?_, by decide +kernel⟩, givesText_of (by decide +kernel)⟩
  revert e
  decide +kernel
def rustAsked : Duplex :=
  let request := Head (requestStart sampleUrl) (requestLines sampleUrl rustOps sampleKey) ++ [0x89, 0x80, 1, 2, 3, 4]
  ⟨[.chunk (request.take 40), .chunk (request.drop 40)], ⟨[], [.accept 5]⟩⟩
example := fun keys => @C48_program_server B64.strict reqParser sampleKey sampleUrl.resource (requestLines sampleUrl rustOps sampleKey) rustAsked
  [0x89, 0x80, 1, 2, 3, 4] rustAsks sampleTarget rustSendable.1 (by decide +kernel) (Src.chunks_of (by decide +kernel)) (by decide +kernel)
  (Sink.willing_of rfl) keys (by decide +kernel)
example := fun keys => (@C48_program_no_clone B64.strict reqParser sampleKey sampleUrl.resource (requestLines sampleUrl rustOps sampleKey) rustAsked
  [0x89, 0x80, 1, 2, 3, 4] rustAsks sampleTarget rustSendable.1 (by decide +kernel) (Src.chunks_of (by decide +kernel)) (by decide +kernel)
  (Sink.willing_of rfl) keys .other).2 (by decide +kernel)
example := fun keys => @C48_program_async_server B64.strict reqParser sampleKey sampleUrl.resource (requestLines sampleUrl rustOps sampleKey) rustAsked
  [0x89, 0x80, 1, 2, 3, 4] rustAsks sampleTarget rustSendable.1 (Src.ready_of (by decide +kernel)) (by decide +kernel)
  (Sink.patient_of rfl) keys 0 (by decide +kernel)

theorem echoResponse : Sendable (responseLines [] none sampleKey) := by
  refine ⟨fun e he => legalLine_of ?_, by decide +kernel⟩
  revert e
  decide +kernel
/-- The result of a program that serves one connection, with its output. -/
theorem served_of {x : Option (LoopEnd × Sink)} {bs : Bytes} (h : x.map (fun p => p.2.wire) = some bs) : ∃ fin out, x = some (fin, out) ∧ bs = out.wire := by
  cases x with
  | none => cases h
  | some p => exact ⟨p.1, p.2, rfl, (Option.some.inj h).symm⟩
/-- The same two ends over transports that an async end can use. -/
def echoServerSide' : Duplex := ⟨.error .wouldBlock :: echoServerSide.input, ⟨[], [.accept 10, .error .wouldBlock]⟩⟩
def echoClientSide' : Duplex := ⟨.error .wouldBlock :: echoClientSide.input, ⟨[], [.accept 1, .error .wouldBlock]⟩⟩
example := @C48_blocking_client_hears_echo B64.strict reqParser resParser sampleUrl sampleOps sampleKey sampleKey echoTalk (fun _ => ⟨0, 0, 0, 0⟩)
  echoClientSide echoServerSide sampleAsks (@sampleHasKey B64.strict) sampleTarget sampleSendable (by decide +kernel)
  (echoTalk_sendable (by decide)) (echoTalk_sendable (by decide)) (Sink.willing_of rfl) (Sink.willing_of rfl) rfl rfl
  (Src.chunks_of (by decide +kernel)) (Src.chunks_of (by decide +kernel)) (by decide +kernel) (served_of (by decide +kernel)) echoResponse (by decide +kernel)
example := @C48_async_client_hears_echo B64.strict reqParser resParser sampleUrl sampleOps sampleKey sampleKey 0 echoTalk (fun _ => ⟨0, 0, 0, 0⟩)
  echoClientSide' echoServerSide sampleAsks (@sampleHasKey B64.strict) sampleTarget sampleSendable (by decide +kernel)
  (echoTalk_sendable (by decide)) (echoTalk_sendable (by decide)) (Sink.patient_of rfl) (Sink.willing_of rfl) rfl rfl
  (Src.ready_of (by decide +kernel)) (Src.chunks_of (by decide +kernel)) (by decide +kernel) (served_of (by decide +kernel)) echoResponse
example := @C48_blocking_client_hears_async_echo B64.strict reqParser resParser sampleUrl sampleOps sampleKey sampleKey echoTalk (fun _ => ⟨0, 0, 0, 0⟩) 0
  echoClientSide echoServerSide' sampleAsks (@sampleHasKey B64.strict) sampleTarget sampleSendable
  (echoTalk_sendable (by decide)) (echoTalk_sendable (by decide)) (Sink.willing_of rfl) (Sink.patient_of rfl) rfl rfl
  (Src.chunks_of (by decide +kernel)) (Src.ready_of (by decide +kernel)) (by decide +kernel) (served_of (by decide +kernel)) echoResponse (by decide +kernel)

end WS
