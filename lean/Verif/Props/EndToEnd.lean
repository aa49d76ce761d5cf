import Verif.Lemmas.EndToEnd
import Verif.Lemmas.Retry
import Verif.Lemmas.Agree
import Verif.Props.Receive
/-!
# Properties of a connection: C14, C25, C26, C28, C29
-/

namespace WS
open Spec (IsFrame ControlOk Wire Delivers FitsBlocking FitsAsync Assembles)

/-! ## Receiving what was sent -/

/-- Blocking reception of frames that carry whole messages. -/
theorem receive_blocking (mask : Bool) (maxDf maxMsg : Nat) (ms : List OwnedMsg)
    (h : ∀ m ∈ ms, m.spec.Sendable (min maxDf u32Max)) {bs : Bytes} (hw : Wire mask (ms.map fun m => m.view.spec) bs)
    (x : Bytes) (s : Src) (hs : s.Clean) (hx : s.flat = bs ++ x) :
    ∃ s', (Receiver.newWithLimits mask maxDf maxMsg).recvMany ms.length s =
        (ms.map Res.ok, Receiver.newWithLimits mask maxDf maxMsg, s') ∧ s'.flat = x := by
  obtain ⟨hd, hl⟩ := msgs_delivers (fits := FitsBlocking (min maxMsg u32Max)) ms h
  obtain ⟨oms, r', s', h1, h2, h3⟩ := C17_fragments_and_controls_blocking mask maxDf maxMsg _ _ _ hd hl bs x hw s hs hx
  rw [List.length_map] at h1
  obtain ⟨rfl, h4⟩ := h3 rfl
  rw [OwnedMsg.map_spec_inj h2] at h1
  exact ⟨s', h1, h4⟩

/-- Async reception of frames that carry whole messages. -/
theorem receive_async (ctx : Context) (maxDf maxMsg : Nat) (ms : List OwnedMsg)
    (h : ∀ m ∈ ms, m.spec.Sendable (min maxDf u32Max)) {bs : Bytes}
    (hw : Wire (decide (ctx = .server)) (ms.map fun m => m.view.spec) bs)
    (x buf : Bytes) (s : Src) (hs : s.Ready) (hx : buf ++ s.flat = bs ++ x) :
    ∃ fr' s', (Framed.fromParts (MsgCodec.newWithLimits ctx maxDf maxMsg) buf).nextMany msgDecoder ms.length s =
        (ms.map Item.item, fr', s') ∧ fr'.codec = MsgCodec.newWithLimits ctx maxDf maxMsg ∧ fr'.buf ++ s'.flat = x := by
  obtain ⟨hd, hl⟩ := msgs_delivers (fits := FitsAsync (min maxMsg u32Max)) ms h
  obtain ⟨oms, fr', s', h1, h2, h3⟩ := C18_fragments_and_controls_async ctx maxDf maxMsg _ _ _ hd hl bs x hw buf s hs hx
  rw [List.length_map] at h1
  obtain ⟨h4, h5⟩ := h3 rfl
  rw [OwnedMsg.map_spec_inj h2] at h1
  exact ⟨fr', s', h1, h4, h5⟩

/-! ## C14 -/

theorem message_wire (masked : Bool) (lim : Nat) (hlim : lim < 2 ^ 63) (m : OwnedMsg) (h : m.spec.Sendable lim) (key : Key4) :
    ∃ bs, m.view.encode (if masked then some key else none) = .ok bs ∧ Wire masked ([m].map fun m => m.view.spec) bs := by
  obtain ⟨bs, hb⟩ := encode_sendable h (if masked then some key else none)
  obtain ⟨k, f1, f2⟩ := encode_wire hlim h masked key hb
  refine ⟨bs, hb, ?_⟩
  have := Wire.cons f1 f2 .nil
  simpa using this

/-- C14, blocking: a sendable message is serialised without error, and the receiver of the other
role reads the same message from any segmentation of the bytes, leaving what follows. -/
theorem C14_message_survives_wire_blocking (masked : Bool) (maxDf maxMsg : Nat) (m : OwnedMsg)
    (h : m.spec.Sendable (min maxDf u32Max)) (key : Key4) :
    ∃ bs, m.view.encode (if masked then some key else none) = .ok bs ∧
      ∀ (x : Bytes) (s : Src), s.Clean → s.flat = bs ++ x → ∃ s',
        (Receiver.newWithLimits masked maxDf maxMsg).recvMessage s =
          (.ok m, Receiver.newWithLimits masked maxDf maxMsg, s') ∧ s'.flat = x := by
  obtain ⟨bs, hb, hw⟩ := message_wire masked _ (Nat.lt_of_le_of_lt (Nat.min_le_right _ _) (by decide)) m h key
  refine ⟨bs, hb, fun x s hs hx => ?_⟩
  obtain ⟨s', h1, h2⟩ := receive_blocking masked maxDf maxMsg [m] (by simpa using h) hw x s hs hx
  refine ⟨s', ?_, h2⟩
  simpa [Receiver.recvMany, Prod.ext_iff] using h1

example := C14_message_survives_wire_blocking true 125 1000 (.close (some ⟨1000, [98, 121, 101]⟩))
  ⟨(utf8Valid_iff _).mp (by decide +kernel), by decide, by decide⟩ ⟨1, 2, 3, 4⟩

/-- C14, async: the codec reads the same message from the serialised bytes. -/
theorem C14_message_survives_wire_async (ctx : Context) (maxDf maxMsg : Nat) (m : OwnedMsg)
    (h : m.spec.Sendable (min maxDf u32Max)) (key : Key4) :
    ∃ bs, m.view.encode (if ctx = .server then some key else none) = .ok bs ∧
      ∀ x : Bytes, (MsgCodec.newWithLimits ctx maxDf maxMsg).decode (bs ++ x) =
        (.ok (some m), MsgCodec.newWithLimits ctx maxDf maxMsg, x) := by
  obtain ⟨bs, hb, hw⟩ := message_wire (decide (ctx = .server)) _ (Nat.lt_of_le_of_lt (Nat.min_le_right _ _) (by decide)) m h key
  refine ⟨bs, by simpa using hb, fun x => ?_⟩
  have hc := MsgCodec.wf_new ctx maxDf maxMsg
  obtain ⟨hd, hl⟩ := msgs_delivers (fits := FitsAsync (min maxMsg u32Max)) [m] (by simpa using h)
  have hi : Incoming (FitsAsync (MsgCodec.newWithLimits ctx maxDf maxMsg).maxMsg)
      (MsgCodec.newWithLimits ctx maxDf maxMsg).df.maxDf (MsgCodec.newWithLimits ctx maxDf maxMsg).df.isServer
      (MsgCodec.newWithLimits ctx maxDf maxMsg).buffer ([m].map fun m => m.view.spec) ([m].map OwnedMsg.spec) [] bs :=
    ⟨hw, hl, hd, .inl rfl, by simp [MsgCodec.newWithLimits]⟩
  obtain ⟨fs, b, frames1, bs1, om, h1, h2, h3, h4⟩ := Incoming.step (c := (MsgCodec.newWithLimits ctx maxDf maxMsg).cfg)
    (stepOk_async _ hc.1 hc.2) hi x
  obtain ⟨rfl, rfl⟩ := h4.empty
  obtain rfl := OwnedMsg.spec_inj h3
  exact decode_msg hc h1 h2

example := C14_message_survives_wire_async .server 125 1000 (.close (some ⟨1000, [98, 121, 101]⟩))
  ⟨(utf8Valid_iff _).mp (by decide +kernel), by decide, by decide⟩ ⟨1, 2, 3, 4⟩

/-- Borrowed messages and their owned forms have the same bytes. -/
theorem Msg.encode_toOwned {m : Msg} {sm : Spec.Message} (h : m.spec = some sm) (lim : Nat) (hs : sm.Sendable lim)
    (key : Option Key4) : m.view.encode key = m.toOwned.view.encode key ∧ m.toOwned.spec = sm := by
  obtain ⟨o, c, p⟩ := m
  cases o <;> cases c <;> simp [Msg.spec] at h
  · subst h; simp [Msg.toOwned, Msg.view, OwnedMsg.view, OwnedMsg.spec, utf8Lossy_valid ((utf8Valid_iff p).mpr hs.1)]
  · subst h; exact ⟨rfl, rfl⟩
  · subst h; exact ⟨rfl, rfl⟩
  · subst h; exact ⟨rfl, rfl⟩
  · cases p with
    | nil => simp at h; subst h; refine ⟨?_, rfl⟩; rw [encode_eq, encode_eq]; rfl
    | cons a p => simp at h
  · subst h
    simp [Msg.toOwned, Msg.view, OwnedMsg.view, OwnedMsg.spec, utf8Lossy_valid ((utf8Valid_iff p).mpr hs.1)]

/-- C14 for borrowed messages (`Message`), which is what the constructors build: what the peer
reads is the same message. -/
theorem C14_borrowed_message_survives_wire (masked : Bool) (maxDf maxMsg : Nat) (m : Msg) (sm : Spec.Message)
    (hm : m.spec = some sm) (h : sm.Sendable (min maxDf u32Max)) (key : Key4) :
    ∃ bs, m.view.encode (if masked then some key else none) = .ok bs ∧
      ∀ (x : Bytes) (s : Src), s.Clean → s.flat = bs ++ x → ∃ om s', OwnedMsg.spec om = sm ∧
        (Receiver.newWithLimits masked maxDf maxMsg).recvMessage s =
          (.ok om, Receiver.newWithLimits masked maxDf maxMsg, s') ∧ s'.flat = x := by
  obtain ⟨h1, h2⟩ := Msg.encode_toOwned hm _ h (if masked then some key else none)
  obtain ⟨bs, g1, g2⟩ := C14_message_survives_wire_blocking masked maxDf maxMsg m.toOwned (by rw [h2]; exact h) key
  refine ⟨bs, h1.trans g1, fun x s hs hx => ?_⟩
  obtain ⟨s', k1, k2⟩ := g2 x s hs hx
  exact ⟨m.toOwned, s', h2, k1, k2⟩

example : (OwnedMsg.close (some ⟨1000, [98, 121, 101]⟩)).spec.Sendable (min 125 u32Max) :=
  ⟨(utf8Valid_iff _).mp (by decide +kernel), by decide, by decide⟩
example : (Msg.closeBecause 1000 [98, 121, 101]).spec = some (.closeWith 1000 [98, 121, 101]) := rfl
example : Spec.Message.Sendable 20 (.text [72, 105]) := ⟨(utf8Valid_iff _).mp (by decide +kernel), by decide⟩

/-! ## C25 -/

/-- C25: on the same bytes, however they are cut on either side, the blocking receiver and the
async stream of the same role and limits report the same messages in the same order up to the
first error, which is the same error (up to the two different names in `Spec.SameError`); if
neither runs into the message limit. The end of the stream appears as `NoDataAvailable` on the
blocking side and as the end of the stream on the async side. -/
theorem C25_blocking_and_async_agree (ctx : Context) (maxDf maxMsg n : Nat) (bs : Bytes) (hbs : bs ≠ [])
    (hmem : bs.length ≤ isizeMax) (s₁ s₂ : Src) (h₁ : s₁.Clean) (h₂ : s₂.Ready) (f₁ : s₁.flat = bs) (f₂ : s₂.flat = bs)
    (hs : Res.err msgLimitErr ∉ ((Receiver.newWithLimits (decide (ctx = .server)) maxDf maxMsg).recvMany n s₁).1)
    (ha : Item.err msgLimitErr ∉
      ((Framed.new (MsgCodec.newWithLimits ctx maxDf maxMsg)).nextMany msgDecoder n [.chunk bs]).1) :
    Spec.Agree ((Receiver.newWithLimits (decide (ctx = .server)) maxDf maxMsg).recvMany n s₁).1
      ((Framed.new (MsgCodec.newWithLimits ctx maxDf maxMsg)).nextMany msgDecoder n s₂).1 := by
  rw [C23_message_stream_chunking_partial ctx maxDf maxMsg bs hbs n ha s₂ h₂ f₂]
  have hc := MsgCodec.wf_new ctx maxDf maxMsg
  have h1 := And.left <| nextMany_oneChunk msgDecoder_chunkable n (MsgCodec.newWithLimits ctx maxDf maxMsg) hc.1 bs hbs
  have hr := Receiver.wf_new (decide (ctx = .server)) maxDf maxMsg
  obtain ⟨s', -, g2, -⟩ := recvMany_clean n _ (Nat.le_trans hr.1 (by decide)) s₁ h₁
  rw [h1] at ha ⊢
  rw [g2, f₁] at hs ⊢
  exact many_agree n [] (decide (ctx = .server)) (min maxDf u32Max) (min maxMsg u32Max) (Nat.min_le_right _ _) bs
    (by simpa using hmem) hs ha

example : let bs : Bytes := [0x01, 1, 72, 0x89, 1, 7, 0x80, 1, 105, 0x83, 0]
    Spec.Agree ((Receiver.newWithLimits false 125 1000).recvMany 4 [.chunk bs]).1
      ((Framed.new (MsgCodec.newWithLimits .client 125 1000)).nextMany msgDecoder 4
        [.chunk (bs.take 3), .error .wouldBlock, .chunk (bs.drop 3)]).1 ∧
    ((Receiver.newWithLimits false 125 1000).recvMany 2 [.chunk bs]).1 = [.ok (.ping [7]), .ok (.text [72, 105])] := by
  intro bs
  refine ⟨C25_blocking_and_async_agree .client 125 1000 4 bs (by decide) (by decide) _ _ (by simp [Src.Clean, bs])
    (by simp [Src.Ready, bs]) rfl rfl (by decide +kernel) (by decide +kernel), by decide +kernel⟩

/-! ## C26 -/

/-- C26, blocking sender to blocking receiver: if all sends of a list of messages succeeded
(whatever the transport did: short writes, interruptions), then from any segmentation of the bytes
that were put on the wire the peer receives exactly that list, and is ready for what follows. -/
theorem C26_blocking_to_blocking (x : Sender) (ms : List (OwnedMsg × Key4)) (maxDf maxMsg : Nat)
    (h : ∀ p ∈ ms, p.1.spec.Sendable (min maxDf u32Max)) (w : Sink)
    (hok : ∀ r ∈ (x.sendMany (outgoing ms) w).1, r = .ok ()) :
    ∃ bs, (x.sendMany (outgoing ms) w).2.wire = w.wire ++ bs ∧
      ∀ (rest : Bytes) (s : Src), s.Clean → s.flat = bs ++ rest → ∃ s',
        (Receiver.newWithLimits x.mask maxDf maxMsg).recvMany ms.length s =
          (ms.map fun p => .ok p.1, Receiver.newWithLimits x.mask maxDf maxMsg, s') ∧ s'.flat = rest := by
  obtain ⟨bs, h1, h2⟩ := sendMany_wire (Nat.lt_of_le_of_lt (Nat.min_le_right _ _) (by decide)) x ms h w hok
  refine ⟨bs, h1, fun rest s hs hx => ?_⟩
  obtain ⟨s', g1, g2⟩ := receive_blocking x.mask maxDf maxMsg (ms.map Prod.fst)
    (by intro m hm; obtain ⟨p, hp, rfl⟩ := List.mem_map.mp hm; exact h p hp)
    (by simpa [Function.comp_def] using h2) rest s hs hx
  refine ⟨s', ?_, g2⟩
  simpa [Function.comp_def] using g1

/-- Two messages over a transport that takes three bytes, is interrupted, takes one byte, then the rest. -/
def exSent : List (OwnedMsg × Key4) := [(.text [72, 105], ⟨1, 2, 3, 4⟩), (.ping [7], ⟨5, 6, 7, 8⟩)]
theorem exSent_sendable : ∀ p ∈ exSent, p.1.spec.Sendable (min 125 u32Max) := by
  intro p hp
  simp only [exSent, List.mem_cons, List.not_mem_nil, or_false] at hp
  rcases hp with rfl | rfl
  · exact ⟨(utf8Valid_iff _).mp (by decide +kernel), by decide⟩
  · exact ⟨by decide, by decide⟩
example := C26_blocking_to_blocking ⟨true⟩ exSent 125 1000 exSent_sendable
  ⟨[], [.accept 3, .error .interrupted, .accept 1]⟩ (by decide +kernel)

/-- C26, blocking sender to async receiver. -/
theorem C26_blocking_to_async (ctx : Context) (ms : List (OwnedMsg × Key4)) (maxDf maxMsg : Nat)
    (h : ∀ p ∈ ms, p.1.spec.Sendable (min maxDf u32Max)) (w : Sink)
    (hok : ∀ r ∈ ((Sender.mk (decide (ctx = .server))).sendMany (outgoing ms) w).1, r = .ok ()) :
    ∃ bs, ((Sender.mk (decide (ctx = .server))).sendMany (outgoing ms) w).2.wire = w.wire ++ bs ∧
      ∀ (rest buf : Bytes) (s : Src), s.Ready → buf ++ s.flat = bs ++ rest → ∃ fr' s',
        (Framed.fromParts (MsgCodec.newWithLimits ctx maxDf maxMsg) buf).nextMany msgDecoder ms.length s =
          (ms.map fun p => .item p.1, fr', s') ∧
        fr'.codec = MsgCodec.newWithLimits ctx maxDf maxMsg ∧ fr'.buf ++ s'.flat = rest := by
  obtain ⟨bs, h1, h2⟩ := sendMany_wire (Nat.lt_of_le_of_lt (Nat.min_le_right _ _) (by decide)) (.mk (decide (ctx = .server))) ms h w hok
  refine ⟨bs, h1, fun rest buf s hs hx => ?_⟩
  obtain ⟨fr', s', g1, g2⟩ := receive_async ctx maxDf maxMsg (ms.map Prod.fst)
    (by intro m hm; obtain ⟨p, hp, rfl⟩ := List.mem_map.mp hm; exact h p hp)
    (by simpa [Function.comp_def] using h2) rest buf s hs hx
  refine ⟨fr', s', ?_, g2⟩
  simpa [Function.comp_def] using g1

example := C26_blocking_to_async .server exSent 125 1000 exSent_sendable
  ⟨[], [.accept 3, .error .interrupted, .accept 1]⟩ (by decide +kernel)

/-- The bytes of an async sender: what is on the wire and in the queue carries exactly the messages
that were accepted. -/
theorem async_sent (isServer : Bool) (ops : List MsgOp) (lim : Nat) (hlim : lim < 2 ^ 63)
    (h : ∀ m key extra, MsgOp.send m key extra ∈ ops → m.spec.Sendable lim) (w : Sink) :
    ∃ bs, ((FramedWrite.new isServer).run (ops.map MsgOp.toOp) w).2.2.wire ++
        ((FramedWrite.new isServer).run (ops.map MsgOp.toOp) w).2.1.buf.data = w.wire ++ bs ∧
      Wire (!isServer) ((acceptedMsgs ops ((FramedWrite.new isServer).run (ops.map MsgOp.toOp) w).1).map fun m => m.view.spec) bs := by
  obtain ⟨h1, -⟩ := run_inv (ops.map MsgOp.toOp)
    (by intro op hop; obtain ⟨o, -, rfl⟩ := List.mem_map.mp hop; exact o.lawful) (FramedWrite.new isServer) w
    (by simp [FramedWrite.new, BytesMut.WF])
  refine ⟨_, ?_, accepted_wire hlim isServer ops _ h⟩
  rw [h1]
  simp [FramedWrite.new]

/-- C26, async sender to blocking receiver: for any sequence of sends and flushes with any
transport behaviour (including errors), once the queue is empty the bytes on the wire carry exactly
the messages whose send was accepted, and the peer receives exactly these, in order. -/
theorem C26_async_to_blocking (isServer : Bool) (ops : List MsgOp) (maxDf maxMsg : Nat)
    (h : ∀ m key extra, MsgOp.send m key extra ∈ ops → m.spec.Sendable (min maxDf u32Max)) (w : Sink)
    (hq : ((FramedWrite.new isServer).run (ops.map MsgOp.toOp) w).2.1.buf.data = []) :
    ∃ bs, ((FramedWrite.new isServer).run (ops.map MsgOp.toOp) w).2.2.wire = w.wire ++ bs ∧
      ∀ (rest : Bytes) (s : Src), s.Clean → s.flat = bs ++ rest → ∃ s',
        (Receiver.newWithLimits (!isServer) maxDf maxMsg).recvMany
            (acceptedMsgs ops ((FramedWrite.new isServer).run (ops.map MsgOp.toOp) w).1).length s =
          ((acceptedMsgs ops ((FramedWrite.new isServer).run (ops.map MsgOp.toOp) w).1).map Res.ok,
            Receiver.newWithLimits (!isServer) maxDf maxMsg, s') ∧ s'.flat = rest := by
  obtain ⟨bs, h1, h2⟩ := async_sent isServer ops (min maxDf u32Max) (Nat.lt_of_le_of_lt (Nat.min_le_right _ _) (by decide)) h w
  rw [hq, List.append_nil] at h1
  refine ⟨bs, h1, fun rest s hs hx => ?_⟩
  exact receive_blocking (!isServer) maxDf maxMsg _
    (fun m hm => by obtain ⟨k, e, hm⟩ := acceptedMsgs_mem hm; exact h m k e hm) h2 rest s hs hx

/-- An async sender that sends two messages and flushes after each. -/
def exOps : List MsgOp := [.send (.binary [1]) ⟨1, 2, 3, 4⟩ 0, .flush, .send (.binary [2]) ⟨5, 6, 7, 8⟩ 0, .flush]
theorem exOps_sendable : ∀ m key extra, MsgOp.send m key extra ∈ exOps → m.spec.Sendable (min 125 u32Max) := by
  intro m key extra h
  simp only [exOps, List.mem_cons, MsgOp.send.injEq, reduceCtorEq, List.not_mem_nil, or_false, false_or] at h
  rcases h with ⟨rfl, -⟩ | ⟨rfl, -⟩ <;> (show List.length _ ≤ _; decide)
example := C26_async_to_blocking true exOps 125 1000 exOps_sendable ⟨[], [.accept 2, .error .connectionReset]⟩ (by decide +kernel)

/-- C26, async sender to async receiver. -/
theorem C26_async_to_async (ctx : Context) (ops : List MsgOp) (maxDf maxMsg : Nat)
    (h : ∀ m key extra, MsgOp.send m key extra ∈ ops → m.spec.Sendable (min maxDf u32Max)) (w : Sink)
    (hq : ((FramedWrite.new (decide (ctx = .client))).run (ops.map MsgOp.toOp) w).2.1.buf.data = []) :
    ∃ bs, ((FramedWrite.new (decide (ctx = .client))).run (ops.map MsgOp.toOp) w).2.2.wire = w.wire ++ bs ∧
      ∀ (rest buf : Bytes) (s : Src), s.Ready → buf ++ s.flat = bs ++ rest → ∃ fr' s',
        (Framed.fromParts (MsgCodec.newWithLimits ctx maxDf maxMsg) buf).nextMany msgDecoder
            (acceptedMsgs ops ((FramedWrite.new (decide (ctx = .client))).run (ops.map MsgOp.toOp) w).1).length s =
          ((acceptedMsgs ops ((FramedWrite.new (decide (ctx = .client))).run (ops.map MsgOp.toOp) w).1).map Item.item, fr', s') ∧
        fr'.codec = MsgCodec.newWithLimits ctx maxDf maxMsg ∧ fr'.buf ++ s'.flat = rest := by
  obtain ⟨bs, h1, h2⟩ := async_sent (decide (ctx = .client)) ops (min maxDf u32Max)
    (Nat.lt_of_le_of_lt (Nat.min_le_right _ _) (by decide)) h w
  rw [hq, List.append_nil] at h1
  refine ⟨bs, h1, fun rest buf s hs hx => ?_⟩
  exact receive_async ctx maxDf maxMsg _
    (fun m hm => by obtain ⟨k, e, hm⟩ := acceptedMsgs_mem hm; exact h m k e hm)
    (by rw [show decide (ctx = .server) = !decide (ctx = .client) by cases ctx <;> rfl]; exact h2) rest buf s hs hx

example := C26_async_to_async .client exOps 125 1000 exOps_sendable ⟨[], [.accept 2, .error .connectionReset]⟩ (by decide +kernel)

/-- A transport that keeps taking bytes. -/
def Sink.Willing (w : Sink) : Prop := ∀ e ∈ w.script, e = .error .interrupted ∨ ∃ n, 0 < n ∧ e = .accept n

theorem writeAll_willing (bs : Bytes) (w : Sink) (h : w.Willing) :
    (w.writeAll bs).1 = .ok () ∧ (w.writeAll bs).2.Willing := by
  fun_induction Sink.writeAll bs w with
  | case1 w => exact ⟨rfl, h⟩
  | case2 bs _ wire => exact ⟨rfl, by simp [Sink.Willing]⟩
  | case3 bs _ wire s ih => exact ih fun e he => h e (List.mem_cons_of_mem _ he)
  | case4 bs _ wire k s hk =>
    rcases h _ List.mem_cons_self with h | ⟨n, _, h⟩
    · cases h; exact absurd rfl hk
    · cases h
  | case5 bs _ wire s =>
    rcases h _ List.mem_cons_self with h | ⟨n, h0, h⟩
    · cases h
    · cases h; simp at h0
  | case6 bs _ wire n s h0 ih => exact ih fun e he => h e (List.mem_cons_of_mem _ he)

/-- C26: sends of sendable messages over a transport that keeps taking bytes succeed. -/
theorem C26_sends_succeed (x : Sender) (ms : List (OwnedMsg × Key4)) (lim : Nat)
    (h : ∀ p ∈ ms, p.1.spec.Sendable lim) (w : Sink) (hw : w.Willing) :
    (x.sendMany (outgoing ms) w).1 = ms.map fun _ => .ok () := by
  induction ms generalizing w with
  | nil => rfl
  | cons p ms ih =>
    have ih := fun w => ih (fun q hq => h q (List.mem_cons_of_mem _ hq)) (w := w)
    obtain ⟨bs, hb⟩ := encode_sendable (h p List.mem_cons_self) (if x.mask then some p.2 else none)
    obtain ⟨h1, h2⟩ := writeAll_willing bs w hw
    have e : x.send p.1.view p.2 w = (.ok (), (w.writeAll bs).2) := by
      unfold Sender.send FrameView.writeTo
      rw [hb]
      cases hq : w.writeAll bs with
      | mk r w' => rw [hq] at h1; simp only at h1; subst h1; simp only [hq]
    simp only [outgoing, List.map_cons, Sender.sendMany, e]
    exact congrArg _ (ih _ h2)

example := C26_sends_succeed ⟨true⟩ exSent _ exSent_sendable ⟨[], [.accept 3, .error .interrupted, .accept 1]⟩
  (by simp [Sink.Willing])

/-- C26: an async flush over a transport that keeps taking bytes (and is not interrupted) empties
the queue. -/
theorem C26_flush_empties_queue (fw : FramedWrite) (w : Sink) (h : ∀ e ∈ w.script, ∃ n, 0 < n ∧ e = .accept n) :
    (fw.pollComplete w).1 = .ready ∧ (fw.pollComplete w).2.1.buf.data = [] := by
  fun_induction FramedWrite.pollComplete fw w with
  | case1 fw w h' => exact ⟨rfl, h'⟩
  | case2 fw _ wire => exact ⟨rfl, by simp [BytesMut.advance]⟩
  | case3 fw _ wire s => obtain ⟨n, _, h⟩ := h _ List.mem_cons_self; cases h
  | case4 fw _ wire k s _ => obtain ⟨n, _, h⟩ := h _ List.mem_cons_self; cases h
  | case5 fw hne wire n s h0 =>
    obtain ⟨n, h1, h⟩ := h _ List.mem_cons_self
    cases h
    have : fw.buf.data.length ≠ 0 := by simpa using hne
    omega
  | case6 fw _ wire n s h0 ih => exact ih fun e he => h e (List.mem_cons_of_mem _ he)

example : (∀ p ∈ [(OwnedMsg.text [72, 105], (⟨1, 2, 3, 4⟩ : Key4)), (.ping [7], ⟨5, 6, 7, 8⟩)],
      p.1.spec.Sendable (min 125 u32Max)) ∧
    ∀ r ∈ ((Sender.mk true).sendMany (outgoing [(.text [72, 105], ⟨1, 2, 3, 4⟩), (.ping [7], ⟨5, 6, 7, 8⟩)])
      ⟨[], [.accept 3, .error .interrupted, .accept 1]⟩).1, r = .ok () := by
  refine ⟨?_, by decide +kernel⟩
  intro p hp
  simp only [List.mem_cons, List.not_mem_nil, or_false] at hp
  rcases hp with rfl | rfl
  · exact ⟨(utf8Valid_iff _).mp (by decide +kernel), by decide⟩
  · exact ⟨by decide, by decide⟩

/-- An async sender whose transport fails once: the accepted messages all arrive. -/
example : ((FramedWrite.new true).run (exOps.map MsgOp.toOp) ⟨[], [.accept 2, .error .connectionReset]⟩).2.1.buf.data = [] ∧
    acceptedMsgs exOps ((FramedWrite.new true).run (exOps.map MsgOp.toOp) ⟨[], [.accept 2, .error .connectionReset]⟩).1 =
      [.binary [1], .binary [2]] := by
  refine ⟨by decide +kernel, by decide +kernel⟩

/-! ## C28 -/

/-- C28 is false for the blocking receiver: if the transport has no data inside a frame, the bytes
read so far are lost and the retry starts in the middle of the frame. Here the peer sends one
4-byte binary message; the receiver first reports would-block and then delivers the made-up text `"Hi"`. -/
theorem C28_refuted_blocking : ∃ s₁ s₂ : Src, s₁.Clean ∧ s₂.Clean ∧
    ((Receiver.new false).recvMany 1 (s₁ ++ s₂)).1 = [.ok (.binary [0x81, 2, 72, 105])] ∧
    ((Receiver.new false).recvMany 2 (s₁ ++ .error .wouldBlock :: s₂)).1 =
      [.err (.io .wouldBlock), .ok (.text [72, 105])] :=
  ⟨[.chunk [0x82, 4]], [.chunk [0x81, 2, 72, 105]], by simp [Src.Clean], by simp [Src.Clean], by decide +kernel,
    by decide +kernel⟩

/-- A transport that reports errors only between frames: stretches `s` of whole frames, each
followed by an error, with the frames received so far and what the user should see (`none` stands
for a reported transport error). -/
inductive Spec.Paused (fits : List Frame → Prop) (lim : Nat) (masked : Bool) :
    List Frame → List Frame → Src → List (Option Message) → List Frame → Prop
  | last {held frames s ms held' bs} (hd : Delivers fits held frames ms held') (hl : ∀ f ∈ frames, f.payload.length ≤ lim)
      (hw : Wire masked frames bs) (hs : Src.Clean s) (hf : Src.flat s = bs) :
      Paused fits lim masked held frames s (ms.map some) held'
  | pause {held frames s ms held₁ bs k frames' t rs held'} (hd : Delivers fits held frames ms held₁)
      (hl : ∀ f ∈ frames, f.payload.length ≤ lim)
      (hw : Wire masked frames bs) (hs : Src.Clean s) (hf : Src.flat s = bs) (hk : k ≠ IoKind.interrupted)
      (hr : Paused fits lim masked held₁ frames' t rs held') :
      Paused fits lim masked held (frames ++ frames') (s ++ .error k :: t) (ms.map some ++ none :: rs) held'

/-- What the user sees matches the expectation. -/
def Spec.Sees : List (Res OwnedMsg) → List (Option Spec.Message) → Prop
  | [], [] => True
  | .ok m :: xs, some sm :: rs => m.spec = sm ∧ Sees xs rs
  | .err _ :: xs, none :: rs => Sees xs rs
  | _, _ => False

theorem Spec.sees_append {xs ys : List (Res OwnedMsg)} {rs ts : List (Option Spec.Message)} (h1 : Spec.Sees xs rs)
    (h2 : Spec.Sees ys ts) : Spec.Sees (xs ++ ys) (rs ++ ts) := by
  induction xs generalizing rs with
  | nil => cases rs with
    | nil => exact h2
    | cons => simp [Spec.Sees] at h1
  | cons x xs ih =>
    cases rs with
    | nil => cases x <;> simp [Spec.Sees] at h1
    | cons r rs =>
      cases x <;> cases r <;> simp only [Spec.Sees, List.cons_append] at h1 ⊢
      · exact ⟨h1.1, ih h1.2⟩
      · exact ih h1

theorem Spec.sees_ok (oms : List OwnedMsg) : Spec.Sees (oms.map Res.ok) ((oms.map OwnedMsg.spec).map some) := by
  induction oms with
  | nil => trivial
  | cons m ms ih => exact ⟨rfl, ih⟩

theorem delivers_append {fits : List Spec.Frame → Prop} {held fs ms held₁ gs ns held'}
    (h1 : Delivers fits held fs ms held₁) (h2 : Delivers fits held₁ gs ns held') :
    Delivers fits held (fs ++ gs) (ms ++ ns) held' := by
  induction h1 with
  | nil => exact h2
  | control a b c _ ih => exact .control a b c (ih h2)
  | part a b c _ ih => exact .part a b c (ih h2)
  | final a b c _ ih => exact .final a b c (ih h2)

theorem paused_any {fits : List Spec.Frame → Prop} {lim : Nat} {masked : Bool} {held frames s rs held'}
    (h : Spec.Paused fits lim masked held frames s rs held') (r : Receiver) (hr : r.WF)
    (e1 : fits = FitsBlocking r.maxMsg) (e2 : lim = r.maxDf) (e3 : masked = r.mask)
    (b : List DataFrame) (hb : specs b = held) (hbl : ∀ f ∈ b, f.data.length ≤ u32Max) (hfit : b = [] ∨ fits held) :
    Spec.Sees (Receiver.recvMany rs.length { r with buffer := b } s).1 rs := by
  subst e1 e2 e3
  induction h generalizing b with
  | @last held frames s ms held' bs hd hl hw hs hf =>
    have hi : Incoming (FitsBlocking r.maxMsg) r.maxDf r.mask b frames ms held' bs :=
      ⟨hw, hl, hb ▸ hd, hb ▸ hfit, hbl⟩
    obtain ⟨oms, b', frames1, bs1, h1, h2, -⟩ := deliver_sync (r := { r with buffer := b }) hr hi []
    obtain ⟨s', -, g2, -⟩ := recvMany_clean ms.length { r with buffer := b } (Nat.le_trans hr.1 (by decide)) s hs
    rw [List.append_nil] at h1
    rw [hf, h1] at g2
    rw [List.length_map, g2, ← h2]
    exact Spec.sees_ok oms
  | @pause held frames s ms held₁ bs k frames' t rs held' hd hl hw hs hf hk hp ih =>
    have hi : Incoming (FitsBlocking r.maxMsg) r.maxDf r.mask b frames ms held₁ bs :=
      ⟨hw, hl, hb ▸ hd, hb ▸ hfit, hbl⟩
    obtain ⟨oms, b', h1, h2, h3, h4, h5⟩ := recvMany_stretch (r := { r with buffer := b }) hr hi s t hs hf k hk
    have hlen : (ms.map some ++ none :: rs).length = (ms.length + 1) + rs.length := by simp; omega
    rw [hlen, recvMany_add, h1]
    have : ms.map some ++ none :: rs = (ms.map some ++ [none]) ++ rs := by simp
    rw [this]
    refine Spec.sees_append (Spec.sees_append ?_ (by trivial)) (ih b' h3 h4 (h3 ▸ h5))
    rw [← h2]; exact Spec.sees_ok oms

/-- C28, blocking, what holds: if the transport reports errors (would-block, time-out, …) any
number of times but only between frames, even inside a fragmented message, then every call reports
either such an error or the next message, and the messages are exactly those of the uninterrupted
stream. Missing with respect to the full claim: errors inside a frame (where it is false, see
`C28_refuted_blocking`). -/
theorem C28_retry_at_frame_boundary_partial (mask : Bool) (maxDf maxMsg : Nat) {frames : List Spec.Frame} {s : Src}
    {rs : List (Option Spec.Message)} {held' : List Spec.Frame}
    (h : Spec.Paused (FitsBlocking (min maxMsg u32Max)) (min maxDf u32Max) mask [] frames s rs held') :
    Spec.Sees ((Receiver.newWithLimits mask maxDf maxMsg).recvMany rs.length s).1 rs ∧
    Delivers (FitsBlocking (min maxMsg u32Max)) [] frames (rs.filterMap id) held' := by
  refine ⟨paused_any h (Receiver.newWithLimits mask maxDf maxMsg) (Receiver.wf_new _ _ _) rfl rfl rfl [] rfl (by simp) (.inl rfl), ?_⟩
  generalize ([] : List Spec.Frame) = held at h
  induction h with
  | last hd => simpa [List.filterMap_map, Function.comp_def] using hd
  | pause hd _ _ _ _ _ _ ih =>
    have := delivers_append hd ih
    simpa [List.filterMap_append, List.filterMap_map, Function.comp_def] using this

example : Spec.Paused (FitsBlocking (min 1000 u32Max)) (min 125 u32Max) false [] ([exPart] ++ [exPing, exLast])
    ([.chunk [0x01], .chunk [1, 72]] ++ .error .wouldBlock :: [.chunk [0x89, 1, 7, 0x80, 1, 105]])
    ([].map some ++ none :: [Spec.Message.ping [7], .text [72, 105]].map some) [] := by
  have hd := (exDelivers (min 1000 u32Max) (by decide)).1
  cases hd with
  | control hc => simp [exPart] at hc
  | part ha hf hfit hr =>
    have hp : Wire false [exPart] [0x01, 1, 72] := by
      refine .cons (bs := [0x01, 1, 72]) (rest := []) (key := none) ⟨0x01, 1, 1, [], [72], rfl, by decide, by decide, by decide,
        .short (by decide), by simp, rfl⟩ rfl .nil
    have hq : Wire false [exPing, exLast] [0x89, 1, 7, 0x80, 1, 105] :=
      (.cons (bs := [0x89, 1, 7]) (key := none) ⟨0x89, 1, 1, [], [7], rfl, by decide, by decide, by decide,
      .short (by decide), by simp, rfl⟩ rfl
    (.cons (bs := [0x80, 1, 105]) (rest := []) (key := none) ⟨0x80, 1, 1, [], [105], rfl, by decide, by decide, by decide,
      .short (by decide), by simp, rfl⟩ rfl .nil))
    exact .pause (.part ha hf hfit .nil) (by decide) hp (by simp [Src.Clean]) rfl (by decide)
      (.last hr (by decide) hq (by simp [Src.Clean]) rfl)
  | final _ hf => simp [exPart] at hf

/-- C28, async: for every decoder, stream state and transport, "not ready" answers anywhere —
inside a frame or a message — change nothing: the items and the final stream state are those of
the transport without them. -/
theorem C28_async_not_ready_transparent {σ α : Type} (dec : Decoder σ α) (fr : Framed σ) (n : Nat) (s : Src) :
    (fr.nextMany dec n s).1 = (fr.nextMany dec n (s.filter fun e => decide (e ≠ .error .wouldBlock))).1 ∧
    (fr.nextMany dec n s).2.1 = (fr.nextMany dec n (s.filter fun e => decide (e ≠ .error .wouldBlock))).2.1 := by
  have := nextMany_strip (dec := dec) n s fr
  unfold Src.strip at this
  rw [this]
  exact ⟨rfl, rfl⟩

example : ((Framed.new (MsgCodec.newWithLimits .client 125 1000)).nextMany msgDecoder 2
    [.chunk [0x81], .error .wouldBlock, .chunk [2, 72], .error .wouldBlock, .error .wouldBlock, .chunk [105]]).1 =
    [.item (.text [72, 105]), .done] := by decide +kernel

/-! ## C29 -/

/-- The bytes of a frame if the encoder accepts it; a refused frame has none. -/
def encoding (masked : Bool) (p : FrameView × Key4) : Bytes :=
  match p.1.encode (if masked then some p.2 else none) with
  | .ok bs => bs
  | _ => []

/-- The send failed although the frame could be encoded: the transport failed. -/
def TransportFailed (masked : Bool) (p : FrameView × Key4) (r : Res Unit) : Prop :=
  r ≠ .ok () ∧ ∃ bs, p.1.encode (if masked then some p.2 else none) = .ok bs

/-- C29, blocking: as long as the transport did not fail, the wire holds exactly the encodings of
the frames in order (refused frames leave no trace); the next send adds its whole encoding if it
succeeds, nothing if it is refused, and a prefix of its encoding if the transport fails. Whatever
happens, bytes already on the wire stay. -/
theorem C29_blocking_prefix_partial (x : Sender) (vs : List (FrameView × Key4)) (w : Sink)
    (h : ∀ p ∈ vs.zip (x.sendMany vs w).1, ¬ TransportFailed x.mask p.1 p.2) :
    (x.sendMany vs w).2.wire = w.wire ++ vs.flatMap (encoding x.mask) ∧
    ∀ (v : FrameView) (key : Key4),
      let res := x.send v key (x.sendMany vs w).2
      (res.1 = .ok () → res.2.wire = w.wire ++ (vs ++ [(v, key)]).flatMap (encoding x.mask)) ∧
      (res.1 ≠ .ok () → ∃ pre, pre <+: encoding x.mask (v, key) ∧
        res.2.wire = w.wire ++ vs.flatMap (encoding x.mask) ++ pre) := by
  have h0 : (x.sendMany vs w).2.wire = w.wire ++ vs.flatMap (encoding x.mask) := by
    induction vs generalizing w with
    | nil => simp [Sender.sendMany]
    | cons p vs ih =>
      simp only [Sender.sendMany, List.zip_cons_cons, List.mem_cons, forall_eq_or_imp] at h ⊢
      obtain ⟨h1, h2⟩ := h
      rw [ih _ h2]
      rcases send_wire x p.1 p.2 w with ⟨b, w', a1, a2, a3⟩ | ⟨e, a1, a2⟩ | ⟨bs, _, k, w', a1, a2, _⟩
      · simp [a2, a3, encoding, a1]
      · simp [a2, encoding, a1]
      · exact absurd ⟨by rw [a2]; simp, bs, a1⟩ h1
  refine ⟨h0, fun v key => ?_⟩
  simp only
  rw [← h0]
  rcases send_wire x v key (x.sendMany vs w).2 with ⟨b, w', a1, a2, a3⟩ | ⟨e, a1, a2⟩ | ⟨bs, pre, k, w', a1, a2, a3, a4⟩
  · refine ⟨fun _ => ?_, fun hne => absurd (by rw [a2]) hne⟩
    rw [a2]
    simp only [a3, h0, List.flatMap_append, List.flatMap_cons, List.flatMap_nil, List.append_nil, encoding, a1, List.append_assoc]
  · refine ⟨fun hok => ?_, fun _ => ⟨[], List.nil_prefix, by rw [a2]; simp⟩⟩
    rw [a2] at hok; simp at hok
  · refine ⟨fun hok => ?_, fun _ => ⟨pre, by simpa [encoding, a1] using a3, by rw [a2]; exact a4⟩⟩
    rw [a2] at hok; simp at hok

example := C29_blocking_prefix_partial ⟨true⟩ [((OwnedMsg.text [72]).view, ⟨1, 2, 3, 4⟩)] ⟨[], [.accept 3]⟩ (by
  have h : ((Sender.mk true).sendMany [((OwnedMsg.text [72]).view, ⟨1, 2, 3, 4⟩)] ⟨[], [.accept 3]⟩).1 = [.ok ()] := by
    decide +kernel
  rw [h]
  intro p hp
  simp only [List.zip_cons_cons, List.zip_nil_right, List.mem_singleton] at hp
  subst hp
  exact fun h => h.1 rfl)

/-- C29 fails for a caller of the blocking API who goes on after a transport failure: the wire then
holds the first bytes of one frame followed by another frame, which is not a prefix of the
encodings of any sequence of the frames. -/
theorem C29_refuted_after_failure : ∃ (x : Sender) (v₁ v₂ : FrameView × Key4) (w : Sink),
    (x.sendMany [v₁, v₂] w).1 = [.err (.io .other), .ok ()] ∧
    ¬ (x.sendMany [v₁, v₂] w).2.wire <+: [v₁, v₂].flatMap (encoding x.mask) ∧
    ¬ (x.sendMany [v₁, v₂] w).2.wire <+: [v₂, v₁].flatMap (encoding x.mask) :=
  ⟨⟨false⟩, ((OwnedMsg.binary [1, 2, 3]).view, ⟨0, 0, 0, 0⟩), ((OwnedMsg.text [72]).view, ⟨0, 0, 0, 0⟩),
    ⟨[], [.accept 3, .error .other]⟩, by decide +kernel, by decide +kernel, by decide +kernel⟩

/-- The frames whose `start_send` was answered `Ready`. -/
def acceptedFrames : List SinkOp → List SendRes → List (FrameView × Key4)
  | .send v key _ :: ops, .ready :: rs => (v, key) :: acceptedFrames ops rs
  | _ :: ops, _ :: rs => acceptedFrames ops rs
  | _, _ => []

theorem accepted_eq (isServer : Bool) (ops : List SinkOp) (rs : List SendRes) :
    accepted isServer ops rs = (acceptedFrames ops rs).flatMap (encoding (!isServer)) := by
  fun_induction acceptedFrames ops rs with
  | case1 v key extra ops rs ih =>
    simp only [accepted, ih, SinkOp.adds, List.flatMap_cons, encoding]
    cases isServer <;> rfl
  | case2 op ops r rs hne ih =>
    have : op.adds isServer r = [] := by
      cases op with
      | flush => cases r <;> rfl
      | send v key extra =>
        cases r with
        | ready => exact absurd rfl (hne v key extra rfl)
        | _ => rfl
    simp only [accepted, this, ih, List.nil_append]
  | case3 ops rs h1 h2 =>
    cases ops with
    | nil => rfl
    | cons op ops => cases rs with
      | nil => rfl
      | cons r rs => exact absurd rfl (h2 op ops r rs rfl)

/-- C29, async: for every sequence of sends and flushes, every transport behaviour and failure
point, and a caller who may go on after failures: the wire followed by the queue is exactly the
encodings of the accepted frames, in order; nothing on the wire is ever changed; a flush that
reports success has emptied the queue; nothing panics. -/
theorem C29_async_queue_order (fw : FramedWrite) (hfw : fw.buf.WF) (ops : List SinkOp)
    (hops : ∀ v key extra, SinkOp.send v key extra ∈ ops → v.Lawful) (w : Sink) :
    let res := fw.run ops w
    res.2.2.wire ++ res.2.1.buf.data =
      w.wire ++ fw.buf.data ++ (acceptedFrames ops res.1).flatMap (encoding (!fw.isServer)) ∧
    w.wire <+: res.2.2.wire ∧
    (∀ e, SendRes.panic e ∉ res.1) ∧
    ((res.2.1.pollComplete res.2.2).1 = .ready →
      (res.2.1.pollComplete res.2.2).2.2.wire =
        w.wire ++ fw.buf.data ++ (acceptedFrames ops res.1).flatMap (encoding (!fw.isServer))) := by
  have hl : ∀ op ∈ ops, op.Lawful := by
    intro op hop
    cases op with
    | send v key extra => exact hops v key extra hop
    | flush => trivial
  obtain ⟨h1, h2, -, h4, h5⟩ := run_inv ops hl fw w hfw
  rw [accepted_eq] at h1
  refine ⟨h1, h4, h5, fun hr => ?_⟩
  obtain ⟨a, b, c, d, e, -⟩ := pollComplete_inv _ (fw.run ops w).2.2 h2
  rw [e hr, List.append_nil] at a
  rw [a, h1]

example : (FramedWrite.new true).buf.WF ∧ (∀ v key extra, SinkOp.send v key extra ∈ exOps.map MsgOp.toOp → v.Lawful) := by
  refine ⟨by simp [FramedWrite.new, BytesMut.WF], ?_⟩
  intro v key extra h
  obtain ⟨o, -, ho⟩ := List.mem_map.mp h
  cases o with
  | send m => simp only [MsgOp.toOp, SinkOp.send.injEq] at ho; rw [← ho.1]; exact m.lawful
  | flush => simp [MsgOp.toOp] at ho

example : ∀ p ∈ [((OwnedMsg.text [72]).view, (⟨1, 2, 3, 4⟩ : Key4))].zip
    ((Sender.mk true).sendMany [((OwnedMsg.text [72]).view, ⟨1, 2, 3, 4⟩)] ⟨[], [.accept 3]⟩).1,
    ¬ TransportFailed true p.1 p.2 := by
  intro p hp
  have : ((Sender.mk true).sendMany [((OwnedMsg.text [72]).view, ⟨1, 2, 3, 4⟩)] ⟨[], [.accept 3]⟩).1 = [.ok ()] := by decide +kernel
  rw [this] at hp
  simp only [List.zip_cons_cons, List.zip_nil_right, List.mem_singleton] at hp
  subst hp
  exact fun h => h.1 rfl

end WS
