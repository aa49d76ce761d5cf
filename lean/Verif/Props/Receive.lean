import Verif.Lemmas.Many
import Verif.Props.Frame
/-!
# Properties of receiving messages: C17–C19, C22–C24, C27

The statements use the frame-stream specification `Spec.Delivers`, transports as scripts, and
sequences of `recv_message` calls (`Receiver.recvMany`) or awaited stream items
(`Framed.nextMany`).
-/

namespace WS
open Spec (IsFrame ControlOk Wire Delivers FitsBlocking FitsAsync Assembles)

/-! ## Examples used for non-vacuity -/

/-- First fragment of the text `"Hi"`. -/
def exPart : Spec.Frame := ⟨false, false, false, false, 1, [72]⟩
/-- A ping that arrives in between. -/
def exPing : Spec.Frame := ⟨true, false, false, false, 9, [7]⟩
/-- Last fragment. -/
def exLast : Spec.Frame := ⟨true, false, false, false, 0, [105]⟩

theorem exDelivers (lim : Nat) (hl : 128 ≤ lim) :
    Delivers (FitsBlocking lim) [] [exPart, exPing, exLast] [.ping [7], .text [72, 105]] [] ∧
    Delivers (FitsAsync lim) [] [exPart, exPing, exLast] [.ping [7], .text [72, 105]] [] := by
  have hp : Assembles [exPing.fragment] (.ping [7]) :=
    ⟨_, _, rfl, by decide, by decide, .ping⟩
  have ht : Assembles (([exPart] ++ [exLast]).map Spec.Frame.fragment) (.text [72, 105]) :=
    ⟨_, _, rfl, by decide, by decide, .text ((utf8Valid_iff _).mp (by decide +kernel))⟩
  constructor <;>
  exact .part (.inl ⟨rfl, by decide, by decide⟩) rfl
    (by simp [FitsBlocking, FitsAsync, Spec.weight, exPart]; try omega)
    (.control (by decide) (fun _ => ⟨by decide, rfl⟩) hp
      (.final (.inr ⟨by simp, rfl⟩) rfl ht .nil))

theorem exWire : Wire false [exPart, exPing, exLast] [0x01, 1, 72, 0x89, 1, 7, 0x80, 1, 105] := by
  refine .cons (bs := [0x01, 1, 72]) (key := none) ⟨0x01, 1, 1, [], [72], rfl, by decide, by decide, by decide,
      .short (by decide), by simp, rfl⟩ rfl
    (.cons (bs := [0x89, 1, 7]) (key := none) ⟨0x89, 1, 1, [], [7], rfl, by decide, by decide, by decide,
      .short (by decide), by simp, rfl⟩ rfl
    (.cons (bs := [0x80, 1, 105]) (rest := []) (key := none) ⟨0x80, 1, 1, [], [105], rfl, by decide, by decide, by decide,
      .short (by decide), by simp, rfl⟩ rfl .nil))

/-! ## C17 -/

/-- C17: whatever the segmentation, if the bytes that arrive are a stream of frames that by the
specification delivers `ms` (fragmented messages with control messages in between, within the
limits), then successive `recv_message` calls on a new receiver return exactly `ms` in order; if
the stream stopped at a message boundary the receiver is as new and nothing beyond was consumed. -/
theorem C17_fragments_and_controls_blocking (mask : Bool) (maxDf maxMsg : Nat) (frames : List Spec.Frame)
    (ms : List Spec.Message) (held' : List Spec.Frame)
    (hd : Delivers (FitsBlocking (min maxMsg u32Max)) [] frames ms held')
    (hl : ∀ f ∈ frames, f.payload.length ≤ min maxDf u32Max)
    (bs x : Bytes) (hw : Wire mask frames bs) (s : Src) (hs : s.Clean) (hx : s.flat = bs ++ x) :
    ∃ (oms : List OwnedMsg) (r' : Receiver) (s' : Src),
      (Receiver.newWithLimits mask maxDf maxMsg).recvMany ms.length s = (oms.map Res.ok, r', s') ∧
      oms.map OwnedMsg.spec = ms ∧
      (held' = [] → r' = Receiver.newWithLimits mask maxDf maxMsg ∧ s'.flat = x) := by
  have hr := Receiver.wf_new mask maxDf maxMsg
  have hi : Incoming (FitsBlocking (Receiver.newWithLimits mask maxDf maxMsg).maxMsg)
      (Receiver.newWithLimits mask maxDf maxMsg).maxDf (Receiver.newWithLimits mask maxDf maxMsg).mask
      (Receiver.newWithLimits mask maxDf maxMsg).buffer frames ms held' bs :=
    ⟨hw, hl, hd, .inl rfl, by simp [Receiver.newWithLimits]⟩
  obtain ⟨oms, b, frames1, bs1, h1, h2, h3⟩ := deliver_sync hr hi x
  obtain ⟨s', g1, g2, g3⟩ := recvMany_clean ms.length _ (Nat.le_trans hr.1 (by decide)) s hs
  rw [hx, h1] at g2 g3
  refine ⟨oms, _, s', g2, h2, ?_⟩
  rintro rfl
  obtain ⟨rfl, rfl⟩ := h3.empty
  exact ⟨rfl, g3⟩

/-- C17 from any state in which an unfinished message is already held. -/
theorem C17_fragments_and_controls_any_state (r : Receiver) (hr : r.WF) (frames : List Spec.Frame)
    (ms : List Spec.Message) (held' : List Spec.Frame)
    (hheld : r.buffer = [] ∨ FitsBlocking r.maxMsg (r.buffer.map DataFrame.spec))
    (hbl : ∀ f ∈ r.buffer, f.data.length ≤ r.maxDf)
    (hd : Delivers (FitsBlocking r.maxMsg) (r.buffer.map DataFrame.spec) frames ms held')
    (hl : ∀ f ∈ frames, f.payload.length ≤ r.maxDf)
    (bs x : Bytes) (hw : Wire r.mask frames bs) (s : Src) (hs : s.Clean) (hx : s.flat = bs ++ x) :
    ∃ (oms : List OwnedMsg) (r' : Receiver) (s' : Src),
      r.recvMany ms.length s = (oms.map Res.ok, r', s') ∧ oms.map OwnedMsg.spec = ms ∧
      (held' = [] → r' = { r with buffer := [] } ∧ s'.flat = x) := by
  have hi : Incoming (FitsBlocking r.maxMsg) r.maxDf r.mask r.buffer frames ms held' bs :=
    ⟨hw, hl, hd, hheld, fun f hf => Nat.le_trans (hbl f hf) hr.1⟩
  obtain ⟨oms, b, frames1, bs1, h1, h2, h3⟩ := deliver_sync hr hi x
  obtain ⟨s', g1, g2, g3⟩ := recvMany_clean ms.length _ (Nat.le_trans hr.1 (by decide)) s hs
  rw [hx, h1] at g2 g3
  refine ⟨oms, _, s', g2, h2, ?_⟩
  rintro rfl
  obtain ⟨rfl, rfl⟩ := h3.empty
  exact ⟨rfl, g3⟩

example : ∃ (oms : List OwnedMsg) (r' : Receiver) (s' : Src),
    (Receiver.newWithLimits false 125 1000).recvMany 2
      [.chunk [0x01], .error .interrupted, .chunk [1, 72, 0x89], .chunk [1, 7, 0x80, 1, 105, 99]] =
      (oms.map Res.ok, r', s') ∧ oms.map OwnedMsg.spec = [.ping [7], .text [72, 105]] ∧
    (([] : List Spec.Frame) = [] → r' = Receiver.newWithLimits false 125 1000 ∧ s'.flat = [99]) :=
  C17_fragments_and_controls_blocking false 125 1000 _ [.ping [7], .text [72, 105]] [] (exDelivers _ (by decide)).1
    (by decide) _ [99] exWire _ (by simp [Src.Clean]) rfl

/-! ## C18 -/

/-- C18: the same for the async stream, for any chunks, any "not ready" points, and any part of
the bytes already in the read buffer when the stream is created. -/
theorem C18_fragments_and_controls_async (ctx : Context) (maxDf maxMsg : Nat) (frames : List Spec.Frame)
    (ms : List Spec.Message) (held' : List Spec.Frame)
    (hd : Delivers (FitsAsync (min maxMsg u32Max)) [] frames ms held')
    (hl : ∀ f ∈ frames, f.payload.length ≤ min maxDf u32Max)
    (bs x : Bytes) (hw : Wire (decide (ctx = .server)) frames bs) (buf : Bytes) (s : Src) (hs : s.Ready)
    (hx : buf ++ s.flat = bs ++ x) :
    ∃ (oms : List OwnedMsg) (fr' : Framed MsgCodec) (s' : Src),
      (Framed.fromParts (MsgCodec.newWithLimits ctx maxDf maxMsg) buf).nextMany msgDecoder ms.length s =
        (oms.map Item.item, fr', s') ∧
      oms.map OwnedMsg.spec = ms ∧
      (held' = [] → fr'.codec = MsgCodec.newWithLimits ctx maxDf maxMsg ∧ fr'.buf ++ s'.flat = x) := by
  have hc := MsgCodec.wf_new ctx maxDf maxMsg
  have hi : Incoming (FitsAsync (MsgCodec.newWithLimits ctx maxDf maxMsg).maxMsg)
      (MsgCodec.newWithLimits ctx maxDf maxMsg).df.maxDf (MsgCodec.newWithLimits ctx maxDf maxMsg).df.isServer
      (MsgCodec.newWithLimits ctx maxDf maxMsg).buffer frames ms held' bs :=
    ⟨hw, hl, hd, .inl rfl, by simp [MsgCodec.newWithLimits]⟩
  obtain ⟨oms, b, frames1, bs1, h1, h2, h3, h4⟩ := deliver_async hc hi x
  have hbuf : (Framed.fromParts (MsgCodec.newWithLimits ctx maxDf maxMsg) buf).buf ++ s.flat = bs ++ x := hx
  obtain ⟨xs, fr', s', g1, g2, g3, g4⟩ := nextMany_spec msgDecoder_chunkable ms.length s
    (Framed.fromParts (MsgCodec.newWithLimits ctx maxDf maxMsg) buf) (msg_live_new _ hc buf s hs) hc.1
    (by rw [hbuf]; exact h4)
  rw [hbuf] at g4
  have g5 := h1.symm.trans g4
  simp only [Prod.mk.injEq] at g5
  obtain ⟨rfl, e1, e2⟩ := g5
  refine ⟨oms, fr', s', g1, h2, ?_⟩
  rintro rfl
  obtain ⟨rfl, rfl⟩ := h3.empty
  exact ⟨e1.symm, e2.symm⟩

example : ∃ (oms : List OwnedMsg) (fr' : Framed MsgCodec) (s' : Src),
    (Framed.fromParts (MsgCodec.newWithLimits .client 125 1000) [0x01, 1]).nextMany msgDecoder 2
      [.chunk [72, 0x89], .error .wouldBlock, .chunk [1, 7, 0x80, 1, 105, 99]] =
      (oms.map Item.item, fr', s') ∧ oms.map OwnedMsg.spec = [.ping [7], .text [72, 105]] ∧
    (([] : List Spec.Frame) = [] → fr'.codec = MsgCodec.newWithLimits .client 125 1000 ∧ fr'.buf ++ s'.flat = [99]) :=
  C18_fragments_and_controls_async .client 125 1000 _ [.ping [7], .text [72, 105]] [] (exDelivers _ (by decide)).2
    (by decide) _ [99] exWire _ _ (by simp [Src.Ready]) rfl

/-! ## C19 -/

/-- A frame that may not come now: a continuation with no message in progress, or a new data frame
inside an unfinished message. -/
def Spec.Illegal (held : Bool) (f : Spec.Frame) : Prop :=
  (held = false ∧ f.opcode = 0) ∨ (held = true ∧ 1 ≤ f.opcode ∧ f.opcode ≤ 7)

/-- The error text for each of the two cases. -/
def illegalError (held : Bool) : WsErr :=
  if held then .protocol "Unexpected data frame opcode" else .protocol "Unexpected continuation data frame opcode"

theorem illegal_sync (maxMsg : Nat) (buffer : List DataFrame) (cur : Nat) (f : DataFrame)
    (h : Spec.Illegal (decide (buffer ≠ [])) f.spec) :
    syncStep maxMsg buffer cur f = .fail (illegalError (decide (buffer ≠ []))) buffer := by
  have hop : f.spec.opcode = f.opcode.toU8.toNat := rfl
  unfold syncStep
  rcases h with ⟨h1, h2⟩ | ⟨h1, h2, h3⟩
  · have hb : buffer = [] := by simpa using h1
    subst hb
    have : f.opcode = .continuation := by
      have := opcode_new_toU8 f.opcode
      rw [show f.opcode.toU8 = 0 from u8_eq_of_toNat h2] at this
      exact (Option.some.inj this).symm
    rw [if_pos rfl, if_pos this]; rfl
  · have hb : buffer ≠ [] := by simpa using h1
    rw [hop] at h2 h3
    rw [if_neg hb, if_neg (by intro h; rw [h] at h2; simp at h2),
      if_neg (by intro h; have := UInt8.le_iff_toNat_le.mp h.1; simp at this; omega)]
    simp [illegalError, hb]

theorem illegal_async (maxMsg : Nat) (buffer : List DataFrame) (cur : Nat) (f : DataFrame)
    (h : Spec.Illegal (decide (buffer ≠ [])) f.spec) :
    asyncStep maxMsg buffer cur f = .fail (illegalError (decide (buffer ≠ []))) buffer := by
  have hop : f.spec.opcode = f.opcode.toU8.toNat := rfl
  unfold asyncStep
  rcases h with ⟨h1, h2⟩ | ⟨h1, h2, h3⟩
  · have hb : buffer = [] := by simpa using h1
    subst hb
    rw [if_pos ⟨u8_eq_of_toNat h2, rfl⟩]; rfl
  · have hb : buffer ≠ [] := by simpa using h1
    rw [hop] at h2 h3
    rw [if_neg (by simp [hb]),
      if_neg (by intro h; have := UInt8.le_iff_toNat_le.mp h.1; simp at this; omega),
      if_pos ⟨UInt8.le_iff_toNat_le.mpr (by simpa using h2), UInt8.le_iff_toNat_le.mpr (by simpa using h3), hb⟩]
    simp [illegalError, hb]

/-- C19, blocking: in any receiver state the offending frame gives the protocol error, the
receiver (in particular the unfinished message) is unchanged and exactly that frame is consumed. -/
theorem C19_illegal_frame_refused_blocking (r : Receiver) (hr : r.WF) (f : Spec.Frame)
    (key : Option (List UInt8)) (bs x : Bytes) (hf : IsFrame f key bs) (hk : key.isSome = r.mask)
    (hl : f.payload.length ≤ r.maxDf) (hill : Spec.Illegal (decide (r.buffer ≠ [])) f) (s : Src) (hs : s.Clean)
    (hx : s.flat = bs ++ x) :
    ∃ s', r.recvMessage s = (.err (illegalError (decide (r.buffer ≠ []))), r, s') ∧ s'.flat = x := by
  have hok : ControlOk f := by
    intro h8; rcases hill with ⟨_, h⟩ | ⟨_, h⟩ <;> omega
  obtain ⟨g, rfl, hg⟩ := parseFrame_isFrame (Nat.lt_of_le_of_lt hr.1 (by decide)) (big := .io .invalidData) hf hk hok hl x
  obtain ⟨s', h1, h2, h3⟩ := recvMessage_clean r (Nat.le_trans hr.1 (by decide)) s hs
  have hp : pLoop r.cfg r.buffer (heldLen r.buffer) s.flat =
      .fail (illegalError (decide (r.buffer ≠ []))) r.buffer x := by
    rw [hx, pLoop_ok (c := r.cfg) hg]
    show (match syncStep r.maxMsg r.buffer (heldLen r.buffer) g with
      | .msg fs b => POut.msg fs b x | .fail e b => .fail e b x | .next b cur' => pLoop r.cfg b cur' x) = _
    rw [illegal_sync _ _ _ _ hill]
  unfold Receiver.recvBytes at h2 h3
  rw [hp] at h2 h3
  exact ⟨s', h2, h3⟩

/-- A continuation of nothing, and a new text frame inside a fragmented message. -/
example := C19_illegal_frame_refused_blocking (Receiver.new false) (Receiver.wf_new ..) exLast none [0x80, 1, 105] [99]
  ⟨0x80, 1, 1, [], [105], rfl, by decide, by decide, by decide, .short (by decide), by simp, rfl⟩ rfl (by decide)
  (.inl ⟨rfl, rfl⟩) [.chunk [0x80], .chunk [1, 105, 99]] (by simp [Src.Clean]) rfl
example := C19_illegal_frame_refused_blocking
  { Receiver.new false with buffer := [⟨false, false, false, false, .text, [72]⟩] } (by simp [Receiver.WF]; decide) exPart none [0x01, 1, 72] [99]
  ⟨0x01, 1, 1, [], [72], rfl, by decide, by decide, by decide, .short (by decide), by simp, rfl⟩ rfl (by decide)
  (.inr ⟨rfl, by decide, by decide⟩) [.chunk [0x01], .chunk [1, 72, 99]] (by simp [Src.Clean]) rfl

/-- C19, async: the same for a decode call, whatever else is already buffered behind the frame. -/
theorem C19_illegal_frame_refused_async (c : MsgCodec) (hc : c.WF) (f : Spec.Frame)
    (key : Option (List UInt8)) (bs x : Bytes) (hf : IsFrame f key bs) (hk : key.isSome = c.df.isServer)
    (hl : f.payload.length ≤ c.df.maxDf) (hill : Spec.Illegal (decide (c.buffer ≠ [])) f) :
    c.decode (bs ++ x) = (.err (illegalError (decide (c.buffer ≠ []))), c, x) := by
  have hok : ControlOk f := by
    intro h8; rcases hill with ⟨_, h⟩ | ⟨_, h⟩ <;> omega
  obtain ⟨g, rfl, hg⟩ := parseFrame_isFrame (Nat.lt_of_le_of_lt hc.1 (by decide)) (big := bigErr) hf hk hok hl x
  rw [MsgCodec.decode_eq c hc.1, pLoop_ok (c := c.cfg) hg]
  have e : c.cfg.step = asyncStep c.maxMsg := rfl
  rw [e, illegal_async _ _ _ _ hill]

example : IsFrame exPart none [0x01, 1, 72] ∧ Spec.Illegal true exPart ∧ IsFrame exLast none [0x80, 1, 105] ∧
    Spec.Illegal false exLast :=
  ⟨⟨0x01, 1, 1, [], [72], rfl, by decide, by decide, by decide, .short (by decide), by simp, rfl⟩,
   .inr ⟨rfl, by decide, by decide⟩,
   ⟨0x80, 1, 1, [], [105], rfl, by decide, by decide, by decide, .short (by decide), by simp, rfl⟩,
   .inl ⟨rfl, rfl⟩⟩

/-! ## C22 -/

/-- C22: the items of the async frame stream (frames, errors, end) do not depend on how the bytes
are cut into chunks or where the transport was not ready. -/
theorem C22_frame_stream_chunking (ctx : Context) (maxDf : Nat) (s₁ s₂ : Src) (h₁ : s₁.Ready) (h₂ : s₂.Ready)
    (hf : s₁.flat = s₂.flat) (n : Nat) :
    ((Framed.new (DfCodec.newWithLimits ctx maxDf)).nextMany dfDecoder n s₁).1 =
    ((Framed.new (DfCodec.newWithLimits ctx maxDf)).nextMany dfDecoder n s₂).1 := by
  have hP : (DfCodec.newWithLimits ctx maxDf).maxDf ≤ u32Max := Nat.min_le_right _ _
  have hl : ∀ s : Src, s.Ready → Live dfDecoder (Framed.new (DfCodec.newWithLimits ctx maxDf)) s := by
    intro s hs
    refine live_new _ s hs ?_
    unfold dfDecoder
    have := DfCodec.decode_eq (DfCodec.newWithLimits ctx maxDf) hP []
    rw [parseFrame_nil] at this
    rw [this]
  obtain ⟨xs, fr', s', g1, -, -, g4⟩ := nextMany_spec dfDecoder_chunkable n s₁ _ (hl s₁ h₁) hP (goodMany_true ..)
  obtain ⟨ys, fr'', s'', k1, -, -, k4⟩ := nextMany_spec dfDecoder_chunkable n s₂ _ (hl s₂ h₂) hP (goodMany_true ..)
  rw [g1, k1]
  rw [hf] at g4
  have := g4.symm.trans k4
  simp only [Prod.mk.injEq] at this
  exact this.1

example := C22_frame_stream_chunking .client 10 [.chunk [0x81, 2], .error .wouldBlock, .chunk [72, 105]] [.chunk [0x81, 2, 72, 105]]
  (by simp [Src.Ready]) (by simp [Src.Ready]) rfl 2

/-- C22: when the decoder asks for more input it has consumed nothing. -/
theorem C22_incomplete_consumes_nothing (ctx : Context) (maxDf : Nat) (src rest : Bytes)
    (h : (DfCodec.newWithLimits ctx maxDf).decode src = (.ok none, rest)) : rest = src := by
  have hP : (DfCodec.newWithLimits ctx maxDf).maxDf ≤ u32Max := Nat.min_le_right _ _
  have := DfCodec.decode_eq _ hP src
  cases hp : parseFrame (DfCodec.newWithLimits ctx maxDf).isServer (DfCodec.newWithLimits ctx maxDf).maxDf bigErr src with
  | ok f r => rw [hp] at this; rw [this] at h; simp at h
  | err e r => rw [hp] at this; rw [this] at h; simp at h
  | more => rw [hp] at this; rw [this] at h; simp only [Prod.mk.injEq, true_and] at h; exact h.symm

example := C22_incomplete_consumes_nothing .client 10 [0x81, 2, 72] [0x81, 2, 72] (by decide +kernel)

/-- C22: an answer once given does not depend on what arrives later. -/
theorem C22_answers_stable (ctx : Context) (maxDf : Nat) (src rest : Bytes) (r : Res (Option DataFrame))
    (h : (DfCodec.newWithLimits ctx maxDf).decode src = (r, rest)) (hr : r ≠ .ok none) (x : Bytes) :
    (DfCodec.newWithLimits ctx maxDf).decode (src ++ x) = (r, rest ++ x) := by
  have hP : (DfCodec.newWithLimits ctx maxDf).maxDf ≤ u32Max := Nat.min_le_right _ _
  have := dfDecoder_chunkable.stable _ src r _ rest x hP (by unfold dfDecoder; rw [h]) hr
  unfold dfDecoder at this
  simp only [Prod.mk.injEq] at this
  exact Prod.ext this.1 this.2.2

example : Src.Ready [.chunk [0x81, 2], .error .wouldBlock, .chunk [72, 105]] ∧ Src.Ready [.chunk [0x81, 2, 72, 105]] ∧
    ((Framed.new (DfCodec.newWithLimits .client 10)).nextMany dfDecoder 2
      [.chunk [0x81, 2], .error .wouldBlock, .chunk [72, 105]]).1 = [.item exFrame, .done] := by
  refine ⟨by simp [Src.Ready], by simp [Src.Ready], by decide +kernel⟩

/-! ## C23 -/

/-- C23 is false as stated: near the message limit the outcome depends on the chunks, because the
per-frame overhead is forgotten between decode calls (websocket-base/src/codec/ws.rs:279). Here three one-byte
fragments with a limit of 100 give an error when they arrive together and a message when they
arrive one by one. -/
theorem C23_refuted : ∃ (maxDf maxMsg : Nat) (s₁ s₂ : Src), s₁.Ready ∧ s₂.Ready ∧ s₁.flat = s₂.flat ∧
    ((Framed.new (MsgCodec.newWithLimits .client maxDf maxMsg)).nextMany msgDecoder 1 s₁).1 = [.err msgLimitErr] ∧
    ((Framed.new (MsgCodec.newWithLimits .client maxDf maxMsg)).nextMany msgDecoder 1 s₂).1 =
      [.item (.text [97, 98, 99])] :=
  ⟨125, 100, [.chunk [1, 1, 97, 0, 1, 98, 0x80, 1, 99]], [.chunk [1, 1, 97], .chunk [0, 1, 98], .chunk [0x80, 1, 99]],
    by simp [Src.Ready], by simp [Src.Ready], by decide, by decide +kernel, by decide +kernel⟩

/-- C23, what holds: if the whole stream in one chunk produces no message-limit error among its
first `n` items, every other way of cutting it, with any "not ready" points, produces the same `n`
items (messages, errors, end). Missing with respect to the full claim: streams that reach the
limit when delivered in one chunk. -/
theorem C23_message_stream_chunking_partial (ctx : Context) (maxDf maxMsg : Nat) (bs : Bytes) (hbs : bs ≠ [])
    (n : Nat) (hlim : Item.err msgLimitErr ∉
      ((Framed.new (MsgCodec.newWithLimits ctx maxDf maxMsg)).nextMany msgDecoder n [.chunk bs]).1)
    (s : Src) (hs : s.Ready) (hf : s.flat = bs) :
    ((Framed.new (MsgCodec.newWithLimits ctx maxDf maxMsg)).nextMany msgDecoder n s).1 =
    ((Framed.new (MsgCodec.newWithLimits ctx maxDf maxMsg)).nextMany msgDecoder n [.chunk bs]).1 := by
  have hc := MsgCodec.wf_new ctx maxDf maxMsg
  have h1 := And.left <| nextMany_oneChunk msgDecoder_chunkable n (MsgCodec.newWithLimits ctx maxDf maxMsg) hc.1 bs hbs
  rw [h1] at hlim ⊢
  obtain ⟨xs, fr', s', g1, -, -, g4⟩ := nextMany_spec msgDecoder_chunkable n s
    (Framed.new (MsgCodec.newWithLimits ctx maxDf maxMsg)) (msg_live_new _ hc [] s hs) hc.1
    (by have : (Framed.new (MsgCodec.newWithLimits ctx maxDf maxMsg)).buf ++ s.flat = bs := hf
        rw [this]; exact goodMany_of_items n _ _ hlim)
  have : (Framed.new (MsgCodec.newWithLimits ctx maxDf maxMsg)).buf ++ s.flat = bs := hf
  rw [this] at g4
  have e : (Framed.new (MsgCodec.newWithLimits ctx maxDf maxMsg)).codec = MsgCodec.newWithLimits ctx maxDf maxMsg := rfl
  rw [e] at g4
  rw [g1, g4]

example : Item.err msgLimitErr ∉ ((Framed.new (MsgCodec.newWithLimits .client 125 1000)).nextMany msgDecoder 2
      [.chunk [1, 1, 97, 0, 1, 98, 0x80, 1, 99]]).1 ∧
    Src.Ready [.chunk [1, 1], .error .wouldBlock, .chunk [97, 0, 1, 98, 0x80, 1, 99]] := by
  refine ⟨by decide +kernel, by simp [Src.Ready]⟩

/-! ## C24 -/

/-- C24: in every receiver state, any number of successive `recv_message` calls give the same
results, end in the same receiver state and leave the same bytes unread, however the byte stream is
segmented and wherever system calls were interrupted. -/
theorem C24_segmentation_independent (r : Receiver) (hr : r.WF) (s₁ s₂ : Src) (h₁ : s₁.Clean) (h₂ : s₂.Clean)
    (hf : s₁.flat = s₂.flat) (n : Nat) :
    (r.recvMany n s₁).1 = (r.recvMany n s₂).1 ∧ (r.recvMany n s₁).2.1 = (r.recvMany n s₂).2.1 ∧
    Src.flat (r.recvMany n s₁).2.2 = Src.flat (r.recvMany n s₂).2.2 := by
  have h := Nat.le_trans hr.1 (show u32Max ≤ isizeMax by decide)
  obtain ⟨s', -, g2, g3⟩ := recvMany_clean n r h s₁ h₁
  obtain ⟨s'', -, k2, k3⟩ := recvMany_clean n r h s₂ h₂
  rw [g2, k2]
  simp only
  rw [g3, k3, hf]
  exact ⟨rfl, rfl, rfl⟩

example := C24_segmentation_independent (Receiver.new false) (Receiver.wf_new ..)
  [.chunk [0x81], .error .interrupted, .chunk [2, 72], .chunk [105]] [.chunk [0x81, 2, 72, 105]]
  (by simp [Src.Clean]) (by simp [Src.Clean]) rfl 2

/-- C24 for single data frames. -/
theorem C24_segmentation_independent_frames (r : Receiver) (hr : r.WF) (s₁ s₂ : Src) (h₁ : s₁.Clean) (h₂ : s₂.Clean)
    (hf : s₁.flat = s₂.flat) :
    (r.recvDataframe s₁).1 = (r.recvDataframe s₂).1 ∧
    Src.flat (r.recvDataframe s₁).2 = Src.flat (r.recvDataframe s₂).2 := by
  have h := Nat.le_trans hr.1 (show u32Max ≤ isizeMax by decide)
  obtain ⟨t₁, -, g⟩ := refines_frame r.mask r.maxDf h s₁ h₁
  obtain ⟨t₂, -, k⟩ := refines_frame r.mask r.maxDf h s₂ h₂
  unfold Receiver.recvDataframe
  rw [hf] at g
  cases hp : parseFrame r.mask r.maxDf (.io .invalidData) s₂.flat <;> rw [hp] at g k <;>
    (obtain ⟨g1, g2⟩ := g; obtain ⟨k1, k2⟩ := k; rw [g1, k1]; simp [g2, k2])

example : Src.Clean [.chunk [0x81], .error .interrupted, .chunk [2, 72], .chunk [105]] ∧
    Src.Clean [.chunk [0x81, 2, 72, 105]] ∧
    ((Receiver.new false).recvMany 2 [.chunk [0x81], .error .interrupted, .chunk [2, 72], .chunk [105]]).1 =
      [.ok (.text [72, 105]), .err .noData] := by
  refine ⟨by simp [Src.Clean], by simp [Src.Clean], by decide +kernel⟩

/-! ## C27 -/

theorem recvManyBytes_end (r : Receiver) (n : Nat) :
    r.recvManyBytes n [] = (List.replicate n (.err .noData), r, []) := by
  induction n with
  | zero => rfl
  | succ n ih =>
    have e : r.recvBytes [] = (.err .noData, r, []) := by
      unfold Receiver.recvBytes
      rw [pLoop_more (c := r.cfg) parseFrame_nil]
    simp only [Receiver.recvManyBytes, e, ih, List.replicate_succ]

/-- `p` is a proper prefix (possibly empty) of a legal frame that the receiver would accept. -/
def Truncated (masked : Bool) (lim : Nat) (p : Bytes) : Prop :=
  ∃ f key q, IsFrame f key (p ++ q) ∧ q ≠ [] ∧ key.isSome = masked ∧ ControlOk f ∧ f.payload.length ≤ lim

/-- C27, blocking: a stream of frames that delivers `ms` and is then cut off inside (or before) the
next frame gives exactly the messages `ms`; every later call reports "no data available". In
particular the unfinished message `held'` is not delivered in any form. -/
theorem C27_truncated_stream_blocking (mask : Bool) (maxDf maxMsg : Nat) (frames : List Spec.Frame)
    (ms : List Spec.Message) (held' : List Spec.Frame)
    (hd : Delivers (FitsBlocking (min maxMsg u32Max)) [] frames ms held')
    (hl : ∀ f ∈ frames, f.payload.length ≤ min maxDf u32Max)
    (bs p : Bytes) (hw : Wire mask frames bs) (hp : Truncated mask (min maxDf u32Max) p) (s : Src) (hs : s.Clean)
    (hx : s.flat = bs ++ p) (n : Nat) :
    ∃ oms : List OwnedMsg,
      ((Receiver.newWithLimits mask maxDf maxMsg).recvMany (ms.length + n) s).1 =
        oms.map Res.ok ++ List.replicate n (.err .noData) ∧
      oms.map OwnedMsg.spec = ms := by
  have hr := Receiver.wf_new mask maxDf maxMsg
  have hi : Incoming (FitsBlocking (Receiver.newWithLimits mask maxDf maxMsg).maxMsg)
      (Receiver.newWithLimits mask maxDf maxMsg).maxDf (Receiver.newWithLimits mask maxDf maxMsg).mask
      (Receiver.newWithLimits mask maxDf maxMsg).buffer frames ms held' bs :=
    ⟨hw, hl, hd, .inl rfl, by simp [Receiver.newWithLimits]⟩
  obtain ⟨oms, b, frames1, bs1, h1, h2, h3⟩ := deliver_sync hr hi p
  obtain ⟨s', -, g2, -⟩ := recvMany_clean (ms.length + n) _ (Nat.le_trans hr.1 (by decide)) s hs
  refine ⟨oms, ?_, h2⟩
  rw [g2, hx, recvManyBytes_add, h1]
  simp only
  congr 1
  cases n with
  | zero => rfl
  | succ n =>
    obtain ⟨f, key, q, hq1, hq2, hq3, hq4, hq5⟩ := hp
    have hmore := parseFrame_prefix (Nat.lt_of_le_of_lt hr.1 (by decide)) (big := .io .invalidData) hq1 hq2 hq3 hq4 hq5
    generalize hrr : ({ Receiver.newWithLimits mask maxDf maxMsg with buffer := b } : Receiver) = r'
    have hr' : r'.WF := by rw [← hrr]; exact hr
    have e1 : r'.maxMsg = (Receiver.newWithLimits mask maxDf maxMsg).maxMsg := by rw [← hrr]
    have e2 : r'.maxDf = (Receiver.newWithLimits mask maxDf maxMsg).maxDf := by rw [← hrr]
    have e3 : r'.mask = (Receiver.newWithLimits mask maxDf maxMsg).mask := by rw [← hrr]
    have e4 : r'.buffer = b := by rw [← hrr]
    rw [← e1, ← e2, ← e3, ← e4] at h3
    obtain ⟨b', cur', -, -, -, k4⟩ := Incoming.rest (c := r'.cfg) (stepOk_sync r' hr'.1 hr'.2) h3 p
    have hmore' : parseFrame r'.cfg.masked r'.cfg.lim r'.cfg.big p = .more := by
      show parseFrame r'.mask r'.maxDf (.io .invalidData) p = .more
      rw [e2, e3]; exact hmore
    have e : r'.recvBytes (bs1 ++ p) = (.err .noData, { r' with buffer := b' }, []) := by
      unfold Receiver.recvBytes
      rw [k4, pLoop_more hmore']
    simp only [Receiver.recvManyBytes, e, recvManyBytes_end, List.replicate_succ]

/-- Two messages in three frames, then the first three bytes of a frame of four. -/
example := C27_truncated_stream_blocking false 125 1000 [exPart, exPing, exLast] [.ping [7], .text [72, 105]] []
  (exDelivers _ (by decide)).1 (by decide) [0x01, 1, 72, 0x89, 1, 7, 0x80, 1, 105] [0x81, 2, 72] exWire
  ⟨exFrame.spec, none, [105], ⟨0x81, 2, 2, [], [72, 105], rfl, by decide, by decide, by decide, .short (by decide),
      by simp, rfl⟩, by decide, rfl, fun h => absurd h (by decide), by decide⟩
  [.chunk [0x01, 1, 72, 0x89], .chunk [1, 7, 0x80, 1, 105, 0x81, 2, 72]] (by simp [Src.Clean]) rfl 3

/-- C27, async: the complete messages are delivered; then the stream reports an error if it was cut
inside a frame, and ends if it was cut between frames. The unfinished message is not delivered in
any form. -/
theorem C27_truncated_stream_async (ctx : Context) (maxDf maxMsg : Nat) (frames : List Spec.Frame)
    (ms : List Spec.Message) (held' : List Spec.Frame)
    (hd : Delivers (FitsAsync (min maxMsg u32Max)) [] frames ms held')
    (hl : ∀ f ∈ frames, f.payload.length ≤ min maxDf u32Max)
    (bs p : Bytes) (hw : Wire (decide (ctx = .server)) frames bs)
    (hp : Truncated (decide (ctx = .server)) (min maxDf u32Max) p) (buf : Bytes) (s : Src) (hs : s.Ready)
    (hx : buf ++ s.flat = bs ++ p) (n : Nat) :
    ∃ oms : List OwnedMsg,
      ((Framed.fromParts (MsgCodec.newWithLimits ctx maxDf maxMsg) buf).nextMany msgDecoder (ms.length + n) s).1 =
        oms.map Item.item ++ List.replicate n (if p = [] then .done else .err bytesRemaining) ∧
      oms.map OwnedMsg.spec = ms := by
  have hc := MsgCodec.wf_new ctx maxDf maxMsg
  have hi : Incoming (FitsAsync (MsgCodec.newWithLimits ctx maxDf maxMsg).maxMsg)
      (MsgCodec.newWithLimits ctx maxDf maxMsg).df.maxDf (MsgCodec.newWithLimits ctx maxDf maxMsg).df.isServer
      (MsgCodec.newWithLimits ctx maxDf maxMsg).buffer frames ms held' bs :=
    ⟨hw, hl, hd, .inl rfl, by simp [MsgCodec.newWithLimits]⟩
  obtain ⟨oms, b, frames1, bs1, h1, h2, h3, h4⟩ := deliver_async hc hi p
  obtain ⟨f, key, q, hq1, hq2, hq3, hq4, hq5⟩ := hp
  have hmore := parseFrame_prefix (Nat.lt_of_le_of_lt hc.1 (by decide)) (big := bigErr) hq1 hq2 hq3 hq4 hq5
  have hidle : ∀ c' : MsgCodec, c'.df = (MsgCodec.newWithLimits ctx maxDf maxMsg).df →
      msgDecoder c' p = (.ok none, c', p) := by
    intro c' e
    unfold msgDecoder
    have hc' : c'.df.maxDf ≤ u32Max := by rw [e]; exact hc.1
    have hm' : parseFrame c'.cfg.masked c'.cfg.lim c'.cfg.big p = .more := by
      show parseFrame c'.df.isServer c'.df.maxDf bigErr p = .more
      rw [e]; exact hmore
    rw [MsgCodec.decode_eq c' hc', pLoop_more hm']
  have htail : ∀ (n : Nat) (c' : MsgCodec), c'.df = (MsgCodec.newWithLimits ctx maxDf maxMsg).df →
      decMany msgDecoder n c' p = (List.replicate n (if p = [] then .done else .err bytesRemaining), c', p) ∧
      GoodMany msgDecoder notLimit n c' p := by
    intro n
    induction n with
    | zero => intro c' e; exact ⟨rfl, trivial⟩
    | succ n ih =>
      intro c' e
      have e' : decNext msgDecoder c' p = (if p = [] then .done else .err bytesRemaining, c', p) := by
        unfold decNext; rw [hidle c' e]
      obtain ⟨i1, i2⟩ := ih c' e
      refine ⟨by simp only [decMany, e', i1, List.replicate_succ], ?_, ?_⟩
      · rw [hidle c' e]; simp
      · rw [e']; exact i2
  -- the part after the messages
  have hend : ∀ n, ∃ cc bb, decMany msgDecoder n { MsgCodec.newWithLimits ctx maxDf maxMsg with buffer := b } (bs1 ++ p) =
      (List.replicate n (if p = [] then .done else .err bytesRemaining), cc, bb) ∧
      GoodMany msgDecoder notLimit n { MsgCodec.newWithLimits ctx maxDf maxMsg with buffer := b } (bs1 ++ p) := by
    intro n
    cases n with
    | zero => exact ⟨_, _, rfl, trivial⟩
    | succ n =>
      generalize hcc : ({ MsgCodec.newWithLimits ctx maxDf maxMsg with buffer := b } : MsgCodec) = c'
      have e0 : c'.df = (MsgCodec.newWithLimits ctx maxDf maxMsg).df := by rw [← hcc]
      have e1 : c'.maxMsg = (MsgCodec.newWithLimits ctx maxDf maxMsg).maxMsg := by rw [← hcc]
      have e4 : c'.buffer = b := by rw [← hcc]
      have hc' : c'.WF := by rw [← hcc]; exact hc
      rw [← e1, ← e0, ← e4] at h3
      obtain ⟨b', cur', -, -, -, k4⟩ := Incoming.rest (c := c'.cfg) (stepOk_async c' hc'.1 hc'.2) h3 p
      have hm' : parseFrame c'.cfg.masked c'.cfg.lim c'.cfg.big p = .more := by
        show parseFrame c'.df.isServer c'.df.maxDf bigErr p = .more
        rw [e0]; exact hmore
      have e : msgDecoder c' (bs1 ++ p) = (.ok none, { c' with buffer := b' }, p) := by
        unfold msgDecoder
        rw [MsgCodec.decode_eq c' hc'.1, k4, pLoop_more hm']
      have e' : decNext msgDecoder c' (bs1 ++ p) =
          (if p = [] then .done else .err bytesRemaining, { c' with buffer := b' }, p) := by
        unfold decNext; rw [e]
      obtain ⟨i1, i2⟩ := htail n { c' with buffer := b' } e0
      refine ⟨{ c' with buffer := b' }, p, by simp only [decMany, e', i1, List.replicate_succ], ?_, ?_⟩
      · rw [e]; simp
      · rw [e']; exact i2
  obtain ⟨cc, bb, m1, m2⟩ := hend n
  have hall : decMany msgDecoder (ms.length + n) (MsgCodec.newWithLimits ctx maxDf maxMsg) (bs ++ p) =
      (oms.map Item.item ++ List.replicate n (if p = [] then .done else .err bytesRemaining), cc, bb) := by
    rw [decMany_add, h1]; simp only [m1]
  have hgood : GoodMany msgDecoder notLimit (ms.length + n) (MsgCodec.newWithLimits ctx maxDf maxMsg) (bs ++ p) := by
    rw [goodMany_add, h1]; exact ⟨h4, m2⟩
  have hbuf : (Framed.fromParts (MsgCodec.newWithLimits ctx maxDf maxMsg) buf).buf ++ s.flat = bs ++ p := hx
  obtain ⟨xs, fr', s', g1, g2, g3, g4⟩ := nextMany_spec msgDecoder_chunkable (ms.length + n) s
    (Framed.fromParts (MsgCodec.newWithLimits ctx maxDf maxMsg) buf) (msg_live_new _ hc buf s hs) hc.1
    (by rw [hbuf]; exact hgood)
  rw [hbuf] at g4
  have g5 := hall.symm.trans g4
  simp only [Prod.mk.injEq] at g5
  exact ⟨oms, by rw [g1]; exact g5.1.symm, h2⟩

example : Truncated false 125 [0x81, 2, 72] ∧ Truncated false 125 [] :=
  ⟨⟨exFrame.spec, none, [105], ⟨0x81, 2, 2, [], [72, 105], rfl, by decide, by decide, by decide, .short (by decide),
      by simp, rfl⟩, by decide, rfl, fun h => absurd h (by decide), by decide⟩,
   ⟨exFrame.spec, none, [0x81, 2, 72, 105], ⟨0x81, 2, 2, [], [72, 105], rfl, by decide, by decide, by decide,
      .short (by decide), by simp, rfl⟩, by decide, rfl, fun h => absurd h (by decide), by decide⟩⟩

end WS
