import Verif.Props.AsyncChat
/-!
# C65: the chat client over TLS

examples/ssl-client.rs: as examples/async-client.rs (C64), but a Close of the peer is answered.
-/

namespace WS
open Spec

/-- Whatever arrives and whatever the user says: what is written are the pongs and Closes for the pings and Closes heard and the
user's messages, each in its order; all of them if the stream ends, a beginning of this if it fails. -/
theorem C65_any_input (ctx : Context) (maxDf maxMsg : Nat) (keys : Nat → Key4) (extra : Nat) (flag : Bool) (buf : Bytes) (s : Src)
    (user : List (Option OwnedMsg)) (gone : Bool) (hu : ∀ m, some m ∈ user → m.spec.Sendable isizeMax)
    (fw : FramedWrite) (hb : fw.buf.WF) (he : fw.buf.data = []) (w : Sink) (hw : w.Patient) :
    ∃ ms x us zs bs r w', Drained (Framed.fromParts (MsgCodec.newWithLimits ctx maxDf maxMsg) buf) s ms x ∧
      chatForward pingOrClose keys extra none
        ⟨flag, false, Framed.fromParts (MsgCodec.newWithLimits ctx maxDf maxMsg) buf, s, user, gone⟩ fw w = (r, w') ∧
      us <+: user.filterMap id ∧ Merge ((ms.map OwnedMsg.spec).filterMap Message.controlFor) (us.map OwnedMsg.spec) zs ∧
      Says (!fw.isServer) zs bs ∧
      ((x = .done ∧ us = user.filterMap id ∧ r = (if gone then some .returned else none) ∧ w'.wire = w.wire ++ bs) ∨
       (∃ e, x = .err e ∧ r = some (.failed e) ∧ w.wire <+: w'.wire ∧ w'.wire <+: w.wire ++ bs)) :=
  chat_any pingOrClose_answering ctx maxDf maxMsg keys extra flag buf s user gone hu fw hb he w hw

/-- A peer that sends frames which deliver `ms` and then ends its stream between frames gets all of this; if the stream ends inside
a frame the program fails, having written a part of it. -/
theorem C65_traffic (ctx : Context) (maxDf maxMsg : Nat) (frames : List Frame) (ms : List Message) (held' : List Frame)
    (hd : Delivers (FitsAsync (min maxMsg u32Max)) [] frames ms held') (hl : ∀ f ∈ frames, f.payload.length ≤ min maxDf u32Max)
    (bs x : Bytes) (hf : Wire (decide (ctx = .server)) frames bs) (hx : Truncated (decide (ctx = .server)) (min maxDf u32Max) x)
    (buf : Bytes) (s : Src) (hs : s.Ready) (hsx : buf ++ s.flat = bs ++ x) (keys : Nat → Key4) (extra : Nat) (flag : Bool)
    (user : List (Option OwnedMsg)) (gone : Bool) (hu : ∀ m, some m ∈ user → m.spec.Sendable isizeMax)
    (fw : FramedWrite) (hb : fw.buf.WF) (he : fw.buf.data = []) (w : Sink) (hw : w.Patient) :
    ∃ us zs out r w',
      chatForward pingOrClose keys extra none
        ⟨flag, false, Framed.fromParts (MsgCodec.newWithLimits ctx maxDf maxMsg) buf, s, user, gone⟩ fw w = (r, w') ∧
      us <+: user.filterMap id ∧ Merge (ms.filterMap Message.controlFor) (us.map OwnedMsg.spec) zs ∧ Says (!fw.isServer) zs out ∧
      (x = [] → us = user.filterMap id ∧ r = (if gone then some .returned else none) ∧ w'.wire = w.wire ++ out) ∧
      (x ≠ [] → r = some (.failed bytesRemaining) ∧ w.wire <+: w'.wire ∧ w'.wire <+: w.wire ++ out) :=
  chat_traffic pingOrClose_answering ctx maxDf maxMsg frames ms held' hd hl bs x hf hx buf s hs hsx keys extra flag user gone hu fw hb he w hw

theorem merge_mem {α : Type} {x y z : List α} (h : Merge x y z) (a : α) : a ∈ z ↔ a ∈ x ∨ a ∈ y := by
  induction h with
  | nil => simp
  | left _ ih => simp only [List.mem_cons, ih, or_assoc]
  | right _ ih => simp only [List.mem_cons, ih]; grind

/-- A Close that is heard is answered with the same Close, a ping with its pong. -/
theorem C65_answers (ms us zs : List Message) (hm : Merge (ms.filterMap Message.controlFor) us zs) :
    (∀ m ∈ ms, m.isClose = true → m ∈ zs) ∧ ∀ d, .ping d ∈ ms → .pong d ∈ zs := by
  refine ⟨fun m h hc => ?_, fun d h => ?_⟩
  · rw [merge_mem hm]
    refine .inl (List.mem_filterMap.mpr ⟨m, h, ?_⟩)
    cases m <;> first | rfl | cases hc
  · rw [merge_mem hm]
    exact .inl (List.mem_filterMap.mpr ⟨_, h, rfl⟩)

/-- As long as the peer says no Close, nothing but pongs is sent after the user's. Missing: after an answer to the peer's Close
(refuted below). -/
theorem C65_no_data_after_close_partial (n : Nat) (lines : List Bytes) (ms us zs : List Message) (hno : ∀ m ∈ ms, m.isClose = false)
    (hu : us <+: (typedMessages n lines).1.map OwnedMsg.spec) (hm : Merge (ms.filterMap Message.controlFor) us zs) (a b : List Message)
    (hz : zs = a ++ .close :: b) : ∀ m ∈ b, ∃ d, m = .pong d := by
  have e : ms.filterMap Message.controlFor = ms.filterMap Message.pongFor := by
    clear hm
    induction ms with
    | nil => rfl
    | cons m ms ih =>
      have ih := ih fun m h => hno m (List.mem_cons_of_mem _ h)
      have hm := hno m List.mem_cons_self
      cases m with
      | close => cases hm
      | closeWith c r => cases hm
      | ping d => simp only [List.filterMap_cons, Message.controlFor, Message.pongFor, ih]
      | _ => exact ih
  rw [e] at hm
  exact C64_no_data_after_close n lines ms us zs hu hm a b hz

/-- After answering the peer's Close the program goes on sending what the user says (RFC 6455 section 5.5.1: "The application MUST
NOT send any more data frames after sending a Close frame"). -/
theorem C65_refuted_data_after_close : ∃ (s : Src) (user : List (Option OwnedMsg)), s.Ready ∧
    user.filterMap id = (typedMessages 2 [ascii "hi", ascii "/close"]).1 ∧
    (let fr := Framed.fromParts (MsgCodec.newWithLimits .client 125 1000) []
     let out := chatForward pingOrClose (fun _ => ⟨0, 0, 0, 0⟩) 0 none ⟨false, false, fr, s, user, true⟩ (FramedWrite.new false) ⟨[], []⟩
     out.1 = some .returned ∧ ∃ a b c, out.2.wire = a ++ b ++ c ∧ Says true [.closeWith 1001 []] a ∧ Says true [.text (ascii "hi")] b ∧
       Says true [.close] c) := by
  refine ⟨[.chunk [0x88, 2, 3, 233]], [some (.text (ascii "hi")), some (.close none)], ⟨by simp, trivial⟩, by decide +kernel, ?_⟩
  have hrun : ∃ w, chatForward pingOrClose (fun _ => ⟨0, 0, 0, 0⟩) 0 none ⟨false, false, Framed.fromParts (MsgCodec.newWithLimits .client 125 1000) [],
      [.chunk [0x88, 2, 3, 233]], [some (.text (ascii "hi")), some (.close none)], true⟩ (FramedWrite.new false) ⟨[], []⟩ = (some .returned, w) ∧
      w.wire = [0x88, 0x82, 0, 0, 0, 0, 3, 233] ++ [0x81, 0x82, 0, 0, 0, 0, 104, 105] ++ [0x88, 0x80, 0, 0, 0, 0] := by
    rw [chat_item (m := .close (some ⟨1001, []⟩)) (h := by decide +kernel) (hs := by decide +kernel),
      chat_item (m := .text (ascii "hi")) (h := by decide +kernel) (hs := by decide +kernel),
      chat_item (m := .close none) (h := by decide +kernel) (hs := by decide +kernel),
      chat_done (h := by decide +kernel) (hs := by decide +kernel)]
    exact ⟨_, rfl, by decide +kernel⟩
  obtain ⟨w, h1, h2⟩ := hrun
  show (chatForward _ _ _ _ _ _ _).1 = _ ∧ _
  simp only [h1, h2]
  refine ⟨trivial, _, _, _, rfl, ?_, ?_, ?_⟩
  · exact says_encode isize_lt (m := .close (some ⟨1001, []⟩)) ⟨⟨[], by simp, rfl⟩, by decide⟩ true ⟨0, 0, 0, 0⟩ (by decide +kernel)
  · exact says_encode isize_lt (m := .text (ascii "hi")) ⟨isUtf8_ascii (by decide), by decide⟩ true ⟨0, 0, 0, 0⟩ (by decide +kernel)
  · exact says_encode isize_lt (m := .close none) (sendable_close _) true ⟨0, 0, 0, 0⟩ (by decide +kernel)

/-- The answers to some traffic. -/
example : [Message.ping [1], .text [], .closeWith 1000 [], .ping [2]].filterMap Message.controlFor =
    [.pong [1], .closeWith 1000 [], .pong [2]] := rfl

/-! Concrete cases of the theorems above. -/

example := fun keys extra => C65_any_input .client 125 1000 keys extra false [0x01, 1] [.chunk [72, 0x89], .error .wouldBlock, .error .connectionReset]
  [none, some (.text (ascii "hi")), none, some (.close none)] true sampleUser_sendable (FramedWrite.new false)
  (Nat.zero_le _) rfl ⟨[], [.accept 1, .error .wouldBlock]⟩ (Sink.patient_of rfl)
example := fun keys extra => C65_traffic .client 125 1000 _ _ _ (exDelivers _ (by decide)).2 (by decide) _ [0x82] exWire
  (exByte_truncated _) [0x01, 1] [.chunk [72, 0x89], .error .wouldBlock, .chunk [1, 7, 0x80, 1, 105, 0x82]] (by simp [Src.Ready]) rfl keys extra false
  [none, some (.text (ascii "hi")), none, some (.close none)] true sampleUser_sendable (FramedWrite.new false)
  (Nat.zero_le _) rfl ⟨[], [.accept 1, .error .wouldBlock]⟩ (Sink.patient_of rfl)
example := C65_answers [.ping [1], .close, .text []] [.text []] [.pong [1], .text [], .close] (.left (.right (.left .nil)))
example := C65_no_data_after_close_partial 5 [ascii " hello\n", ascii "/close\n", ascii "late\n"] [.ping [7]] [.text (ascii "hello"), .close]
  [.text (ascii "hello"), .close, .pong [7]] (by decide +kernel)
  ⟨[], by
    rw [show (typedMessages 5 [ascii " hello\n", ascii "/close\n", ascii "late\n"]).1 = [.text (ascii "hello"), .close none] by decide +kernel]; rfl⟩
  (.right (.right (.left .nil))) [.text (ascii "hello")] [.pong [7]] rfl

end WS
