import Verif.Props.Heard
import Verif.Props.Client
import Verif.Props.Frame
import Verif.Spec.Mixed
/-!
# C56: frames, messages and sends can be mixed on one client

A program may call `recv_message`, `recv_dataframe` and the sending functions of a client in any order.
-/

namespace WS
open Spec (Mixed Carried Wire IsFrame)

/-- The answer is a success. -/
def OpRes.isOk : OpRes → Bool
  | .message (.ok _) => true
  | .dataframe (.ok _) => true
  | .sent (.ok _) => true
  | _ => false

/-- The answers of the receiving calls. -/
def gots : List OpRes → List Spec.Got
  | [] => []
  | .message (.ok m) :: rs => .message m.spec :: gots rs
  | .dataframe (.ok f) :: rs => .frame f.spec :: gots rs
  | _ :: rs => gots rs

/-- The frames handed to the sending calls. -/
def sends : List ClientOp → List FrameView
  | [] => []
  | .send v _ :: ops => v :: sends ops
  | _ :: ops => sends ops

/-- One receiving call through the buffer, message. -/
theorem client_message (c : Client) (hw : c.stream.WF) (hr : c.receiver.WF) {m : OwnedMsg} {c' : Client} (h : c.recvMessage = (.ok m, c')) :
    ∃ bs, c.stream.src.flat = bs ++ c'.stream.src.flat ∧
      Carried c.receiver.mask c.receiver.maxDf c.receiver.maxMsg (specs c.receiver.buffer) bs [m.spec] (specs c'.receiver.buffer) ∧
      c'.receiver = { c.receiver with buffer := c'.receiver.buffer } ∧ c'.stream.WF ∧ c'.stream.inner.output = c.stream.inner.output ∧ c'.sender = c.sender := by
  have := C30_recv_through_buffer c hw
  obtain ⟨h1, h2, h3, h4, h5⟩ := this
  have hs : c'.sender = c.sender := by
    have : c.recvMessage.2.sender = c.sender := rfl
    rw [h] at this; exact this
  rw [h] at h1 h2 h3 h4 h5
  obtain ⟨bs, g1, g2, g3⟩ := recvMessage_sound c.receiver hr.1 c.stream.src (Prod.ext h1.symm (Prod.ext h2.symm h3.symm))
  exact ⟨bs, g1, g2, g3, h4, h5, hs⟩

/-- One receiving call through the buffer, frame. -/
theorem client_frame (c : Client) (hw : c.stream.WF) (hr : c.receiver.WF) {f : DataFrame} {c' : Client} (h : c.recvDataframe = (.ok f, c')) :
    ∃ (key : Option Key4) (bs : Bytes), c.stream.src.flat = bs ++ c'.stream.src.flat ∧ key.isSome = c.receiver.mask ∧
      IsFrame f.spec (key.map Key4.toBytes) bs ∧ Spec.ControlOk f.spec ∧ f.data.length ≤ c.receiver.maxDf ∧
      c'.receiver = c.receiver ∧ c'.stream.WF ∧ c'.stream.inner.output = c.stream.inner.output ∧ c'.sender = c.sender := by
  have e : c.recvDataframe = ((c.receiver.recvDataframe c.stream.src).1, { c with stream := c.stream.restore (c.receiver.recvDataframe c.stream.src).2 }) := rfl
  rw [e] at h
  simp only [Prod.mk.injEq] at h
  obtain ⟨h1, rfl⟩ := h
  have hrem : Rem c.stream.src (c.receiver.recvDataframe c.stream.src).2 := rem_recvDataframe _ _
  obtain ⟨key, pre, g1, g2, g3, g4, g5⟩ := C03_reader_sound c.receiver.mask c.receiver.maxDf (Nat.lt_of_le_of_lt hr.1 (by decide)) c.stream.src
    (c.receiver.recvDataframe c.stream.src).2 f (Prod.ext h1 rfl)
  refine ⟨key, pre, ?_, g2, g3, g4, g5, rfl, restore_wf hw _, (halves_restore _ _).2, rfl⟩
  show c.stream.src.flat = pre ++ Src.flat (c.stream.restore _).src
  rw [restore_src hw hrem]
  exact g1

/-- C56: as long as the calls succeed, whatever their order, the bytes received fall into consecutive stretches that belong to the receiving calls in order, each call answering
with what its stretch holds; a frame taken singly neither joins nor disturbs the message being assembled; what is not used
remains for later calls; and the bytes sent are the frames of the sending calls in order. -/
theorem C56_calls_mixed (c c' : Client) (hw : c.stream.WF) (hr : c.receiver.WF) (ops : List ClientOp) (rs : List OpRes)
    (hv : ∀ v ∈ sends ops, v.Lawful ∧ v.payload.length < 2 ^ 63) (h : c.run ops = (rs, c')) (hok : ∀ r ∈ rs, r.isOk = true) :
    (∃ bs, c.stream.src.flat = bs ++ c'.stream.src.flat ∧
      Mixed c.receiver.mask c.receiver.maxDf c.receiver.maxMsg (c.receiver.buffer.map DataFrame.spec) (gots rs) bs (c'.receiver.buffer.map DataFrame.spec)) ∧
    ∃ out, c'.stream.inner.output.wire = c.stream.inner.output.wire ++ out ∧ Wire c.sender.mask ((sends ops).map FrameView.spec) out := by
  induction ops generalizing c rs with
  | nil =>
    simp only [Client.run, Prod.mk.injEq] at h
    obtain ⟨rfl, rfl⟩ := h
    exact ⟨⟨[], rfl, .nil⟩, [], by simp, .nil⟩
  | cons op ops ih =>
    have e : c.run (op :: ops) = ((c.step op).1 :: ((c.step op).2.run ops).1, ((c.step op).2.run ops).2) := rfl
    rw [e] at h
    simp only [Prod.mk.injEq] at h
    obtain ⟨rfl, h2⟩ := h
    have hok1 := hok (c.step op).1 (by simp)
    have hok2 : ∀ r ∈ ((c.step op).2.run ops).1, r.isOk = true := fun r hm => hok r (by simp [hm])
    cases op with
    | recvMessage =>
      have e1 : (c.step .recvMessage) = (.message c.recvMessage.1, c.recvMessage.2) := rfl
      rw [e1] at hok1 hok2 h2 ⊢
      simp only at hok1 hok2 h2 ⊢
      cases hm : c.recvMessage with
      | mk r c₁ =>
        rw [hm] at hok1 hok2 h2
        cases r with
        | ok m =>
          obtain ⟨bs, g1, g2, g3, g4, g5, g6⟩ := client_message c hw hr hm
          obtain ⟨⟨bs', k1, k2⟩, out, k3, k4⟩ := ih c₁ g4 (by rw [g3]; exact hr) _ hv (Prod.ext rfl h2) hok2
          rw [g3] at k2
          rw [g5] at k3
          rw [g6] at k4
          exact ⟨⟨bs ++ bs', by rw [g1, k1, List.append_assoc], .message g2 k2⟩, out, k3, k4⟩
        | err e => cases hok1
        | panic e => cases hok1
    | recvDataframe =>
      have e1 : (c.step .recvDataframe) = (.dataframe c.recvDataframe.1, c.recvDataframe.2) := rfl
      rw [e1] at hok1 hok2 h2 ⊢
      simp only at hok1 hok2 h2 ⊢
      cases hm : c.recvDataframe with
      | mk r c₁ =>
        rw [hm] at hok1 hok2 h2
        cases r with
        | ok f =>
          obtain ⟨key, bs, g1, g2, g3, g3', g4, g5, g6, g7, g8⟩ := client_frame c hw hr hm
          obtain ⟨⟨bs', k1, k2⟩, out, k3, k4⟩ := ih c₁ g6 (by rw [g5]; exact hr) _ hv (Prod.ext rfl h2) hok2
          rw [g5] at k2
          rw [g7] at k3
          rw [g8] at k4
          exact ⟨⟨bs ++ bs', by rw [g1, k1, List.append_assoc], .frame g3 (by simpa using g2) g4 g3' k2⟩, out, k3, k4⟩
        | err e => cases hok1
        | panic e => cases hok1
    | send v key =>
      have e1 : (c.step (.send v key)) = (.sent (c.send v key).1, (c.send v key).2) := rfl
      rw [e1] at hok1 hok2 h2 ⊢
      simp only at hok1 hok2 h2 ⊢
      have e2 : c.send v key = ((c.sender.send v key c.stream.inner.output).1,
        { c with stream := { c.stream with inner := { c.stream.inner with output := (c.sender.send v key c.stream.inner.output).2 } } }) := rfl
      rw [e2] at hok1 hok2 h2 ⊢
      simp only at hok1 hok2 h2 ⊢
      cases hm : c.sender.send v key c.stream.inner.output with
      | mk r w =>
        rw [hm] at hok1 hok2 h2
        cases r with
        | ok u =>
          obtain ⟨hv1, hv2⟩ := hv v (by simp [sends])
          obtain ⟨bs, g1, g2⟩ := C01_sent_bytes_are_rfc_frame c.sender v hv1 hv2 key _ _ hm
          obtain ⟨⟨bs', k1, k2⟩, out, k3, k4⟩ := ih { c with stream := { c.stream with inner := { c.stream.inner with output := w } } } hw hr _
            (fun v' hm' => hv v' (by simp [sends, hm'])) (Prod.ext rfl h2) hok2
          refine ⟨⟨bs', k1, k2⟩, bs ++ out, ?_, ?_⟩
          · rw [k3, ← List.append_assoc, ← g1]
          · exact Wire.cons g2 (by cases c.sender.mask <;> rfl) k4
        | err e => cases hok1
        | panic e => cases hok1

/-- C56: frames taken singly are simply set aside: the messages are those carried by the bytes without them. -/
theorem C56_frames_set_aside (masked : Bool) (maxDf maxMsg : Nat) (held held' : List Spec.Frame) (gs : List Spec.Got) (bs : Bytes)
    (h : Mixed masked maxDf maxMsg held gs bs held') :
    ∃ bs', bs'.Sublist bs ∧ Carried masked maxDf maxMsg held bs' (Spec.messages gs) held' := by
  induction h with
  | nil => exact ⟨[], .slnil, carried_nil⟩
  | frame _ _ _ _ _ ih =>
    obtain ⟨bs', h1, h2⟩ := ih
    exact ⟨bs', h1.trans (List.sublist_append_right _ _), h2⟩
  | message h _ ih =>
    obtain ⟨bs', h1, h2⟩ := ih
    refine ⟨_ ++ bs', (List.Sublist.refl _).append h1, ?_⟩
    exact carried_trans h h2

/-- The hypotheses are met by the sample client (which holds the fragment "a"): a frame taken singly (the ping), a send in between, and the rest of the text. -/
example : sampleClient.stream.WF ∧ sampleClient.receiver.WF ∧
    ((sampleClient.run [.recvDataframe, .send (OwnedMsg.text [0x78]).view ⟨0, 0, 0, 0⟩, .recvMessage]).1.all OpRes.isOk) = true ∧
    (∀ v ∈ sends [.recvDataframe, .send (OwnedMsg.text [0x78]).view ⟨0, 0, 0, 0⟩, .recvMessage], v.Lawful ∧ v.payload.length < 2 ^ 63) :=
  ⟨by unfold BufReader.WF; decide, by unfold Receiver.WF; decide, by decide +kernel, by
    intro v hv
    simp only [sends, List.mem_singleton] at hv
    subst hv
    exact ⟨OwnedMsg.lawful _, by decide⟩⟩

/-- The answers of that run: the ping as a frame, then the completed text. -/
example : gots (sampleClient.run [.recvDataframe, .send (OwnedMsg.text [0x78]).view ⟨0, 0, 0, 0⟩, .recvMessage]).1 =
    [.frame ⟨true, false, false, false, 9, []⟩, .message (.text [0x61, 0x63])] := by
  decide +kernel

example := C56_calls_mixed sampleClient _ (by unfold BufReader.WF; decide) (by unfold Receiver.WF; decide)
  [.recvDataframe, .send (OwnedMsg.text [0x78]).view ⟨0, 0, 0, 0⟩, .recvMessage] _
  (by
    intro v hv
    simp only [sends, List.mem_singleton] at hv
    subst hv
    exact ⟨OwnedMsg.lawful _, by decide⟩)
  rfl (by
    have : ((sampleClient.run [.recvDataframe, .send (OwnedMsg.text [0x78]).view ⟨0, 0, 0, 0⟩, .recvMessage]).1.all OpRes.isOk) = true := by decide +kernel
    exact List.all_eq_true.mp this)

end WS
