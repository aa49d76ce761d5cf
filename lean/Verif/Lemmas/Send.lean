import Verif.Model.Send
import Verif.Props.Frame
/-! What sends put on the wire. -/

namespace WS

theorem send_wire (x : Sender) (v : FrameView) (key : Key4) (w : Sink) :
    (∃ bs w', v.encode (if x.mask then some key else none) = .ok bs ∧ x.send v key w = (.ok (), w') ∧
      w'.wire = w.wire ++ bs) ∨
    (∃ e, v.encode (if x.mask then some key else none) = .err e ∧ x.send v key w = (.err e, w)) ∨
    (∃ bs pre k w', v.encode (if x.mask then some key else none) = .ok bs ∧ x.send v key w = (.err (.ofIo k), w') ∧
      pre <+: bs ∧ w'.wire = w.wire ++ pre) := by
  unfold Sender.send FrameView.writeTo
  cases he : v.encode (if x.mask then some key else none) with
  | ok bs =>
    cases hw : w.writeAll bs with
    | mk r w' =>
      cases r with
      | ok u => exact .inl ⟨bs, w', rfl, by simp only [hw], writeAll_ok hw⟩
      | error k =>
        obtain ⟨pre, h1, h2⟩ := writeAll_prefix bs w
        rw [hw] at h2
        exact .inr (.inr ⟨bs, pre, k, w', rfl, by simp only [hw], h1, h2⟩)
  | err e => exact .inr (.inl ⟨e, rfl, rfl⟩)
  | panic e =>
    have := encode_not_panic (v := v) (if x.mask then some key else none)
    rw [he] at this; simp at this

theorem BytesMut.advance_wf {b : BytesMut} (n : Nat) (h : b.WF) : (b.advance n).WF := by
  unfold BytesMut.WF BytesMut.advance at *
  simp only [List.length_drop]; omega

theorem pollComplete_inv (fw : FramedWrite) (w : Sink) (hw : fw.buf.WF) :
    (fw.pollComplete w).2.2.wire ++ (fw.pollComplete w).2.1.buf.data = w.wire ++ fw.buf.data ∧
      (fw.pollComplete w).2.1.buf.WF ∧ (fw.pollComplete w).2.1.isServer = fw.isServer ∧
      w.wire <+: (fw.pollComplete w).2.2.wire ∧
      ((fw.pollComplete w).1 = .ready → (fw.pollComplete w).2.1.buf.data = []) ∧
      (∀ e, (fw.pollComplete w).1 ≠ .panic e) := by
  fun_induction FramedWrite.pollComplete fw w with
  | case1 fw w h => exact ⟨rfl, hw, rfl, List.prefix_rfl, fun _ => h, by simp⟩
  | case2 fw h wire =>
    exact ⟨by simp [BytesMut.advance], BytesMut.advance_wf _ hw, rfl, List.prefix_append _ _,
      by simp [BytesMut.advance], by simp⟩
  | case3 fw h wire s => exact ⟨rfl, hw, rfl, List.prefix_rfl, by simp, by simp⟩
  | case4 => exact ⟨rfl, hw, rfl, List.prefix_rfl, by simp, by simp⟩
  | case5 => exact ⟨rfl, hw, rfl, List.prefix_rfl, by simp, by simp⟩
  | case6 fw h wire n s h0 ih =>
    obtain ⟨i1, i2, i3, i4, i5, i6⟩ := ih (BytesMut.advance_wf _ hw)
    refine ⟨?_, i2, i3, List.IsPrefix.trans (List.prefix_append _ _) i4, i5, i6⟩
    rw [i1]
    simp only [BytesMut.advance, List.append_assoc]
    congr 1
    have : List.drop (min n (List.length fw.buf.data)) fw.buf.data = fw.buf.data.drop n := by
      by_cases hn : n ≤ fw.buf.data.length
      · rw [Nat.min_eq_left hn]
      · rw [Nat.min_eq_right (by omega), List.drop_length, List.drop_eq_nil_of_le (by omega)]
    rw [this, List.take_append_drop]

theorem BytesMut.reserve_wf {b : BytesMut} (n extra : Nat) (h : b.WF) : (b.reserve n extra).WF := by
  unfold BytesMut.reserve
  split
  · exact h
  · simp only [BytesMut.WF]; omega

/-- What a step adds to wire and queue together. -/
def SinkOp.adds (isServer : Bool) (op : SinkOp) (r : SendRes) : Bytes :=
  match op, r with
  | .send v key _, .ready => match v.encode (if isServer then none else some key) with
    | .ok bs => bs
    | _ => []
  | _, _ => []

def SinkOp.Lawful : SinkOp → Prop
  | .send v _ _ => v.Lawful
  | .flush => True

theorem step_inv (fw : FramedWrite) (op : SinkOp) (ho : op.Lawful) (w : Sink) (hw : fw.buf.WF) :
    (fw.step op w).2.2.wire ++ (fw.step op w).2.1.buf.data =
        w.wire ++ fw.buf.data ++ op.adds fw.isServer (fw.step op w).1 ∧
      (fw.step op w).2.1.buf.WF ∧ (fw.step op w).2.1.isServer = fw.isServer ∧
      w.wire <+: (fw.step op w).2.2.wire ∧ (∀ e, (fw.step op w).1 ≠ .panic e) ∧
      ((fw.step op w).1 = .ready → ∀ v key extra, op = .send v key extra →
        ∃ bs, v.encode (if fw.isServer then none else some key) = .ok bs) := by
  cases op with
  | flush =>
    obtain ⟨a, b, c, d, -, f⟩ := pollComplete_inv fw w hw
    exact ⟨by simp only [SinkOp.adds, List.append_nil]; exact a, b, c, d, f, by intro _ v k e h; cases h⟩
  | send v key extra =>
    have henc : ∀ (fw : FramedWrite) (w : Sink), fw.buf.WF →
        ∃ r buf, (match encodeInto fw.isServer v key extra fw.buf with
          | (.ok _, buf) => (SendRes.ready, { fw with buf := buf }, w)
          | (.err e, buf) => (.err e, { fw with buf := buf }, w)
          | (.panic e, buf) => (.panic e, { fw with buf := buf }, w)) = (r, { fw with buf := buf }, w) ∧ buf.WF ∧
          buf.data = fw.buf.data ++ SinkOp.adds fw.isServer (.send v key extra) r ∧ (∀ e, r ≠ .panic e) ∧
          (r = .ready → ∃ bs, v.encode (if fw.isServer then none else some key) = .ok bs) := by
      intro fw w hw
      have h := C07_encode_into_buffer fw.isServer v ho key extra fw.buf hw
      cases he : v.encode (if fw.isServer then none else some key) with
      | ok bs =>
        rw [he] at h
        obtain ⟨cap, h1, h2⟩ := h
        rw [h1]
        exact ⟨.ready, _, rfl, h2, by simp [SinkOp.adds, he], by simp, fun _ => ⟨bs, rfl⟩⟩
      | err e =>
        rw [he] at h
        obtain ⟨cap, h1⟩ := h
        have hcap : BytesMut.WF ⟨fw.buf.data, cap⟩ := by
          have h2 := h1
          unfold encodeInto at h2
          simp only at h2
          rw [show (if (!fw.isServer) = true then some key else none) = (if fw.isServer then none else some key) by
            cases fw.isServer <;> rfl, he] at h2
          simp only [Prod.mk.injEq, true_and] at h2
          rw [← h2]
          split
          · exact BytesMut.reserve_wf _ _ hw
          · exact hw
        rw [h1]
        exact ⟨.err e, _, rfl, hcap, by simp [SinkOp.adds], by simp, by simp⟩
      | panic e => rw [he] at h; exact h.elim
    show (fw.startSend v key extra w).2.2.wire ++ (fw.startSend v key extra w).2.1.buf.data =
        w.wire ++ fw.buf.data ++ SinkOp.adds fw.isServer (.send v key extra) (fw.startSend v key extra w).1 ∧
      (fw.startSend v key extra w).2.1.buf.WF ∧ (fw.startSend v key extra w).2.1.isServer = fw.isServer ∧
      w.wire <+: (fw.startSend v key extra w).2.2.wire ∧ (∀ e, (fw.startSend v key extra w).1 ≠ .panic e) ∧
      ((fw.startSend v key extra w).1 = .ready → ∀ v' key' extra', SinkOp.send v key extra = .send v' key' extra' →
        ∃ bs, v'.encode (if fw.isServer then none else some key') = .ok bs)
    unfold FramedWrite.startSend
    simp only
    split
    · obtain ⟨a, b, c, d, -, f⟩ := pollComplete_inv fw w hw
      cases hp : fw.pollComplete w with
      | mk r q =>
        obtain ⟨fw', w'⟩ := q
        rw [hp] at a b c d f
        simp only at a b c d f
        have back : w'.wire ++ fw'.buf.data = w.wire ++ fw.buf.data ++ SinkOp.adds fw.isServer (.send v key extra) .notReady ∧
          fw'.buf.WF ∧ fw'.isServer = fw.isServer ∧ w.wire <+: w'.wire := ⟨by simp [SinkOp.adds, a], b, c, d⟩
        have go : ∀ x : SendRes × FramedWrite × Sink,
            x = (if fw'.buf.data.length ≥ 8 * 1024 then (.notReady, fw', w') else
              match encodeInto fw'.isServer v key extra fw'.buf with
              | (.ok _, buf) => (.ready, { fw' with buf := buf }, w')
              | (.err e, buf) => (.err e, { fw' with buf := buf }, w')
              | (.panic e, buf) => (.panic e, { fw' with buf := buf }, w')) →
            x.2.2.wire ++ x.2.1.buf.data = w.wire ++ fw.buf.data ++ SinkOp.adds fw.isServer (.send v key extra) x.1 ∧
            x.2.1.buf.WF ∧ x.2.1.isServer = fw.isServer ∧ w.wire <+: x.2.2.wire ∧ (∀ e, x.1 ≠ .panic e) ∧
            (x.1 = .ready → ∀ v' key' extra', SinkOp.send v key extra = .send v' key' extra' →
              ∃ bs, v'.encode (if fw.isServer then none else some key') = .ok bs) := by
          intro x hx
          split at hx
          · subst hx; exact ⟨back.1, b, c, d, by simp, by simp⟩
          · obtain ⟨r, buf, h1, h2, h3, h4, h5⟩ := henc fw' w' b
            rw [h1] at hx
            subst hx
            refine ⟨?_, h2, c, d, h4, ?_⟩
            · simp only [h3]; rw [← List.append_assoc, a, c]
            · intro hr v' k' e' heq; cases heq; rw [← c]; exact h5 hr
        cases r with
        | ready => exact go _ rfl
        | notReady => exact go _ rfl
        | err e => exact ⟨by simp only [SinkOp.adds, List.append_nil]; exact a, b, c, d, by simp, by simp⟩
        | panic e => exact absurd rfl (f e)
    · obtain ⟨r, buf, h1, h2, h3, h4, h5⟩ := henc fw w hw
      have fin : ∀ x : SendRes × FramedWrite × Sink, x = (r, { fw with buf := buf }, w) →
            x.2.2.wire ++ x.2.1.buf.data = w.wire ++ fw.buf.data ++ SinkOp.adds fw.isServer (.send v key extra) x.1 ∧
            x.2.1.buf.WF ∧ x.2.1.isServer = fw.isServer ∧ w.wire <+: x.2.2.wire ∧ (∀ e, x.1 ≠ .panic e) ∧
            (x.1 = .ready → ∀ v' key' extra', SinkOp.send v key extra = .send v' key' extra' →
              ∃ bs, v'.encode (if fw.isServer then none else some key') = .ok bs) := by
        intro x hx
        subst hx
        refine ⟨by simp only [h3, List.append_assoc], h2, rfl, List.prefix_rfl, h4, ?_⟩
        intro hr v' k' e' heq; cases heq; exact h5 hr
      exact fin _ h1

/-- Everything accepted so far, as bytes. -/
def accepted (isServer : Bool) : List SinkOp → List SendRes → Bytes
  | op :: ops, r :: rs => op.adds isServer r ++ accepted isServer ops rs
  | _, _ => []

theorem run_inv (ops : List SinkOp) (hops : ∀ op ∈ ops, op.Lawful) (fw : FramedWrite) (w : Sink) (hw : fw.buf.WF) :
    (fw.run ops w).2.2.wire ++ (fw.run ops w).2.1.buf.data =
        w.wire ++ fw.buf.data ++ accepted fw.isServer ops (fw.run ops w).1 ∧
      (fw.run ops w).2.1.buf.WF ∧ (fw.run ops w).2.1.isServer = fw.isServer ∧
      w.wire <+: (fw.run ops w).2.2.wire ∧ (∀ e, SendRes.panic e ∉ (fw.run ops w).1) := by
  induction ops generalizing fw w with
  | nil => exact ⟨by simp [FramedWrite.run, accepted], hw, rfl, List.prefix_rfl, by simp [FramedWrite.run]⟩
  | cons op ops ih =>
    obtain ⟨a, b, c, d, f, -⟩ := step_inv fw op (hops op List.mem_cons_self) w hw
    obtain ⟨i1, i2, i3, i4, i5⟩ := ih (fun o ho => hops o (List.mem_cons_of_mem _ ho)) (fw.step op w).2.1 (fw.step op w).2.2 b
    simp only [FramedWrite.run]
    refine ⟨?_, i2, i3.trans c, d.trans i4, ?_⟩
    · rw [i1, a, c]; simp [accepted]
    · intro e he
      rcases List.mem_cons.mp he with h | h
      · exact f e h.symm
      · exact i5 e h

end WS
