import Verif.Lemmas.Session
import Verif.Lemmas.Framed
/-! The blocking receiver on arbitrary scripts (including failing ones), in terms of its per-frame
step. -/

namespace WS

/-- The field types are `u32` (src/receiver.rs:82-84). -/
def Receiver.WF (r : Receiver) : Prop := r.maxDf ≤ u32Max ∧ r.maxMsg ≤ u32Max
/-- The field types are `u32` (websocket-base/src/codec/ws.rs:67-71, 219-227). -/
def MsgCodec.WF (c : MsgCodec) : Prop := c.df.maxDf ≤ u32Max ∧ c.maxMsg ≤ u32Max

theorem Receiver.wf_new (mask : Bool) (a b : Nat) : (Receiver.newWithLimits mask a b).WF :=
  ⟨Nat.min_le_right _ _, Nat.min_le_right _ _⟩
theorem MsgCodec.wf_new (ctx : Context) (a b : Nat) : (MsgCodec.newWithLimits ctx a b).WF :=
  ⟨Nat.min_le_right _ _, Nat.min_le_right _ _⟩

/-- `recv_message_dataframes` as a loop over the step function. -/
def sLoop (r : Receiver) (cur : Nat) (s : Src) : Res (List DataFrame) × Receiver × Src :=
  match h : r.recvDataframe s with
  | (.ok f, s') =>
    match syncStep r.maxMsg r.buffer cur f with
    | .msg fs b => (.ok fs, { r with buffer := b }, s')
    | .fail e b => (.err e, { r with buffer := b }, s')
    | .next b cur' => sLoop { r with buffer := b } cur' s'
  | (.err e, s') => (.err e, r, s')
  | (.panic e, s') => (.panic e, r, s')
termination_by s.measure
decreasing_by exact readDataframeWithLimit_lt h

theorem recvLoop_eq_sLoop (r : Receiver) (hb : r.buffer ≠ []) (cur : Nat) (s : Src) :
    recvLoop r cur s = sLoop r cur s := by
  fun_induction recvLoop r cur s with
  | case1 r cur s next s' h h0 r' hfin =>
    rw [sLoop]
    split <;> simp_all [syncStep, r']
  | case2 r cur s next s' h h0 r' hfin hmax =>
    rw [sLoop]
    split <;> simp_all [syncStep, r']
  | case3 r cur s next s' h h0 cur' r' hfin hmax hlen =>
    rw [sLoop]
    split
    · next f s'' h' =>
      rw [h] at h'
      simp only [Prod.mk.injEq, Res.ok.injEq] at h'
      obtain ⟨rfl, rfl⟩ := h'
      unfold syncStep
      rw [if_neg hb, if_pos h0, if_neg hfin, if_neg hmax, if_pos hlen]
    · next h' => rw [h] at h'; simp at h'
    · next h' => rw [h] at h'; simp at h'
  | case4 r cur s next s' h h0 cur' r' hfin hmax hlen ih =>
    rw [sLoop]
    split
    · next f s'' h' =>
      rw [h] at h'
      simp only [Prod.mk.injEq, Res.ok.injEq] at h'
      obtain ⟨rfl, rfl⟩ := h'
      have e : syncStep r.maxMsg r.buffer cur next = .next (r.buffer ++ [next]) cur' := by
        unfold syncStep
        rw [if_neg hb, if_pos h0, if_neg hfin, if_neg hmax, if_neg hlen]
      rw [e]
      exact ih (by simp [r'])
    · next h' => rw [h] at h'; simp at h'
    · next h' => rw [h] at h'; simp at h'
  | case5 r cur s next s' h h0 hctl =>
    rw [sLoop]
    split
    · next f s'' h' =>
      rw [h] at h'
      simp only [Prod.mk.injEq, Res.ok.injEq] at h'
      obtain ⟨rfl, rfl⟩ := h'
      unfold syncStep
      rw [if_neg hb, if_neg h0, if_pos hctl]
    · next h' => rw [h] at h'; simp at h'
    · next h' => rw [h] at h'; simp at h'
  | case6 r cur s next s' h h0 hctl =>
    rw [sLoop]
    split
    · next f s'' h' =>
      rw [h] at h'
      simp only [Prod.mk.injEq, Res.ok.injEq] at h'
      obtain ⟨rfl, rfl⟩ := h'
      unfold syncStep
      rw [if_neg hb, if_neg h0, if_neg hctl]
    · next h' => rw [h] at h'; simp at h'
    · next h' => rw [h] at h'; simp at h'
  | case7 r cur s e s' h =>
    rw [sLoop]
    split <;> simp_all
  | case8 r cur s e s' h =>
    rw [sLoop]
    split <;> simp_all

theorem sLoop_ok {r : Receiver} {cur : Nat} {s s' : Src} {f : DataFrame} (h : r.recvDataframe s = (.ok f, s')) :
    sLoop r cur s = match syncStep r.maxMsg r.buffer cur f with
    | .msg fs b => (.ok fs, { r with buffer := b }, s')
    | .fail e b => (.err e, { r with buffer := b }, s')
    | .next b cur' => sLoop { r with buffer := b } cur' s' := by
  rw [sLoop]
  split
  · next h' =>
    rw [h] at h'
    simp only [Prod.mk.injEq, Res.ok.injEq] at h'
    obtain ⟨rfl, rfl⟩ := h'
    rfl
  · next h' => rw [h] at h'; simp at h'
  · next h' => rw [h] at h'; simp at h'

theorem sLoop_err {r : Receiver} {cur : Nat} {s s' : Src} {e : WsErr} (h : r.recvDataframe s = (.err e, s')) :
    sLoop r cur s = (.err e, r, s') := by
  rw [sLoop]
  split <;> simp_all

theorem sLoop_panic {r : Receiver} {cur : Nat} {s s' : Src} {e : String} (h : r.recvDataframe s = (.panic e, s')) :
    sLoop r cur s = (.panic e, r, s') := by
  rw [sLoop]
  split <;> simp_all

theorem recvMessageDataframes_eq (r : Receiver) (s : Src) :
    r.recvMessageDataframes s = sLoop r (heldLen r.buffer) s := by
  unfold Receiver.recvMessageDataframes
  by_cases hb : r.buffer = []
  · simp only [hb, if_true]
    cases hx : r.recvDataframe s with
    | mk x s' =>
      cases x with
      | ok f =>
        rw [sLoop_ok hx]
        unfold syncStep
        simp only [hb, if_true, List.nil_append]
        by_cases hc : f.opcode = .continuation
        · rw [if_pos hc, if_pos hc]; simp [← hb]
        · rw [if_neg hc, if_neg hc]
          by_cases hf : f.finished = true
          · rw [if_pos hf, if_pos hf]
          · rw [if_neg hf, if_neg hf]
            rw [recvLoop_eq_sLoop _ (by simp)]
      | err e => rw [sLoop_err hx]
      | panic e => rw [sLoop_panic hx]
  · simp only [hb, if_false]
    exact recvLoop_eq_sLoop r hb _ s

/-- Frames returned by the reader respect the frame limit, on any transport. -/
theorem recvDataframe_len {r : Receiver} {s s' : Src} {f : DataFrame} (hr : r.maxDf ≤ u32Max)
    (h : r.recvDataframe s = (.ok f, s')) : f.data.length ≤ r.maxDf ∧ Spec.ControlOk f.spec := by
  have hp := sound_frame r.mask r.maxDf (.io .invalidData) s s' f h
  have hl63 : r.maxDf < 2 ^ 63 := Nat.lt_of_le_of_lt hr (by decide)
  obtain ⟨h1, h2, -⟩ := (parseFrame_ok_iff hl63).mp hp
  exact ⟨h1, h2⟩

/-- An invariant of one call: `J` of the buffer is preserved by every step on a legal frame. -/
theorem sLoop_induct {J : List DataFrame → Nat → Prop} {Q : Res (List DataFrame) → List DataFrame → Prop}
    (r0 : Receiver) (hr : r0.maxDf ≤ u32Max)
    (hstep : ∀ b cur f, J b cur → f.data.length ≤ r0.maxDf → Spec.ControlOk f.spec →
      match syncStep r0.maxMsg b cur f with
      | .msg fs b' => Q (.ok fs) b'
      | .fail e b' => Q (.err e) b'
      | .next b' cur' => J b' cur')
    (herr : ∀ b cur e, J b cur → Q (.err e) b) (hpanic : ∀ b cur e, J b cur → Q (.panic e) b)
    (r : Receiver) (hmask : r.mask = r0.mask) (h1 : r.maxDf = r0.maxDf) (h2 : r.maxMsg = r0.maxMsg)
    (cur : Nat) (s : Src) (hJ : J r.buffer cur) :
    Q (sLoop r cur s).1 (sLoop r cur s).2.1.buffer ∧
      (sLoop r cur s).2.1 = { r0 with buffer := (sLoop r cur s).2.1.buffer } := by
  fun_induction sLoop r cur s with
  | case1 r cur s f s' h fs b hs =>
    obtain ⟨hl, hc⟩ := recvDataframe_len (h1 ▸ hr) h
    have := hstep r.buffer cur f hJ (h1 ▸ hl) hc
    rw [← h2, hs] at this
    exact ⟨this, by simp [hmask, h1, h2]⟩
  | case2 r cur s f s' h e b hs =>
    obtain ⟨hl, hc⟩ := recvDataframe_len (h1 ▸ hr) h
    have := hstep r.buffer cur f hJ (h1 ▸ hl) hc
    rw [← h2, hs] at this
    exact ⟨this, by simp [hmask, h1, h2]⟩
  | case3 r cur s f s' h b cur' hs ih =>
    obtain ⟨hl, hc⟩ := recvDataframe_len (h1 ▸ hr) h
    have := hstep r.buffer cur f hJ (h1 ▸ hl) hc
    rw [← h2, hs] at this
    exact ih hmask h1 h2 this
  | case4 r cur s e s' h => exact ⟨herr _ _ _ hJ, by simp [← hmask, ← h1, ← h2]⟩
  | case5 r cur s e s' h => exact ⟨hpanic _ _ _ hJ, by simp [← hmask, ← h1, ← h2]⟩

end WS
