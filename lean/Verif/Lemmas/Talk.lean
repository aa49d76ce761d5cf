import Verif.Spec.Talk
import Verif.Props.Client
import Verif.Props.EndToEnd
import Verif.Lemmas.Response
/-!
# Lemmas about programs that talk
-/

namespace WS
open Spec (Wire)

/-! ## Blocking -/

theorem talk_run (ts : List Talk) (c : Client) (hw : c.stream.WF) :
    (c.talk ts).1 = (c.receiver.recvMany (hears ts) c.stream.src).1.map Heard.ofRes ∧
    (c.talk ts).2.1 = (c.sender.sendMany (outgoing (said ts)) c.stream.inner.output).1.map (fun r => decide (r = .ok ())) ∧
    (c.talk ts).2.2.stream.inner.output = (c.sender.sendMany (outgoing (said ts)) c.stream.inner.output).2 := by
  induction ts generalizing c with
  | nil => exact ⟨rfl, rfl, rfl⟩
  | cons t ts ih =>
    cases t with
    | say m key extra =>
      have hw' : (c.send m.view key).2.stream.WF := hw
      obtain ⟨h1, h2, h3⟩ := ih _ hw'
      refine ⟨?_, ?_, ?_⟩
      · exact h1
      · simp only [Client.talk, said, outgoing, List.map_cons, Sender.sendMany]
        rw [h2]; rfl
      · simp only [Client.talk, said, outgoing, List.map_cons, Sender.sendMany]
        rw [h3]; rfl
    | hear =>
      obtain ⟨g1, g2, g3, g4, g5⟩ := C30_recv_through_buffer c hw
      obtain ⟨h1, h2, h3⟩ := ih _ g4
      refine ⟨?_, ?_, ?_⟩
      · simp only [Client.talk, hears, Receiver.recvMany, List.map_cons]
        rw [h1, g1, g2, g3]
      · simp only [Client.talk, said]
        rw [h2, g5]; rfl
      · simp only [Client.talk, said]
        rw [h3, g5]; rfl

theorem take_recvManyBytes (r : Receiver) (k n : Nat) (bs : Bytes) (h : k ≤ n) :
    (r.recvManyBytes k bs).1 = (r.recvManyBytes n bs).1.take k := by
  obtain ⟨j, rfl⟩ := Nat.exists_eq_add_of_le h
  rw [recvManyBytes_add]
  have : (r.recvManyBytes k bs).1.length = k := by
    clear h
    induction k generalizing r bs with
    | zero => rfl
    | succ k ih => simp [Receiver.recvManyBytes, ih]
  simp [this]

/-- A new receiver on a stream that carries `ms` and nothing else. -/
theorem hear_blocking (mask : Bool) (maxDf maxMsg : Nat) (ms : List OwnedMsg)
    (h : ∀ m ∈ ms, m.spec.Sendable (min maxDf u32Max)) {bs : Bytes} (hw : Wire mask (ms.map fun m => m.view.spec) bs)
    (s : Src) (hs : s.Clean) (hx : s.flat = bs) (k : Nat) :
    ((Receiver.newWithLimits mask maxDf maxMsg).recvMany k s).1.map Heard.ofRes = expected ms k := by
  have hr := Nat.le_trans (Receiver.wf_new mask maxDf maxMsg).1 (show u32Max ≤ isizeMax by decide)
  obtain ⟨s', h1, h2⟩ := receive_blocking mask maxDf maxMsg ms h hw [] s hs (by simpa using hx)
  obtain ⟨s'', -, g1, g2⟩ := recvMany_clean ms.length _ hr s hs
  rw [h1] at g1
  simp only [Prod.mk.injEq] at g1
  obtain ⟨e1, e2, e3⟩ := g1
  subst e3
  rw [h2] at g2
  obtain ⟨t, -, f1, -⟩ := recvMany_clean k _ hr s hs
  rw [f1]
  simp only
  unfold expected
  by_cases hk : k ≤ ms.length
  · rw [take_recvManyBytes _ k ms.length _ hk, ← e1, Nat.sub_eq_zero_of_le hk]
    simp [List.map_take, Heard.ofRes, Function.comp_def]
  · obtain ⟨j, rfl⟩ := Nat.exists_eq_add_of_le (Nat.le_of_not_le hk)
    rw [recvManyBytes_add, ← e1, ← e2, ← g2, recvManyBytes_end]
    simp [Heard.ofRes, Function.comp_def, List.take_of_length_le]

/-! ## Async -/

/-- A transport that keeps taking bytes, with pauses. -/
def Sink.Patient (w : Sink) : Prop := ∀ e ∈ w.script, e = .error .wouldBlock ∨ ∃ n, 0 < n ∧ e = .accept n

theorem pollComplete_patient (fw : FramedWrite) (w : Sink) (h : w.Patient) :
    ((fw.pollComplete w).1 = .ready ∨ (fw.pollComplete w).1 = .notReady) ∧ (fw.pollComplete w).2.2.Patient := by
  fun_induction FramedWrite.pollComplete fw w with
  | case1 fw w h' => exact ⟨.inl rfl, h⟩
  | case2 fw _ wire => exact ⟨.inl rfl, by simp [Sink.Patient]⟩
  | case3 fw _ wire s => exact ⟨.inr rfl, fun e he => h e (List.mem_cons_of_mem _ he)⟩
  | case4 fw _ wire k s hk =>
    rcases h _ List.mem_cons_self with h | ⟨n, _, h⟩
    · cases h; exact absurd rfl hk
    · cases h
  | case5 fw hne wire n s h0 =>
    rcases h _ List.mem_cons_self with h | ⟨n, h1, h⟩
    · cases h
    · cases h
      have : fw.buf.data.length ≠ 0 := by simpa using hne
      omega
  | case6 fw _ wire n s h0 ih => exact ih fun e he => h e (List.mem_cons_of_mem _ he)

theorem pollComplete_isServer (fw : FramedWrite) (w : Sink) : (fw.pollComplete w).2.1.isServer = fw.isServer := by
  fun_induction FramedWrite.pollComplete fw w with
  | case6 fw _ wire n s h0 ih => exact ih
  | _ => rfl

theorem drain_patient (fw : FramedWrite) (w : Sink) (h : w.Patient) :
    (fw.drain w).1 = .ready ∧ (fw.drain w).2.2.Patient ∧ (fw.drain w).2.1.isServer = fw.isServer := by
  fun_induction FramedWrite.drain fw w with
  | case1 fw w fw' w' hp ih =>
    have := pollComplete_patient fw w h
    rw [hp] at this
    have hi : fw'.isServer = fw.isServer := by
      have := pollComplete_isServer fw w; rw [hp] at this; exact this
    exact ⟨(ih this.2).1, (ih this.2).2.1, (ih this.2).2.2.trans hi⟩
  | case2 fw w r fw' w' hne hp =>
    have := pollComplete_patient fw w h
    rw [hp] at this
    have hi : fw'.isServer = fw.isServer := by
      have := pollComplete_isServer fw w; rw [hp] at this; exact this
    refine ⟨?_, this.2, hi⟩
    rcases this.1 with h | h
    · exact h
    · exact absurd h hne

/-- A message that can be sent, on an idle queue and a patient transport. -/
theorem sendAwait_patient (fw : FramedWrite) (w : Sink) (h : w.Patient) (hb : fw.buf.WF) (he : fw.buf.data = [])
    {m : OwnedMsg} {lim : Nat} (hm : m.spec.Sendable lim) (key : Key4) (extra : Nat) :
    ∃ bs fw' w', m.view.encode (if fw.isServer then none else some key) = .ok bs ∧
      fw.sendAwait m.view key extra w = (.ready, fw', w') ∧ w'.wire = w.wire ++ bs ∧ w'.Patient ∧
      fw'.buf.WF ∧ fw'.buf.data = [] ∧ fw'.isServer = fw.isServer := by
  obtain ⟨bs, hbs⟩ := encode_sendable hm (if fw.isServer then none else some key)
  have hc := C07_encode_into_buffer fw.isServer m.view m.lawful key extra fw.buf hb
  rw [hbs] at hc
  obtain ⟨cap, h1, h2⟩ := hc
  have hss : fw.startSend m.view key extra w = (.ready, { fw with buf := ⟨fw.buf.data ++ bs, cap⟩ }, w) := by
    unfold FramedWrite.startSend
    simp only
    rw [if_neg (by rw [he]; decide)]
    split
    · next q => rw [h1] at q; cases q; rfl
    · next q => rw [h1] at q; cases q
    · next q => rw [h1] at q; cases q
  have hd := drain_patient { fw with buf := ⟨fw.buf.data ++ bs, cap⟩ } w h
  have hs := drain_spec { fw with buf := ⟨fw.buf.data ++ bs, cap⟩ } w h2
  have e : fw.sendAwait m.view key extra w = FramedWrite.drain { fw with buf := ⟨fw.buf.data ++ bs, cap⟩ } w := by
    rw [FramedWrite.sendAwait]
    split
    · next q => rw [hss] at q; cases q
    · next q => rw [hss] at q; cases q; rfl
    · next q1 q2 q => rw [hss] at q; cases q; exact absurd rfl q2
  refine ⟨bs, _, _, hbs, by rw [e]; exact Prod.ext hd.1 rfl, ?_, hd.2.1, hs.2.2.2.2.2, hs.2.2.1 hd.1, hd.2.2⟩
  have := hs.1
  rw [hs.2.2.1 hd.1, List.append_nil] at this
  rw [this]
  simp [he]

theorem async_talk_heard (ts : List Talk) (c : AsyncClient) :
    (c.talk ts).1 = (c.read.nextMany msgDecoder (hears ts) c.stream.input).1.map Heard.ofItem := by
  induction ts generalizing c with
  | nil => rfl
  | cons t ts ih =>
    cases t with
    | say m key extra => simp only [AsyncClient.talk, hears]; rw [ih]
    | hear => simp only [AsyncClient.talk, hears, Framed.nextMany, List.map_cons]; rw [ih]

theorem async_talk_sent (ts : List Talk) (c : AsyncClient) (hp : c.stream.output.Patient) (hb : c.write.buf.WF)
    (he : c.write.buf.data = []) {lim : Nat} (hlim : lim < 2 ^ 63) (h : ∀ p ∈ said ts, p.1.spec.Sendable lim) :
    (c.talk ts).2.1 = (said ts).map (fun _ => true) ∧
      ∃ bs, (c.talk ts).2.2.stream.output.wire = c.stream.output.wire ++ bs ∧
        Wire (!c.write.isServer) ((said ts).map fun p => p.1.view.spec) bs := by
  induction ts generalizing c with
  | nil => exact ⟨rfl, [], by simp [AsyncClient.talk], .nil⟩
  | cons t ts ih =>
    cases t with
    | say m key extra =>
      have hm := h (m, key) List.mem_cons_self
      obtain ⟨bs, fw', w', e0, e1, e2, e3, e4, e5, e6⟩ := sendAwait_patient c.write c.stream.output hp hb he hm key extra
      obtain ⟨i1, bs', i2, i3⟩ := ih { c with write := fw', stream := { c.stream with output := w' } } e3 e4 e5
        (fun p hp => h p (List.mem_cons_of_mem _ hp))
      simp only [AsyncClient.talk, said, List.map_cons, e1]
      refine ⟨by rw [i1]; rfl, bs ++ bs', by rw [i2]; simp [e2], ?_⟩
      simp only at i3
      rw [e6] at i3
      have e0' : m.view.encode (if (!c.write.isServer) then some key else none) = .ok bs := by
        cases hs : c.write.isServer <;> rw [hs] at e0 <;> exact e0
      obtain ⟨k, f1, f2⟩ := encode_wire hlim hm (!c.write.isServer) key e0'
      exact .cons f1 f2 i3
    | hear =>
      exact ih _ hp hb he h

theorem nextMany_add {σ α} (dec : Decoder σ α) (k n : Nat) (fr : Framed σ) (s : Src) :
    (fr.nextMany dec (k + n) s).1 =
      (fr.nextMany dec k s).1 ++ ((fr.nextMany dec k s).2.1.nextMany dec n (fr.nextMany dec k s).2.2).1 := by
  induction k generalizing fr s with
  | zero => simp [Framed.nextMany]
  | succ k ih => rw [Nat.succ_add]; simp only [Framed.nextMany, ih, List.cons_append]

theorem nextMany_length {σ α} (dec : Decoder σ α) (k : Nat) (fr : Framed σ) (s : Src) : (fr.nextMany dec k s).1.length = k := by
  induction k generalizing fr s with
  | zero => rfl
  | succ k ih => simp [Framed.nextMany, ih]

theorem truncated_nil (masked : Bool) (lim : Nat) : Truncated masked lim [] := by
  obtain ⟨bs, hb, hw⟩ := message_wire masked 0 (by decide) (.binary []) (by simp [OwnedMsg.spec, Spec.Message.Sendable]) ⟨1, 2, 3, 4⟩
  cases hw with
  | @cons f fs key b1 b2 h1 h2 h3 =>
    cases h3
    refine ⟨_, key, b1, h1, ?_, h2, ?_, ?_⟩
    · rintro rfl; obtain ⟨_, _, _, _, _, h, _⟩ := h1; simp at h
    · intro h; exact absurd h (by decide)
    · exact Nat.zero_le _

/-- A new stream on a transport that carries `ms` and nothing else. -/
theorem hear_async (ctx : Context) (maxDf maxMsg : Nat) (ms : List OwnedMsg)
    (h : ∀ m ∈ ms, m.spec.Sendable (min maxDf u32Max)) {bs : Bytes}
    (hw : Wire (decide (ctx = .server)) (ms.map fun m => m.view.spec) bs)
    (buf : Bytes) (s : Src) (hs : s.Ready) (hx : buf ++ s.flat = bs) (k : Nat) :
    ((Framed.fromParts (MsgCodec.newWithLimits ctx maxDf maxMsg) buf).nextMany msgDecoder k s).1.map Heard.ofItem =
      expected ms k := by
  obtain ⟨hd, hl⟩ := msgs_delivers (fits := Spec.FitsAsync (min maxMsg u32Max)) ms h
  obtain ⟨oms, h1, h2⟩ := C27_truncated_stream_async ctx maxDf maxMsg _ _ _ hd hl bs [] hw (truncated_nil _ _) buf s hs
    (by simpa using hx) (k - ms.length)
  rw [List.length_map, OwnedMsg.map_spec_inj h2] at h1
  simp only [if_true] at h1
  unfold expected
  by_cases hk : k ≤ ms.length
  · obtain ⟨j, hj⟩ := Nat.exists_eq_add_of_le hk
    rw [Nat.sub_eq_zero_of_le hk, Nat.add_zero] at h1
    rw [Nat.sub_eq_zero_of_le hk]
    have h3 : ((Framed.fromParts (MsgCodec.newWithLimits ctx maxDf maxMsg) buf).nextMany msgDecoder k s).1 = (ms.map Item.item).take k := by
      rw [hj, nextMany_add] at h1
      have := congrArg (List.take k) h1
      rw [List.take_left' (nextMany_length _ _ _ _)] at this
      simpa using this
    rw [h3]
    simp [List.map_take, Heard.ofItem, Function.comp_def]
  · have : ms.length + (k - ms.length) = k := by omega
    rw [this] at h1
    rw [h1]
    simp [Heard.ofItem, Function.comp_def, List.take_of_length_le (Nat.le_of_not_le hk)]

end WS
