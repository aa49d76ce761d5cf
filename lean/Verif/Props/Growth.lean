import Verif.Props.Limits
import Verif.Props.Receive
import Verif.Lemmas.EndToEnd
/-!
# C21: what happens to a caller who goes on after limit errors

`C21_refuted_blocking` and `C21_refuted_async` show that the held data grow without bound if limit
errors are ignored. These theorems bound the growth by the number of errors ignored, and show that
the refused message is delivered in the end.
-/

namespace WS
open Spec (IsFrame Allowed Assembles)

/-- How many of the results are limit errors. -/
def Spec.ignored (xs : List (Res OwnedMsg)) : Nat :=
  xs.countP fun x => decide (x = .err (.protocol "Exceeded maximum WebSocket message size") ∨
    x = .err (.protocol "Exceeded count of data frames in one WebSocket message"))

/-- The same for the items of a stream. -/
def Spec.ignoredItems (xs : List (Item OwnedMsg)) : Nat :=
  xs.countP fun x => decide (x = .err (.protocol "Exceeded maximum WebSocket message size") ∨
    x = .err (.protocol "Exceeded count of data frames in one WebSocket message"))

theorem recvMany_succ (n : Nat) (r : Receiver) (s : Src) : r.recvMany (n + 1) s =
    ((r.recvMessage s).1 :: ((r.recvMessage s).2.1.recvMany n (r.recvMessage s).2.2).1,
      ((r.recvMessage s).2.1.recvMany n (r.recvMessage s).2.2).2.1,
      ((r.recvMessage s).2.1.recvMany n (r.recvMessage s).2.2).2.2) := rfl

theorem nextMany_succ (n : Nat) (fr : Framed MsgCodec) (s : Src) : fr.nextMany msgDecoder (n + 1) s =
    ((fr.next msgDecoder s).1 :: ((fr.next msgDecoder s).2.1.nextMany msgDecoder n (fr.next msgDecoder s).2.2).1,
      ((fr.next msgDecoder s).2.1.nextMany msgDecoder n (fr.next msgDecoder s).2.2).2.1,
      ((fr.next msgDecoder s).2.1.nextMany msgDecoder n (fr.next msgDecoder s).2.2).2.2) := rfl

theorem growth_sync (n : Nat) (r : Receiver) (hr : r.WF) (s : Src) (B K : Nat) (hd : r.maxDf ≤ B) (hm : r.maxMsg ≤ B + 1)
    (hK : maxFrames ≤ K + 1) (hB : heldLen r.buffer ≤ B) (hKb : r.buffer.length ≤ K) (hmem : B + n * r.maxDf ≤ isizeMax - u32Max) :
    heldLen (r.recvMany n s).2.1.buffer ≤ B + Spec.ignored (r.recvMany n s).1 * r.maxDf ∧
    (r.recvMany n s).2.1.buffer.length ≤ K + Spec.ignored (r.recvMany n s).1 ∧
    ∀ m, Res.ok m ∈ (r.recvMany n s).1 →
      m.view.payload.length ≤ B + Spec.ignored (r.recvMany n s).1 * r.maxDf + r.maxDf := by
  induction n generalizing r s B K with
  | zero => exact ⟨by simpa [Receiver.recvMany] using Nat.le_add_right_of_le hB, by simpa [Receiver.recvMany] using Nat.le_add_right_of_le hKb, by simp [Receiver.recvMany]⟩
  | succ n ih =>
    have hmul : (n + 1) * r.maxDf = n * r.maxDf + r.maxDf := by rw [Nat.add_mul, Nat.one_mul]
    obtain ⟨h0, h⟩ := recvMessage_bound r hr s (B := B) (K := K) hd hm hK (by omega) hB hKb
    have hmd : (r.recvMessage s).2.1.maxDf = r.maxDf := by rw [h0]
    have hmm : (r.recvMessage s).2.1.maxMsg = r.maxMsg := by rw [h0]
    have hwf : (r.recvMessage s).2.1.WF := ⟨hmd ▸ hr.1, hmm ▸ hr.2⟩
    rw [recvMany_succ]
    simp only
    rcases h with ⟨e, h1, h2, h3, h4⟩ | ⟨h3, h4, h5⟩
    · obtain ⟨i1, i2, i3⟩ := ih (r.recvMessage s).2.1 hwf (r.recvMessage s).2.2 (B + r.maxDf) (K + 1) (by omega) (by omega)
        (by omega) h3 h4 (by rw [hmd]; omega)
      have hc : Spec.ignored ((r.recvMessage s).1 :: ((r.recvMessage s).2.1.recvMany n (r.recvMessage s).2.2).1) =
          Spec.ignored ((r.recvMessage s).2.1.recvMany n (r.recvMessage s).2.2).1 + 1 := by
        unfold Spec.ignored
        rw [List.countP_cons_of_pos]
        rw [h2]
        rcases h1 with rfl | rfl <;> simp [msgLimitErr, msgCountErr]
      rw [hc, Nat.add_mul, Nat.one_mul]
      rw [hmd] at i1 i3
      refine ⟨by omega, by omega, fun m hm => ?_⟩
      rcases List.mem_cons.mp hm with hm | hm
      · rw [h2] at hm; simp at hm
      · have := i3 m hm; omega
    · obtain ⟨i1, i2, i3⟩ := ih (r.recvMessage s).2.1 hwf (r.recvMessage s).2.2 B K (by omega) (by omega) hK h3 h4
        (by rw [hmd]; omega)
      rw [hmd] at i1 i3
      have hc : Spec.ignored ((r.recvMessage s).2.1.recvMany n (r.recvMessage s).2.2).1 ≤
          Spec.ignored ((r.recvMessage s).1 :: ((r.recvMessage s).2.1.recvMany n (r.recvMessage s).2.2).1) :=
        (List.sublist_cons_self _ _).countP_le
      have hc' := Nat.mul_le_mul_right r.maxDf hc
      refine ⟨by omega, by omega, fun m hm => ?_⟩
      rcases List.mem_cons.mp hm with hm | hm
      · have := h5 m hm.symm; omega
      · have := i3 m hm; omega

/-- C21, blocking, what holds: after any number of receives on any transport the held data exceed the
bound of C20 by at most one frame for every limit error that was ignored, and so do the messages
delivered. (The number of receives is limited so that the sums fit into memory.) -/
theorem C21_growth_total_blocking_partial (mask : Bool) (maxDf maxMsg n : Nat) (hn : n < 2 ^ 30) (s : Src) :
    let out := (Receiver.newWithLimits mask maxDf maxMsg).recvMany n s
    Spec.bytesOf out.2.1.buffer ≤ max maxDf (maxMsg - 1) + Spec.ignored out.1 * maxDf ∧
    out.2.1.buffer.length < 2 ^ 20 + Spec.ignored out.1 ∧
    ∀ m, Res.ok m ∈ out.1 → Spec.size m ≤ max maxDf (maxMsg - 1) + (Spec.ignored out.1 + 1) * maxDf := by
  have hmd : (Receiver.newWithLimits mask maxDf maxMsg).maxDf = min maxDf u32Max := rfl
  have hmm : (Receiver.newWithLimits mask maxDf maxMsg).maxMsg = min maxMsg u32Max := rfl
  have hmul : n * min maxDf u32Max ≤ 2 ^ 30 * u32Max := Nat.mul_le_mul (by omega) (Nat.min_le_right _ _)
  have hbig : u32Max + 2 ^ 30 * u32Max ≤ isizeMax - u32Max := by decide
  obtain ⟨h1, h2, h3⟩ := growth_sync n (Receiver.newWithLimits mask maxDf maxMsg) (Receiver.wf_new _ _ _) s
    (max (min maxDf u32Max) (min maxMsg u32Max - 1)) (maxFrames - 1) (by rw [hmd]; omega) (by rw [hmm]; omega) (by decide)
    (Nat.zero_le _) (Nat.zero_le _) (by rw [hmd]; omega)
  intro out
  rw [hmd] at h1 h3
  have hc : ∀ k, k * min maxDf u32Max ≤ k * maxDf := fun k => Nat.mul_le_mul_left k (Nat.min_le_left _ _)
  refine ⟨?_, ?_, ?_⟩
  · have := hc (Spec.ignored out.1)
    have h1 : Spec.bytesOf out.2.1.buffer ≤ max (min maxDf u32Max) (min maxMsg u32Max - 1) +
      Spec.ignored out.1 * min maxDf u32Max := h1
    omega
  · have : maxFrames = 2 ^ 20 := by decide
    have h2 : out.2.1.buffer.length ≤ maxFrames - 1 + Spec.ignored out.1 := h2
    omega
  · intro m hm
    rw [size_eq]
    have := hc (Spec.ignored out.1)
    have h3 : m.view.payload.length ≤ max (min maxDf u32Max) (min maxMsg u32Max - 1) +
      Spec.ignored out.1 * min maxDf u32Max + min maxDf u32Max := h3 m hm
    rw [Nat.add_mul, Nat.one_mul]
    exact Nat.le_trans h3 (by omega)

theorem growth_async (n : Nat) (fr : Framed MsgCodec) (hr : fr.codec.WF) (s : Src) (B K : Nat) (hm : fr.codec.maxMsg ≤ B)
    (hK : maxFrames ≤ K + 1) (hB : heldLen fr.codec.buffer ≤ B) (hKb : fr.codec.buffer.length ≤ K)
    (hmem : B + n * fr.codec.df.maxDf ≤ isizeMax - u32Max) :
    heldLen (fr.nextMany msgDecoder n s).2.1.codec.buffer ≤
      B + Spec.ignoredItems (fr.nextMany msgDecoder n s).1 * fr.codec.df.maxDf ∧
    (fr.nextMany msgDecoder n s).2.1.codec.buffer.length ≤ K + Spec.ignoredItems (fr.nextMany msgDecoder n s).1 ∧
    ∀ m, Item.item m ∈ (fr.nextMany msgDecoder n s).1 →
      m.view.payload.length ≤ B + Spec.ignoredItems (fr.nextMany msgDecoder n s).1 * fr.codec.df.maxDf + fr.codec.df.maxDf := by
  induction n generalizing fr s B K with
  | zero => exact ⟨by simpa [Framed.nextMany] using Nat.le_add_right_of_le hB, by simpa [Framed.nextMany] using Nat.le_add_right_of_le hKb, by simp [Framed.nextMany]⟩
  | succ n ih =>
    have hmul : (n + 1) * fr.codec.df.maxDf = n * fr.codec.df.maxDf + fr.codec.df.maxDf := by rw [Nat.add_mul, Nat.one_mul]
    have h := next_inv (msgDecoder_inv (B := B) (K := K) (maxDf := fr.codec.df.maxDf)
      (maxMsg := fr.codec.maxMsg) hr.1 hm hK (by omega)) s fr ⟨rfl, rfl, hB, hKb⟩
    rw [nextMany_succ]
    simp only
    rcases h with ⟨e, h1, h2, hmd, hmm, h3, h4⟩ | ⟨⟨hmd, hmm, h3, h4⟩, h5⟩
    · obtain ⟨i1, i2, i3⟩ := ih (fr.next msgDecoder s).2.1 ⟨hmd ▸ hr.1, hmm ▸ hr.2⟩ (fr.next msgDecoder s).2.2
        (B + fr.codec.df.maxDf) (K + 1) (by omega) (by omega) h3 h4 (by rw [hmd]; omega)
      have hc : Spec.ignoredItems ((fr.next msgDecoder s).1 :: ((fr.next msgDecoder s).2.1.nextMany msgDecoder n (fr.next msgDecoder s).2.2).1) =
          Spec.ignoredItems ((fr.next msgDecoder s).2.1.nextMany msgDecoder n (fr.next msgDecoder s).2.2).1 + 1 := by
        unfold Spec.ignoredItems
        rw [List.countP_cons_of_pos]
        rw [h2]
        rcases h1 with rfl | rfl <;> simp [msgLimitErr, msgCountErr]
      rw [hc, Nat.add_mul, Nat.one_mul]
      rw [hmd] at i1 i3
      refine ⟨by omega, by omega, fun m hm => ?_⟩
      rcases List.mem_cons.mp hm with hm | hm
      · rw [h2] at hm; simp at hm
      · have := i3 m hm; omega
    · obtain ⟨i1, i2, i3⟩ := ih (fr.next msgDecoder s).2.1 ⟨hmd ▸ hr.1, hmm ▸ hr.2⟩ (fr.next msgDecoder s).2.2 B K (by omega)
        hK h3 h4 (by rw [hmd]; omega)
      rw [hmd] at i1 i3
      have hc : Spec.ignoredItems ((fr.next msgDecoder s).2.1.nextMany msgDecoder n (fr.next msgDecoder s).2.2).1 ≤
          Spec.ignoredItems ((fr.next msgDecoder s).1 :: ((fr.next msgDecoder s).2.1.nextMany msgDecoder n (fr.next msgDecoder s).2.2).1) :=
        (List.sublist_cons_self _ _).countP_le
      have hc' := Nat.mul_le_mul_right fr.codec.df.maxDf hc
      refine ⟨by omega, by omega, fun m hm => ?_⟩
      rcases List.mem_cons.mp hm with hm | hm
      · have := h5 m hm.symm; omega
      · have := i3 m hm; omega

/-- The same for the async stream. -/
theorem C21_growth_total_async_partial (ctx : Context) (maxDf maxMsg n : Nat) (hn : n < 2 ^ 30) (s : Src) :
    let out := (Framed.new (MsgCodec.newWithLimits ctx maxDf maxMsg)).nextMany msgDecoder n s
    Spec.bytesOf out.2.1.codec.buffer ≤ maxMsg + Spec.ignoredItems out.1 * maxDf ∧
    out.2.1.codec.buffer.length < 2 ^ 20 + Spec.ignoredItems out.1 ∧
    ∀ m, Item.item m ∈ out.1 → Spec.size m ≤ maxMsg + (Spec.ignoredItems out.1 + 1) * maxDf := by
  have hmd : (Framed.new (MsgCodec.newWithLimits ctx maxDf maxMsg)).codec.df.maxDf = min maxDf u32Max := rfl
  have hmm : (Framed.new (MsgCodec.newWithLimits ctx maxDf maxMsg)).codec.maxMsg = min maxMsg u32Max := rfl
  have hmul : n * min maxDf u32Max ≤ 2 ^ 30 * u32Max := Nat.mul_le_mul (by omega) (Nat.min_le_right _ _)
  have hbig : u32Max + 2 ^ 30 * u32Max ≤ isizeMax - u32Max := by decide
  obtain ⟨h1, h2, h3⟩ := growth_async n (Framed.new (MsgCodec.newWithLimits ctx maxDf maxMsg)) (MsgCodec.wf_new _ _ _) s
    (min maxMsg u32Max) (maxFrames - 1) (by rw [hmm]; omega) (by decide)
    (Nat.zero_le _) (Nat.zero_le _) (by rw [hmd]; omega)
  intro out
  rw [hmd] at h1 h3
  have hc : ∀ k, k * min maxDf u32Max ≤ k * maxDf := fun k => Nat.mul_le_mul_left k (Nat.min_le_left _ _)
  refine ⟨?_, ?_, ?_⟩
  · have := hc (Spec.ignoredItems out.1)
    have h1 : Spec.bytesOf out.2.1.codec.buffer ≤ min maxMsg u32Max +
      Spec.ignoredItems out.1 * min maxDf u32Max := h1
    omega
  · have : maxFrames = 2 ^ 20 := by decide
    have h2 : out.2.1.codec.buffer.length ≤ maxFrames - 1 + Spec.ignoredItems out.1 := h2
    omega
  · intro m hm
    rw [size_eq]
    have := hc (Spec.ignoredItems out.1)
    have h3 : m.view.payload.length ≤ min maxMsg u32Max +
      Spec.ignoredItems out.1 * min maxDf u32Max + min maxDf u32Max := h3 m hm
    rw [Nat.add_mul, Nat.one_mul]
    exact Nat.le_trans h3 (by omega)

/-- C21 fails in the end: whatever a blocking receiver holds, be it far over the limit and refused
before, a final frame that completes it makes the receiver deliver all of it. -/
theorem C21_refused_message_delivered_blocking (r : Receiver) (hr : r.WF) (hmem : heldLen r.buffer ≤ isizeMax - u32Max)
    (f : Spec.Frame) (key : Option (List UInt8)) (fb x : Bytes) (hfb : IsFrame f key fb) (hk : key.isSome = r.mask)
    (hl : f.payload.length ≤ r.maxDf) (ha : Allowed (specs r.buffer) f) (hfin : f.fin = true) (m : OwnedMsg)
    (hm : Assembles ((specs r.buffer ++ [f]).map Spec.Frame.fragment) m.spec) (s : Src) (hs : s.Clean) (hf : s.flat = fb ++ x) :
    ∃ s', r.recvMessage s = (.ok m, { r with buffer := [] }, s') ∧ Src.flat s' = x := by
  have hok : Spec.ControlOk f := by
    intro h8
    rcases ha with ⟨_, _, h⟩ | ⟨_, h⟩ <;> omega
  obtain ⟨g, rfl, hg⟩ := parseFrame_isFrame (Nat.lt_of_le_of_lt hr.1 (by decide)) (big := .io .invalidData) hfb hk hok hl x
  have hgl : g.data.length ≤ u32Max := Nat.le_trans hl hr.1
  have e : specs r.buffer ++ [g.spec] = specs (r.buffer ++ [g]) := by rw [specs_append]; rfl
  obtain ⟨om, h2, h3⟩ := OwnedMsg.of_assembles (fs := r.buffer ++ [g])
    (by rw [heldLen_append, heldLen_single]
        have : u32Max ≤ isizeMax := by decide
        omega) (by rw [← e]; exact hm)
  have hom : om = m := OwnedMsg.spec_inj h2
  subst hom
  obtain ⟨s', -, g2, g3⟩ := recvMessage_clean r (Nat.le_trans hr.1 (by decide)) s hs
  have hb : r.recvBytes (fb ++ x) = (.ok om, { r with buffer := [] }, x) := by
    unfold Receiver.recvBytes
    rw [pLoop_ok (c := r.cfg) hg, (stepOk_sync r hr.1 hr.2).final r.buffer _ g ha hfin]
    simp only [h3]
  rw [hf, hb] at g2 g3
  exact ⟨s', g2, g3⟩

/-- Limit errors from a peer that then ends its message: the text of 103 bytes comes out although
the message limit is 1. -/
example : ((Receiver.newWithLimits false 125 1).recvMany 4
      [.chunk [0x01, 1, 97, 0x00, 1, 98, 0x00, 1, 98, 0x00, 100, 98], .chunk (List.replicate 99 98), .chunk [0x80, 0]]).1.drop 3 =
    [.ok (.text (97 :: List.replicate 102 98))] := by decide +kernel

example := C21_growth_total_blocking_partial false 125 1 4 (by decide)
  [.chunk [0x01, 1, 97, 0x00, 1, 98, 0x00, 1, 98, 0x00, 100, 98], .chunk (List.replicate 99 98), .chunk [0x80, 0]]
example := C21_growth_total_async_partial .client 125 1 4 (by decide)
  [.chunk [0x01, 1, 97, 0x00, 1, 98, 0x00, 1, 98, 0x00, 100, 98], .error .wouldBlock, .chunk [0x80, 0]]

end WS
