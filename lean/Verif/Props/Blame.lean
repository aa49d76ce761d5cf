import Verif.Lemmas.Blame
/-!
# C57: every error of a receive call has the cause it names

No assumption on the peer or the transport. `Spec/Blame.lean` lists the causes with their errors.
-/

namespace WS
open Spec (Cause DecodeCause StreamCause FrameFault Takes Halts NoWholeFrame)

/-- C57, one frame: if reading a frame fails, either the transport ended or failed (and the error says so) before a whole frame had come, or
the bytes taken are a bad frame (and the error says what is wrong with it). -/
theorem C57_frame (masked : Bool) (limit : Nat) (hl : limit ≤ u32Max) (s s' : Src) (e : WsErr) (h : readDataframeWithLimit masked limit s = (.err e, s')) :
    (∃ left s₁, Takes left s s₁ ∧ Halts e s₁ s' ∧ NoWholeFrame left) ∨
    (∃ bad, Takes bad s s' ∧ FrameFault masked limit (.io .invalidData) e bad) :=
  frame_cause hl h

/-- C57, blocking: after any number of receive calls, whatever their results were, if the next one fails then there is a cause in what the peer sent or in the
transport, and the error names it. -/
theorem C57_blocking (mask : Bool) (maxDf maxMsg n : Nat) (s₀ s s' : Src) (xs : List (Res OwnedMsg)) (r r' : Receiver) (e : WsErr)
    (hb : (Receiver.newWithLimits mask maxDf maxMsg).recvMany n s₀ = (xs, r, s)) (h : r.recvMessage s = (.err e, r', s')) :
    Cause mask (min maxDf u32Max) (min maxMsg u32Max) (r.buffer.map DataFrame.spec) s s' e := by
  obtain ⟨k1, k2⟩ := recvMany_tail n (Receiver.newWithLimits mask maxDf maxMsg) (Receiver.wf_new mask maxDf maxMsg).1 tail_nil s₀
  rw [hb] at k1 k2
  simp only at k1 k2
  have hr : r.maxDf ≤ u32Max := by rw [k1]; exact (Receiver.wf_new mask maxDf maxMsg).1
  have := (recvMessage_cause r hr s k2 h).2 e rfl
  rw [show r.mask = mask by rw [k1]; rfl, show r.maxDf = min maxDf u32Max by rw [k1]; rfl, show r.maxMsg = min maxMsg u32Max by rw [k1]; rfl] at this
  exact this

/-- C57, the decoder of the async stack: an error has a cause in the bytes given. -/
theorem C57_decoder (ctx : Context) (maxDf maxMsg : Nat) (src src' : Bytes) (c' : MsgCodec) (e : WsErr)
    (h : (MsgCodec.newWithLimits ctx maxDf maxMsg).decode src = (.err e, c', src')) :
    DecodeCause (decide (ctx = .server)) (min maxDf u32Max) (min maxMsg u32Max) [] src e :=
  (decode_cause _ (MsgCodec.wf_new ctx maxDf maxMsg).1 tail_nil src h).2.1 e rfl

/-- C57, async: after any number of items of the stream, errors included, if the next item is an error then it has a cause and names it. -/
theorem C57_async (ctx : Context) (maxDf maxMsg n : Nat) (buf : Bytes) (s₀ s s' : Src) (xs : List (Item OwnedMsg)) (fr fr' : Framed MsgCodec) (e : WsErr)
    (hb : (Framed.fromParts (MsgCodec.newWithLimits ctx maxDf maxMsg) buf).nextMany msgDecoder n s₀ = (xs, fr, s))
    (h : fr.next msgDecoder s = (.err e, fr', s')) :
    StreamCause (decide (ctx = .server)) (min maxDf u32Max) (min maxMsg u32Max) (fr.codec.buffer.map DataFrame.spec) fr.buf fr.eof s s' fr'.buf e := by
  obtain ⟨k1, k2⟩ := nextMany_tail n (Framed.fromParts (MsgCodec.newWithLimits ctx maxDf maxMsg) buf) (MsgCodec.wf_new ctx maxDf maxMsg).1 tail_nil s₀
  rw [hb] at k1 k2
  simp only at k1 k2
  have hr : fr.codec.df.maxDf ≤ u32Max := by rw [k1.1]; exact (MsgCodec.wf_new ctx maxDf maxMsg).1
  have := (next_cause fr s hr k2 h).2 e rfl
  rw [k1.1, k1.2] at this
  exact this

/-- C57: in particular an error that is neither an I/O error nor "no data" has its cause in the bytes the peer sent, not in the transport. -/
theorem C57_peer_is_to_blame (ctx : Context) (maxDf maxMsg n : Nat) (buf : Bytes) (s₀ s s' : Src) (xs : List (Item OwnedMsg)) (fr fr' : Framed MsgCodec)
    (e : WsErr) (hb : (Framed.fromParts (MsgCodec.newWithLimits ctx maxDf maxMsg) buf).nextMany msgDecoder n s₀ = (xs, fr, s))
    (h : fr.next msgDecoder s = (.err e, fr', s')) (hio : ∀ k, e ≠ .io k) (hend : e ≠ .noData) :
    ∃ pre, s = pre ++ s' ∧
      DecodeCause (decide (ctx = .server)) (min maxDf u32Max) (min maxMsg u32Max) (fr.codec.buffer.map DataFrame.spec) (fr.buf ++ Spec.chunkBytes pre) e := by
  obtain ⟨pre, h1, h2⟩ := C57_async ctx maxDf maxMsg n buf s₀ s s' xs fr fr' e hb h
  refine ⟨pre, h1, ?_⟩
  rcases h2 with ⟨k, -, -, -, hn⟩ | ⟨rfl, -⟩ | h2
  · cases hn with
    | ended => exact absurd rfl hend
    | failed => exact absurd rfl (hio k)
  · exact absurd rfl (hio .other)
  · exact h2

/-- A message, then an error in the middle of a fragmented one: a text frame where a continuation was due. -/
example : ((Receiver.newWithLimits false 100 1000).recvMany 2 [.chunk [0x81, 1, 65, 0x01, 1], .error .interrupted, .chunk [72, 0x81, 1, 66]]).1.length = 2 ∧
    ((Receiver.newWithLimits false 100 1000).recvMany 2 [.chunk [0x81, 1, 65, 0x01, 1], .error .interrupted, .chunk [72, 0x81, 1, 66]]).1[1]? =
      some (.err (.protocol "Unexpected data frame opcode")) := by decide +kernel

/-- The cause of that error, written out. -/
example : Cause false 100 1000 [] [.chunk [0x01, 1], .error .interrupted, .chunk [72, 0x81, 1, 66]] [] (.protocol "Unexpected data frame opcode") := by
  have := C57_blocking false 100 1000 0 [.chunk [0x01, 1], .error .interrupted, .chunk [72, 0x81, 1, 66]]
    [.chunk [0x01, 1], .error .interrupted, .chunk [72, 0x81, 1, 66]] [] [] (Receiver.newWithLimits false 100 1000)
    { Receiver.newWithLimits false 100 1000 with buffer := [⟨false, false, false, false, .text, [72]⟩] } (.protocol "Unexpected data frame opcode") rfl
    (Prod.ext (by decide +kernel) (Prod.ext (by decide +kernel) (by decide +kernel)))
  exact this

/-- A frame above the limit, an unmasked frame to a server, a truncated frame. -/
example :
    readDataframeWithLimit false 10 [.chunk [0x82, 11, 0, 0]] = (.err (.io .invalidData), [.chunk [0, 0]]) ∧
    readDataframeWithLimit true 10 [.chunk [0x82, 1, 5, 6]] = (.err (.dataFrame "Expected masked data frame"), [.chunk [6]]) ∧
    readDataframeWithLimit false 10 [.chunk [0x82, 3, 5, 6]] = (.err .noData, []) :=
  ⟨Prod.ext (by decide +kernel) (by decide +kernel), Prod.ext (by decide +kernel) (by decide +kernel), Prod.ext (by decide +kernel) (by decide +kernel)⟩

/-- The stream: a transport error, then bytes that are no text, then the end within a frame. -/
example : ((Framed.fromParts (MsgCodec.newWithLimits .client 100 1000) [0x81]).nextMany msgDecoder 3
    [.error .connectionReset, .chunk [1, 0xFF, 0x82, 5, 1], .error .wouldBlock]).1 =
      [.err (.io .connectionReset), .err .utf8, .err (.io .other)] := by decide +kernel

example := C57_frame true 10 (by decide) [.chunk [0x82, 1, 5, 6]] [.chunk [6]] (.dataFrame "Expected masked data frame")
  (Prod.ext (by decide +kernel) (by decide +kernel))
/-- `C57_decoder`: bytes that the decoder refuses. -/
example : (match (MsgCodec.newWithLimits .client 100 1000).decode [0x80, 1, 72] with
    | (.err e, _, _) => decide (e = .protocol "Unexpected continuation data frame opcode") | _ => false) = true := by decide +kernel
/-- `C57_async`: the third item of this stream is an error. -/
example : (match ((Framed.fromParts (MsgCodec.newWithLimits .client 100 1000) [0x89, 0, 0x81]).nextMany msgDecoder 2 [.error .connectionReset, .chunk [1, 0xFF]]) with
    | (xs, fr, s) => decide (xs = [.item (.ping []), .err (.io .connectionReset)]) &&
        (match fr.next msgDecoder s with | (.err e, _, _) => decide (e = .utf8) | _ => false)) = true := by decide +kernel

end WS
