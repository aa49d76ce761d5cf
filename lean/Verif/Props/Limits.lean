import Verif.Props.Frame
import Verif.Lemmas.Limits
/-!
# Properties C09, C20, C21: no panics, memory bounds

Transports are arbitrary scripts of chunks, interruptions, failures and end of stream, so every
statement below covers every history of receive calls, with or without errors in between.
-/

namespace WS

namespace Spec

/-- Payload bytes in a list of frames. -/
def bytesOf (fs : List DataFrame) : Nat := (fs.map fun f => f.data.length).sum

/-- The two errors by which a receiver reports that a message exceeds a limit. -/
def ReportsLimit (e : WsErr) : Prop :=
  e = .protocol "Exceeded maximum WebSocket message size" ∨
  e = .protocol "Exceeded count of data frames in one WebSocket message"

/-- Payload length of a message, counting the two bytes of a close code. -/
def size : OwnedMsg → Nat
  | .text b | .binary b | .ping b | .pong b => b.length
  | .close none => 0
  | .close (some c) => 2 + c.reason.length

end Spec

theorem size_eq (m : OwnedMsg) : Spec.size m = m.view.payload.length := by
  cases m with
  | close c =>
    cases c with
    | none => rfl
    | some c => simp [Spec.size, OwnedMsg.view, CloseData.intoBytes, beBytes_length]
  | _ => rfl

/-! ## C09 -/

/-- No script of reads makes any number of blocking receives panic, whatever is already held; the
only hypothesis is that all the bytes together fit into the address space. -/
theorem C09_blocking_never_panics (n : Nat) (r : Receiver) (hr : r.maxDf ≤ u32Max) (s : Src)
    (hmem : Spec.bytesOf r.buffer + s.flat.length ≤ isizeMax) (why : String) :
    Res.panic why ∉ (r.recvMany n s).1 := by
  intro h
  have := recvMany_safe n r hr s hmem _ h
  simp at this

example := C09_blocking_never_panics 2 (Receiver.newWithLimits true 1000 1000) (by decide)
  [.chunk [0x82], .error .interrupted, .chunk [0xFF, 255, 255, 255, 255, 255, 255, 255, 255, 1, 2, 3, 4, 9]] (by decide)

/-- The hypothesis on the limit holds for every receiver the crate can build. -/
theorem C09_new_receivers_qualify (mask : Bool) (maxDf maxMsg : Nat) :
    (Receiver.newWithLimits mask maxDf maxMsg).maxDf ≤ u32Max ∧ (Receiver.newWithLimits mask maxDf maxMsg).buffer = [] :=
  ⟨Nat.min_le_right _ _, rfl⟩

/-- Reading single frames with a limit does not panic either. -/
theorem C09_blocking_frames_never_panic (r : Receiver) (hr : r.maxDf ≤ u32Max) (s : Src) (why : String) :
    (r.recvDataframe s).1 ≠ .panic why := by
  intro h
  have := noPanic_frame r.mask r.maxDf (Nat.le_trans hr isize_u32) s
  rw [show (readDataframeWithLimit r.mask r.maxDf s).1 = .panic why from h] at this
  simp at this

example := C09_blocking_frames_never_panic (Receiver.newWithLimits true 1000 1000) (by decide)
  [.chunk [0x82], .chunk [0xFF, 255, 255, 255, 255, 255, 255, 255, 255, 1, 2, 3, 4, 9], .error .connectionReset]

/-- Async message stream, from any codec state with anything already buffered. -/
theorem C09_async_never_panics (n : Nat) (fr : Framed MsgCodec) (hr : fr.codec.df.maxDf ≤ u32Max) (s : Src)
    (hmem : Spec.bytesOf fr.codec.buffer + fr.buf.length + s.flat.length ≤ isizeMax) (why : String) :
    Item.panic why ∉ (fr.nextMany msgDecoder n s).1 := by
  intro h
  have := nextMany_safe msgDecoder_safe n s fr ⟨hr, hmem⟩ _ h
  simp [Item.isPanic] at this

example := C09_async_never_panics 2 (Framed.new (MsgCodec.newWithLimits .server 1000 1000)) (by decide)
  [.chunk [0x82], .error .wouldBlock, .chunk [0xFF, 255, 255, 255, 255, 255, 255, 255, 255, 1, 2, 3, 4, 9]] (by decide)

/-- Async frame stream. -/
theorem C09_async_frames_never_panic (n : Nat) (fr : Framed DfCodec) (hr : fr.codec.maxDf ≤ u32Max) (s : Src)
    (why : String) : Item.panic why ∉ (fr.nextMany dfDecoder n s).1 := by
  intro h
  have := nextMany_safe (dfDecoder_safe _) n s fr
    (N := 0 + fr.buf.length + s.flat.length) ⟨hr, Nat.le_refl _⟩ _ h
  simp [Item.isPanic] at this

/-- The hypotheses are met by a fresh receiver on a hostile input: a declared length of 2^64 - 1. -/
example : (Receiver.newWithLimits true 1000 1000).recvMany 2
      [.chunk [0x82], .error .interrupted, .chunk [0xFF, 255, 255, 255, 255, 255, 255, 255, 255, 1, 2, 3, 4, 9]] =
    ([.err (.io .invalidData), .err .noData], Receiver.newWithLimits true 1000 1000, []) := by decide +kernel

/-! ## C10 -/

/-- C10 (async, any history): whatever arrives and however it is cut, paused or broken, no frame the
stream yields is larger than the configured limit. -/
theorem C10_limit_respected_async (ctx : Context) (maxDf n : Nat) (buf : Bytes) (s : Src) (f : DataFrame)
    (h : Item.item f ∈ ((Framed.fromParts (DfCodec.newWithLimits ctx maxDf) buf).nextMany dfDecoder n s).1) :
    f.data.length ≤ maxDf ∧ f.data.length ≤ 2 ^ 32 - 1 := by
  have hd : DecInv dfDecoder (fun c => c = DfCodec.newWithLimits ctx maxDf)
      (fun c => c = DfCodec.newWithLimits ctx maxDf) (fun _ => False) (fun f => f.data.length ≤ min maxDf u32Max) := by
    rintro c src rfl
    right
    refine ⟨rfl, ?_⟩
    intro f hf
    exact ((C03_decoder_exact ctx maxDf src _ f).mp (Prod.ext hf rfl)).1
  have := (nextMany_inv hd n s _ rfl (fun _ h => h.elim)).2 f h
  have hu : u32Max = 2 ^ 32 - 1 := rfl
  omega

/-- Two frames in three pieces with a pause between. -/
example := C10_limit_respected_async .client 2 1 [129] [.error .wouldBlock, .chunk [2, 72], .chunk [105, 1]]
  ⟨true, false, false, false, .text, [72, 105]⟩ (by
    rw [show ((Framed.fromParts (DfCodec.newWithLimits .client 2) [129]).nextMany dfDecoder 1
      [.error .wouldBlock, .chunk [2, 72], .chunk [105, 1]]).1 =
        [.item ⟨true, false, false, false, .text, [72, 105]⟩] from by decide +kernel]
    exact List.mem_cons_self)

/-- C10 (blocking, any history): whatever the transport does, no frame a receiver returns is larger
than the configured limit. -/
theorem C10_limit_respected_receiver (mask : Bool) (maxDf maxMsg : Nat) (s s' : Src) (f : DataFrame)
    (h : (Receiver.newWithLimits mask maxDf maxMsg).recvDataframe s = (.ok f, s')) :
    f.data.length ≤ maxDf ∧ f.data.length ≤ 2 ^ 32 - 1 := by
  have hu : u32Max = 2 ^ 32 - 1 := rfl
  have := C10_limit_respected mask (min maxDf u32Max) (by omega) s s' f h
  omega

/-- A masked frame in three pieces. -/
example := C10_limit_respected_receiver true 2 1 [.chunk [129, 130, 1, 2, 3, 4], .error .interrupted, .chunk [73, 107, 7]]
  [.chunk [7]] exFrame (by decide +kernel)

/-! ## C20 -/

/-- As long as no receive has reported a limit, a blocking receiver holds at most
`max maxDf (maxMsg - 1)` payload bytes in fewer than 2^20 frames, and no delivered message is
larger than that plus one frame. Any limits, any script, any number of calls. -/
theorem C20_bounds_blocking (mask : Bool) (maxDf maxMsg n : Nat) (s : Src)
    (hno : ∀ e, Spec.ReportsLimit e → Res.err e ∉ ((Receiver.newWithLimits mask maxDf maxMsg).recvMany n s).1) :
    let out := (Receiver.newWithLimits mask maxDf maxMsg).recvMany n s
    Spec.bytesOf out.2.1.buffer ≤ max maxDf (maxMsg - 1) ∧
    out.2.1.buffer.length < 2 ^ 20 ∧
    ∀ m, Res.ok m ∈ out.1 → Spec.size m ≤ max maxDf (maxMsg - 1) + maxDf := by
  have h := recvMany_bound n (Receiver.newWithLimits mask maxDf maxMsg) ⟨Nat.min_le_right _ _, Nat.min_le_right _ _⟩ s
    (B := max (min maxDf u32Max) (min maxMsg u32Max - 1)) (K := maxFrames - 1)
    (Nat.le_max_left _ _) (by show min maxMsg u32Max ≤ _; omega) (by decide)
    (by have : u32Max ≤ isizeMax - u32Max := by decide
        omega)
    (Nat.zero_le _) (Nat.zero_le _) (fun e he => hno e he)
  obtain ⟨h1, h2, h3⟩ := h
  have hd : (Receiver.newWithLimits mask maxDf maxMsg).maxDf = min maxDf u32Max := rfl
  refine ⟨?_, ?_, ?_⟩
  · exact Nat.le_trans h1 (by omega)
  · have : maxFrames = 2 ^ 20 := by decide
    omega
  · intro m hm
    rw [size_eq]
    have := h3 m hm
    omega

example := C20_bounds_blocking false 3 70 1 [.chunk [0x02, 3, 1, 2, 3, 0x80, 3, 4, 5, 6]] (by
  have h : ((Receiver.newWithLimits false 3 70).recvMany 1 [.chunk [0x02, 3, 1, 2, 3, 0x80, 3, 4, 5, 6]]).1 =
    [.ok (.binary [1, 2, 3, 4, 5, 6])] := by decide +kernel
  rw [h]; simp)

/-- The same for the async codec: at most `maxMsg` bytes held, messages at most one frame larger. -/
theorem C20_bounds_async (ctx : Context) (maxDf maxMsg n : Nat) (s : Src)
    (hno : ∀ e, Spec.ReportsLimit e →
      Item.err e ∉ ((Framed.new (MsgCodec.newWithLimits ctx maxDf maxMsg)).nextMany msgDecoder n s).1) :
    let out := (Framed.new (MsgCodec.newWithLimits ctx maxDf maxMsg)).nextMany msgDecoder n s
    Spec.bytesOf out.2.1.codec.buffer ≤ maxMsg ∧
    out.2.1.codec.buffer.length < 2 ^ 20 ∧
    ∀ m, Item.item m ∈ out.1 → Spec.size m ≤ maxMsg + maxDf := by
  have h := nextMany_inv (msgDecoder_inv (B := min maxMsg u32Max) (K := maxFrames - 1) (maxDf := min maxDf u32Max)
    (maxMsg := min maxMsg u32Max) (Nat.min_le_right _ _) (Nat.le_refl _) (by decide)
    (by have : u32Max ≤ isizeMax - u32Max := by decide
        omega)) n s (Framed.new (MsgCodec.newWithLimits ctx maxDf maxMsg))
    ⟨rfl, rfl, Nat.zero_le _, Nat.zero_le _⟩ (fun e he => hno e he)
  obtain ⟨⟨-, -, h1, h2⟩, h3⟩ := h
  refine ⟨Nat.le_trans h1 (by omega), ?_, ?_⟩
  · have : maxFrames = 2 ^ 20 := by decide
    omega
  · intro m hm
    rw [size_eq]
    have := h3 m hm
    omega

/-- The bounds are not vacuous and the excess over `maxMsg` is real: limits 3 (frame) and 70
(message), and yet a message of 6 bytes plus 64 bytes of overhead per frame is delivered. -/
example : ((Receiver.newWithLimits false 3 70).recvMany 1
      [.chunk [0x02, 3, 1, 2, 3, 0x80, 3, 4, 5, 6]]).1 = [.ok (.binary [1, 2, 3, 4, 5, 6])] := by decide +kernel

/-- The blocking receiver does not check the first fragment: with message limit 1 it holds three bytes. -/
example : Spec.bytesOf ((Receiver.newWithLimits false 3 1).recvMany 1 [.chunk [0x02, 3, 1, 2, 3]]).2.1.buffer = 3 := by
  decide +kernel

/-! ## C21 -/

/-- After a limit error a blocking receive may still grow the held data, but only by one frame per call. -/
theorem C21_growth_per_call_blocking_partial (r : Receiver) (hr : r.WF) (s : Src) (B : Nat)
    (hB : Spec.bytesOf r.buffer ≤ B) (hd : r.maxDf ≤ B) (hm : r.maxMsg ≤ B + 1) (hmem : B ≤ isizeMax - u32Max) :
    (∃ e, Spec.ReportsLimit e ∧ (r.recvMessage s).1 = .err e ∧ Spec.bytesOf (r.recvMessage s).2.1.buffer ≤ B + r.maxDf) ∨
    (Spec.bytesOf (r.recvMessage s).2.1.buffer ≤ B ∧
      ∀ m, (r.recvMessage s).1 = .ok m → Spec.size m ≤ B + r.maxDf) := by
  obtain ⟨-, ⟨e, h1, h2, h3, -⟩ | ⟨h1, -, h3⟩⟩ := recvMessage_bound r hr s (B := B) (K := max maxFrames r.buffer.length)
    hd hm (by omega) hmem hB (by omega)
  · exact .inl ⟨e, h1, h2, h3⟩
  · exact .inr ⟨h1, by intro m hm; rw [size_eq]; exact h3 m hm⟩

/-- Three bytes held already, a limit of one byte on messages. -/
example := C21_growth_per_call_blocking_partial
  { Receiver.newWithLimits false 3 1 with buffer := [⟨false, false, false, false, .binary, [1, 2, 3]⟩] }
  (by simp [Receiver.WF]; decide) [.chunk [0x00, 3, 4, 5, 6]] 3 (by decide) (by decide) (by decide) (by decide)

/-- The same for the async stream. -/
theorem C21_growth_per_call_async_partial (fr : Framed MsgCodec) (hr : fr.codec.WF) (s : Src) (B : Nat)
    (hB : Spec.bytesOf fr.codec.buffer ≤ B) (hm : fr.codec.maxMsg ≤ B) (hmem : B ≤ isizeMax - u32Max) :
    (∃ e, Spec.ReportsLimit e ∧ (fr.next msgDecoder s).1 = .err e ∧
      Spec.bytesOf (fr.next msgDecoder s).2.1.codec.buffer ≤ B + fr.codec.df.maxDf) ∨
    (Spec.bytesOf (fr.next msgDecoder s).2.1.codec.buffer ≤ B ∧
      ∀ m, (fr.next msgDecoder s).1 = .item m → Spec.size m ≤ B + fr.codec.df.maxDf) := by
  have h := next_inv (msgDecoder_inv (B := B) (K := max maxFrames fr.codec.buffer.length) (maxDf := fr.codec.df.maxDf)
    (maxMsg := fr.codec.maxMsg) hr.1 hm (by omega) hmem) s fr ⟨rfl, rfl, hB, by omega⟩
  rcases h with ⟨e, h1, h2, -, -, h3, -⟩ | ⟨⟨-, -, h1, -⟩, h3⟩
  · exact .inl ⟨e, h1, h2, h3⟩
  · exact .inr ⟨h1, by intro m hm; rw [size_eq]; exact h3 m hm⟩

example := C21_growth_per_call_async_partial
  (Framed.new { MsgCodec.newWithLimits .client 3 2 with buffer := [⟨false, false, false, false, .binary, [1, 2, 3]⟩] })
  (by simp [MsgCodec.WF]; decide) [.chunk [0x00, 3, 4, 5, 6]] 3 (by decide) (by decide) (by decide)

/-- First fragment of a text message. -/
def hostileFirst : Bytes := [0x01, 1, 97]
/-- A continuation fragment that does not end the message. -/
def hostileMore : Bytes := [0x00, 1, 98]
/-- The stream of a peer that never ends its message. -/
def hostile (k : Nat) : Bytes := hostileFirst ++ (List.replicate k hostileMore).flatten

def hostileFrame : DataFrame := ⟨false, false, false, false, .continuation, [98]⟩

theorem hostile_parse (big : WsErr) (x : Bytes) :
    parseFrame false 125 big (hostileMore ++ x) = .ok hostileFrame x := by
  have h : parseFrame false 125 big hostileMore = .ok hostileFrame [] := by rfl
  exact (stable_frame false 125 big hostileMore x).1 _ _ h

theorem hostile_parse_first (big : WsErr) (x : Bytes) :
    parseFrame false 125 big (hostileFirst ++ x) = .ok ⟨false, false, false, false, .text, [97]⟩ x := by
  have h : parseFrame false 125 big hostileFirst = .ok ⟨false, false, false, false, .text, [97]⟩ [] := by rfl
  exact (stable_frame false 125 big hostileFirst x).1 _ _ h

theorem hostile_fail (b : List DataFrame) (hb : b ≠ []) (cur : Nat) (x : Bytes) :
    ∃ e, Spec.ReportsLimit e ∧
      pLoop (Receiver.mk b false 125 1).cfg b cur (hostileMore ++ x) = .fail e (b ++ [hostileFrame]) x := by
  have hp := pLoop_ok (c := (Receiver.mk b false 125 1).cfg) (buffer := b) (cur := cur)
    (hostile_parse (.io .invalidData) x)
  have hs : (Receiver.mk b false 125 1).cfg.step b cur hostileFrame =
      if (b ++ [hostileFrame]).length ≥ maxFrames then
        .fail (.protocol "Exceeded count of data frames in one WebSocket message") (b ++ [hostileFrame])
      else .fail (.protocol "Exceeded maximum WebSocket message size") (b ++ [hostileFrame]) := by
    show syncStep 1 b cur hostileFrame = _
    unfold syncStep
    rw [if_neg hb, if_pos (by rfl), if_neg (by decide),
      if_pos (c := cur + (hostileFrame.data.length + overhead) ≥ 1) (by simp only [overhead]; omega)]
  rw [hs] at hp
  by_cases hc : (b ++ [hostileFrame]).length ≥ maxFrames
  · rw [if_pos hc] at hp
    exact ⟨_, .inr rfl, hp⟩
  · rw [if_neg hc] at hp
    exact ⟨_, .inl rfl, hp⟩

theorem hostile_sync (k : Nat) (b : List DataFrame) (hb : b ≠ []) :
    (∀ x ∈ ((Receiver.mk b false 125 1).recvManyBytes k (List.replicate k hostileMore).flatten).1,
      ∃ e, Spec.ReportsLimit e ∧ x = .err e) ∧
    heldLen ((Receiver.mk b false 125 1).recvManyBytes k (List.replicate k hostileMore).flatten).2.1.buffer =
      heldLen b + k := by
  induction k generalizing b with
  | zero => exact ⟨by intro x hx; simp [Receiver.recvManyBytes] at hx, rfl⟩
  | succ k ih =>
    obtain ⟨e, he, hp⟩ := hostile_fail b hb (heldLen b) (List.replicate k hostileMore).flatten
    have hr : (Receiver.mk b false 125 1).recvBytes (hostileMore ++ (List.replicate k hostileMore).flatten) =
        (.err e, Receiver.mk (b ++ [hostileFrame]) false 125 1, (List.replicate k hostileMore).flatten) := by
      unfold Receiver.recvBytes
      simp only [hp]
    obtain ⟨i1, i2⟩ := ih (b ++ [hostileFrame]) (by simp)
    rw [List.replicate_succ, List.flatten_cons]
    simp only [Receiver.recvManyBytes, hr]
    refine ⟨?_, ?_⟩
    · intro x hx
      rcases List.mem_cons.mp hx with h | h
      · exact ⟨e, he, h⟩
      · exact i1 x h
    · rw [i2, heldLen_snoc]
      show heldLen b + 1 + k = _
      omega

def hostileText : DataFrame := ⟨false, false, false, false, .text, [97]⟩

/-- **The claim fails**: with message limit 1 a peer that keeps sending one-byte continuation
frames gets a limit error out of every receive, and yet the receiver holds one byte more after
each of them, without bound. -/
theorem C21_refuted_blocking (n : Nat) :
    (∀ x ∈ ((Receiver.newWithLimits false 125 1).recvMany (n + 1) [.chunk (hostile (n + 1))]).1,
      ∃ e, Spec.ReportsLimit e ∧ x = .err e) ∧
    Spec.bytesOf ((Receiver.newWithLimits false 125 1).recvMany (n + 1) [.chunk (hostile (n + 1))]).2.1.buffer =
      n + 2 := by
  have hne : hostile (n + 1) ≠ [] := by simp [hostile, hostileFirst]
  obtain ⟨s', -, h, -⟩ := recvMany_clean (n + 1) (Receiver.newWithLimits false 125 1) (by decide)
    [.chunk (hostile (n + 1))] (by simp [Src.Clean, hne])
  rw [h]
  have hfl : Src.flat [.chunk (hostile (n + 1))] = hostile (n + 1) := by simp [Src.flat]
  rw [hfl]
  have hnew : Receiver.newWithLimits false 125 1 = Receiver.mk [] false 125 1 := by decide
  rw [hnew]
  obtain ⟨e, he, hp⟩ := hostile_fail [hostileText] (by simp) 65 (List.replicate n hostileMore).flatten
  have hr : (Receiver.mk [] false 125 1).recvBytes (hostile (n + 1)) =
      (.err e, Receiver.mk [hostileText, hostileFrame] false 125 1, (List.replicate n hostileMore).flatten) := by
    have h1 := pLoop_ok (c := (Receiver.mk [] false 125 1).cfg) (buffer := []) (cur := 0)
      (hostile_parse_first (.io .invalidData) (List.replicate (n + 1) hostileMore).flatten)
    have h2 : (Receiver.mk [] false 125 1).cfg.step [] 0 hostileText = .next [hostileText] 65 := by rfl
    rw [show DataFrame.mk false false false false .text [97] = hostileText from rfl, h2] at h1
    rw [List.replicate_succ, List.flatten_cons] at h1
    unfold Receiver.recvBytes hostile
    rw [List.replicate_succ, List.flatten_cons]
    simp only [heldLen_nil, h1]
    rw [show (Receiver.mk [] false 125 1).cfg = (Receiver.mk [hostileText] false 125 1).cfg from rfl, hp]
    rfl
  have := hostile_sync n [hostileText, hostileFrame] (by simp)
  simp only [Receiver.recvManyBytes, hr]
  refine ⟨?_, ?_⟩
  · intro x hx
    rcases List.mem_cons.mp hx with h | h
    · exact ⟨e, he, h⟩
    · exact this.1 x h
  · rw [show Spec.bytesOf = heldLen from rfl, this.2]
    show 2 + n = _
    omega

theorem hostile_async (k : Nat) (b : List DataFrame) (hb : b ≠ []) :
    (∀ x ∈ (decMany msgDecoder k (MsgCodec.mk b ⟨false, 125⟩ 1) (List.replicate k hostileMore).flatten).1,
      ∃ e, Spec.ReportsLimit e ∧ x = .err e) ∧
    heldLen (decMany msgDecoder k (MsgCodec.mk b ⟨false, 125⟩ 1) (List.replicate k hostileMore).flatten).2.1.buffer =
      heldLen b + k := by
  induction k generalizing b with
  | zero => exact ⟨by intro x hx; simp [decMany] at hx, rfl⟩
  | succ k ih =>
    have hstep : ∃ e, Spec.ReportsLimit e ∧
        MsgCodec.decode (MsgCodec.mk b ⟨false, 125⟩ 1) (hostileMore ++ (List.replicate k hostileMore).flatten) =
          (.err e, MsgCodec.mk (b ++ [hostileFrame]) ⟨false, 125⟩ 1, (List.replicate k hostileMore).flatten) := by
      rw [MsgCodec.decode_eq _ (show 125 ≤ u32Max by decide)]
      have hp := pLoop_ok (c := (MsgCodec.mk b ⟨false, 125⟩ 1).cfg) (buffer := b) (cur := heldLen b)
        (hostile_parse bigErr (List.replicate k hostileMore).flatten)
      have hs : (MsgCodec.mk b ⟨false, 125⟩ 1).cfg.step b (heldLen b) hostileFrame =
          if (b ++ [hostileFrame]).length ≥ maxFrames then
            .fail (.protocol "Exceeded count of data frames in one WebSocket message") (b ++ [hostileFrame])
          else .fail (.protocol "Exceeded maximum WebSocket message size") (b ++ [hostileFrame]) := by
        show asyncStep 1 b (heldLen b) hostileFrame = _
        unfold asyncStep
        rw [if_neg (by simp [hb]), if_neg (by decide), if_neg (by intro h; exact absurd h.1 (by decide)),
          if_neg (by decide),
          if_pos (c := heldLen b + (hostileFrame.data.length + overhead) > 1) (by simp only [overhead]; omega)]
      rw [hs] at hp
      by_cases hc : (b ++ [hostileFrame]).length ≥ maxFrames
      · rw [if_pos hc] at hp
        exact ⟨_, .inr rfl, by simp only [hp]⟩
      · rw [if_neg hc] at hp
        exact ⟨_, .inl rfl, by simp only [hp]⟩
    obtain ⟨e, he, hr⟩ := hstep
    have hn : decNext msgDecoder (MsgCodec.mk b ⟨false, 125⟩ 1) (hostileMore ++ (List.replicate k hostileMore).flatten) =
        (.err e, MsgCodec.mk (b ++ [hostileFrame]) ⟨false, 125⟩ 1, (List.replicate k hostileMore).flatten) := by
      unfold decNext msgDecoder
      rw [hr]
    obtain ⟨i1, i2⟩ := ih (b ++ [hostileFrame]) (by simp)
    rw [List.replicate_succ, List.flatten_cons]
    simp only [decMany, hn]
    refine ⟨?_, ?_⟩
    · intro x hx
      rcases List.mem_cons.mp hx with h | h
      · exact ⟨e, he, h⟩
      · exact i1 x h
    · rw [i2, heldLen_snoc]
      show heldLen b + 1 + k = _
      omega

/-- The same failure of the claim in the async codec. -/
theorem C21_refuted_async (n : Nat) :
    (∀ x ∈ ((Framed.new (MsgCodec.newWithLimits .client 125 1)).nextMany msgDecoder (n + 1) [.chunk (hostile n)]).1,
      ∃ e, Spec.ReportsLimit e ∧ x = .err e) ∧
    Spec.bytesOf ((Framed.new (MsgCodec.newWithLimits .client 125 1)).nextMany msgDecoder (n + 1)
      [.chunk (hostile n)]).2.1.codec.buffer = n + 1 := by
  have hnew : MsgCodec.newWithLimits .client 125 1 = MsgCodec.mk [] ⟨false, 125⟩ 1 := by decide
  rw [hnew]
  obtain ⟨h1, h2⟩ := nextMany_oneChunk msgDecoder_chunkable (n + 1) (MsgCodec.mk [] ⟨false, 125⟩ 1) (by decide) (hostile n)
    (by simp [hostile, hostileFirst])
  rw [h1, h2]
  have hr : MsgCodec.decode (MsgCodec.mk [] ⟨false, 125⟩ 1) (hostile n) =
      (.err (.protocol "Exceeded maximum WebSocket message size"), MsgCodec.mk [hostileText] ⟨false, 125⟩ 1,
        (List.replicate n hostileMore).flatten) := by
    rw [MsgCodec.decode_eq _ (by decide)]
    have hp := pLoop_ok (c := (MsgCodec.mk [] ⟨false, 125⟩ 1).cfg) (buffer := []) (cur := 0)
      (hostile_parse_first bigErr (List.replicate n hostileMore).flatten)
    have h2 : (MsgCodec.mk [] ⟨false, 125⟩ 1).cfg.step [] 0 hostileText =
      .fail (.protocol "Exceeded maximum WebSocket message size") [hostileText] := by rfl
    rw [show DataFrame.mk false false false false .text [97] = hostileText from rfl, h2] at hp
    unfold hostile
    simp only [heldLen_nil, hp]
  have hn : decNext msgDecoder (MsgCodec.mk [] ⟨false, 125⟩ 1) (hostile n) =
      (.err (.protocol "Exceeded maximum WebSocket message size"), MsgCodec.mk [hostileText] ⟨false, 125⟩ 1,
        (List.replicate n hostileMore).flatten) := by
    unfold decNext msgDecoder
    rw [hr]
  have := hostile_async n [hostileText] (by simp)
  simp only [decMany, hn]
  refine ⟨?_, ?_⟩
  · intro x hx
    rcases List.mem_cons.mp hx with h | h
    · exact ⟨_, .inl rfl, h⟩
    · exact this.1 x h
  · rw [show Spec.bytesOf = heldLen from rfl, this.2]
    show 1 + n = _
    omega

end WS
