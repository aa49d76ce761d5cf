import Verif.Model.Word
import Verif.Spec.Word
import Verif.Lemmas.Script
import Verif.Lemmas.Stranger
/-! Lemmas for C87: with room to spare a machine with a smaller `usize` does the same -/

namespace WS

section
variable {M : Machine} (hM : 32 ≤ M.bits ∧ M.bits ≤ 64)
include hM

theorem Machine.pow32 : 2 ^ 32 ≤ 2 ^ M.bits := Nat.pow_le_pow_right (by decide) hM.1

theorem Machine.isize_le : M.isizeMax ≤ WS.isizeMax := by
  have : 2 ^ (M.bits - 1) ≤ 2 ^ 63 := Nat.pow_le_pow_right (by decide) (by omega)
  unfold Machine.isizeMax WS.isizeMax; omega

theorem Machine.half : 2 * 2 ^ (M.bits - 1) = 2 ^ M.bits := by
  rw [← Nat.pow_succ']; congr 1; omega

theorem Machine.usize_u32 {n : Nat} (h : n ≤ u32Max) : M.usize n = n := by
  have := M.pow32 hM
  unfold Machine.usize
  exact Nat.mod_eq_of_lt (by unfold u32Max at h; omega)

theorem Machine.add_ok {a b : Nat} (h : a + b < 2 ^ (M.bits - 1)) : M.add a b = .ok (a + b) := by
  have := Machine.half hM
  unfold Machine.add
  rw [if_pos (by omega)]

theorem Machine.sumFrom_ok {a : Nat} {l : List Nat} (h : a + l.sum < 2 ^ (M.bits - 1)) : M.sumFrom a l = .ok (a + l.sum) := by
  induction l generalizing a with
  | nil => simp [Machine.sumFrom]
  | cons b l ih =>
    simp only [List.sum_cons] at h
    unfold Machine.sumFrom
    rw [Machine.add_ok hM (by omega), Res.bind, ih (by omega), List.sum_cons, Nat.add_assoc]

theorem Machine.grow_ok {cur len : Nat} (h : cur + (len + 64) < 2 ^ (M.bits - 1)) : M.grow cur len = .ok (cur + (len + overhead)) := by
  unfold Machine.grow
  rw [Machine.add_ok hM (by unfold overhead; omega), Res.bind, Machine.add_ok hM (by unfold overhead; omega)]

theorem Machine.fromFrames_ok {fs : List DataFrame} (h : heldLen fs < 2 ^ (M.bits - 1)) :
    M.fromDataframes (fs.map DataFrame.view) = OwnedMsg.fromDataframes (fs.map DataFrame.view) := by
  have hs : ((fs.map DataFrame.view).map FrameView.size) = fs.map fun f => f.data.length := by
    rw [List.map_map]; rfl
  have hl : (fs.map fun f => f.data.length).sum < 2 ^ (M.bits - 1) := h
  unfold Machine.fromDataframes
  split
  · next hf => rw [hf]; rfl
  · rw [hs, Machine.sumFrom_ok hM (by omega), Res.bind, if_neg (by unfold Machine.isizeMax; omega), if_neg (by unfold Machine.isizeMax; omega)]

end

theorem takeToEnd_length {n : Nat} {s s' : Src} {b : Bytes} (h : takeToEnd n s = (.ok b, s')) : b.length ≤ n := (takeToEnd_sound h).1

theorem Machine.payload_eq {M : Machine} {n : Nat} (hn : n ≤ M.isizeMax) : M.readPayload n = WS.readPayload n := by
  funext s
  unfold Machine.readPayload WS.readPayload
  cases h : takeToEnd n s with
  | mk x s' =>
    cases x with
    | ok b =>
      have := takeToEnd_length h
      simp only
      rw [if_neg (by omega)]
    | error k => rfl

theorem Machine.cap_eq {M : Machine} (hM : 32 ≤ M.bits ∧ M.bits ≤ 64) {n : Nat} (hn : n ≤ M.isizeMax) : M.withCapacity (M.usize n) = vecWithCapacity n := by
  have h1 := Machine.isize_le hM
  have h2 := Machine.half hM
  have h3 : M.usize n = n := by
    unfold Machine.usize
    have : 0 < 2 ^ (M.bits - 1) := Nat.pow_pos (by decide)
    exact Nat.mod_eq_of_lt (by unfold Machine.isizeMax at hn; omega)
  unfold Machine.withCapacity vecWithCapacity
  rw [h3, if_neg (by omega), if_neg (by omega)]

theorem Machine.frame_eq {M : Machine} (hM : 32 ≤ M.bits ∧ M.bits ≤ 64) {limit : Nat} (hl : limit ≤ M.isizeMax) (masked : Bool) :
    M.readDataframeWithLimit masked limit = WS.readDataframeWithLimit masked limit := by
  unfold Machine.readDataframeWithLimit WS.readDataframeWithLimit
  congr 1
  funext h
  split
  · rfl
  · next hle => rw [Machine.cap_eq hM (by omega), Machine.payload_eq (by omega)]

/-! ### The blocking receiver -/

/-- What one call leaves behind, if `W` bytes were allowed for and a frame has at most `D` bytes with its overhead. -/
structure LeavesRoom (r : Receiver) (W D : Nat) (x : Res (List DataFrame)) (r' : Receiver) : Prop where
  df : r'.maxDf = r.maxDf
  msg : r'.maxMsg = r.maxMsg
  held : heldLen r'.buffer ≤ W + D
  quiet : (∀ e, x = .err e → Spec.overLimit e = false) → heldLen r'.buffer ≤ W
  got : ∀ fs, x = .ok fs → heldLen fs ≤ W + D

theorem recvDataframe_data {r : Receiver} (hr : r.maxDf ≤ u32Max) {s s' : Src} {f : DataFrame} (h : r.recvDataframe s = (.ok f, s')) :
    f.data.length ≤ r.maxDf := (recvDataframe_len hr h).1

theorem loop_same {M : Machine} (hM : 32 ≤ M.bits ∧ M.bits ≤ 64) (W : Nat) (r : Receiver) (cur : Nat) (s : Src) (hr : r.maxDf ≤ u32Max) (hm : r.maxMsg ≤ u32Max)
    (hW : r.maxMsg ≤ W) (hc : cur ≤ W) (hh : heldLen r.buffer ≤ cur) (room : W + (r.maxDf + 64) < 2 ^ (M.bits - 1)) :
    M.recvLoop r cur s = recvLoop r cur s ∧ LeavesRoom r W (r.maxDf + 64) (recvLoop r cur s).1 (recvLoop r cur s).2.1 := by
  have hd : ∀ s, M.recvDataframe r s = r.recvDataframe s := by
    intro s
    unfold Machine.recvDataframe Receiver.recvDataframe
    rw [Machine.usize_u32 hM hr, Machine.frame_eq hM (by unfold Machine.isizeMax; omega)]
  induction hn : s.measure using Nat.strongRecOn generalizing r cur s with
  | _ n ih =>
  rw [Machine.recvLoop, WS.recvLoop, hd s]
  cases hf : r.recvDataframe s with
  | mk x s' =>
    cases x with
    | ok next =>
      have hlen := recvDataframe_data hr hf
      have hlt : s'.measure < s.measure := readDataframeWithLimit_lt hf
      simp only
      by_cases h0 : next.opcode.toU8 = 0
      · rw [if_pos h0, if_pos h0, Machine.grow_ok hM (by omega)]
        have hs := heldLen_snoc r.buffer next
        have ho : overhead = 64 := rfl
        simp only [Machine.usize_u32 hM hm]
        by_cases h1 : next.finished = true
        · rw [if_pos h1, if_pos h1]
          exact ⟨rfl, rfl, rfl, by simp [heldLen], fun _ => by simp [heldLen], fun fs h => by cases h; omega⟩
        · rw [if_neg h1, if_neg h1]
          by_cases h2 : (r.buffer ++ [next]).length ≥ maxFrames
          · rw [if_pos h2, if_pos h2]
            refine ⟨rfl, rfl, rfl, by show heldLen (r.buffer ++ [next]) ≤ _; omega, fun h => ?_, fun fs h => by cases h⟩
            exact absurd (h _ rfl) (by decide)
          · rw [if_neg h2, if_neg h2]
            by_cases h3 : cur + (next.data.length + overhead) ≥ r.maxMsg
            · rw [if_pos h3, if_pos h3]
              refine ⟨rfl, rfl, rfl, by show heldLen (r.buffer ++ [next]) ≤ _; omega, fun h => ?_, fun fs h => by cases h⟩
              exact absurd (h _ rfl) (by decide)
            · rw [if_neg h3, if_neg h3]
              obtain ⟨a, b⟩ := ih s'.measure (by omega) { r with buffer := r.buffer ++ [next] } (cur + (next.data.length + overhead)) s' hr hm hW (by omega)
                (by show heldLen (r.buffer ++ [next]) ≤ _; omega) room hd rfl
              exact ⟨a, ⟨b.df, b.msg, b.held, b.quiet, b.got⟩⟩
      · rw [if_neg h0, if_neg h0]
        split
        · exact ⟨rfl, rfl, rfl, by show heldLen r.buffer ≤ _; omega, fun _ => by show heldLen r.buffer ≤ _; omega, fun fs h => by cases h; simp [heldLen]; omega⟩
        · exact ⟨rfl, rfl, rfl, by show heldLen r.buffer ≤ _; omega, fun _ => by show heldLen r.buffer ≤ _; omega, fun fs h => by cases h⟩
    | err e => exact ⟨rfl, rfl, rfl, by show heldLen r.buffer ≤ _; omega, fun _ => by show heldLen r.buffer ≤ _; omega, fun fs h => by cases h⟩
    | panic e => exact ⟨rfl, rfl, rfl, by show heldLen r.buffer ≤ _; omega, fun _ => by show heldLen r.buffer ≤ _; omega, fun fs h => by cases h⟩

theorem frames_same {M : Machine} (hM : 32 ≤ M.bits ∧ M.bits ≤ 64) (W : Nat) (r : Receiver) (s : Src) (hr : r.maxDf ≤ u32Max) (hm : r.maxMsg ≤ u32Max)
    (hW : r.maxMsg ≤ W) (hD : r.maxDf + 64 ≤ W) (hh : heldLen r.buffer ≤ W) (room : W + (r.maxDf + 64) < 2 ^ (M.bits - 1)) :
    M.recvMessageDataframes r s = r.recvMessageDataframes s ∧
      LeavesRoom r W (r.maxDf + 64) (r.recvMessageDataframes s).1 (r.recvMessageDataframes s).2.1 := by
  have hsum : M.sumFrom 0 (r.buffer.map fun f => f.data.length) = .ok (heldLen r.buffer) := by
    rw [Machine.sumFrom_ok hM (by have : heldLen r.buffer = (r.buffer.map fun f => f.data.length).sum := rfl; omega), Nat.zero_add]; rfl
  have hd : M.recvDataframe r s = r.recvDataframe s := by
    unfold Machine.recvDataframe Receiver.recvDataframe
    rw [Machine.usize_u32 hM hr, Machine.frame_eq hM (by unfold Machine.isizeMax; omega)]
  unfold Machine.recvMessageDataframes Receiver.recvMessageDataframes
  rw [hsum]
  simp only
  by_cases hb : r.buffer = []
  · have h0 : heldLen r.buffer = 0 := by rw [hb]; rfl
    rw [if_pos hb, if_pos hb, hd]
    cases hf : r.recvDataframe s with
    | mk x s' =>
      cases x with
      | ok first =>
        have hlen := recvDataframe_data hr hf
        have ho : overhead = 64 := rfl
        have hs := heldLen_snoc r.buffer first
        simp only
        split
        · exact ⟨rfl, rfl, rfl, by show heldLen r.buffer ≤ _; omega, fun _ => hh, fun fs h => by cases h⟩
        · rw [Machine.grow_ok hM (by omega)]
          simp only
          by_cases h1 : first.finished = true
          · rw [if_pos h1, if_pos h1]
            exact ⟨rfl, rfl, rfl, by simp [heldLen], fun _ => by simp [heldLen], fun fs h => by cases h; omega⟩
          · rw [if_neg h1, if_neg h1]
            obtain ⟨a, b⟩ := loop_same hM W { r with buffer := r.buffer ++ [first] } (heldLen r.buffer + (first.data.length + overhead)) s' hr hm hW (by omega)
              (by show heldLen (r.buffer ++ [first]) ≤ _; omega) room
            exact ⟨a, ⟨b.df, b.msg, b.held, b.quiet, b.got⟩⟩
      | err e => exact ⟨rfl, rfl, rfl, by show heldLen r.buffer ≤ _; omega, fun _ => hh, fun fs h => by cases h⟩
      | panic e => exact ⟨rfl, rfl, rfl, by show heldLen r.buffer ≤ _; omega, fun _ => hh, fun fs h => by cases h⟩
  · rw [if_neg hb, if_neg hb]
    exact loop_same hM W r _ s hr hm hW hh (Nat.le_refl _) room

/-- Did the call report that a message exceeds a limit? -/
def Res.over {α} : Res α → Bool
  | .err e => Spec.overLimit e
  | _ => false

theorem message_same {M : Machine} (hM : 32 ≤ M.bits ∧ M.bits ≤ 64) (W : Nat) (r : Receiver) (s : Src) (hr : r.maxDf ≤ u32Max) (hm : r.maxMsg ≤ u32Max)
    (hW : r.maxMsg ≤ W) (hD : r.maxDf + 64 ≤ W) (hh : heldLen r.buffer ≤ W) (room : W + (r.maxDf + 64) < 2 ^ (M.bits - 1)) :
    M.recvMessage r s = r.recvMessage s ∧ (r.recvMessage s).2.1.maxDf = r.maxDf ∧ (r.recvMessage s).2.1.maxMsg = r.maxMsg ∧
      heldLen (r.recvMessage s).2.1.buffer ≤ W + (r.maxDf + 64) ∧ ((r.recvMessage s).1.over = false → heldLen (r.recvMessage s).2.1.buffer ≤ W) := by
  obtain ⟨a, b⟩ := frames_same hM W r s hr hm hW hD hh room
  unfold Machine.recvMessage Receiver.recvMessage
  rw [a]
  cases hf : r.recvMessageDataframes s with
  | mk x p =>
    rw [hf] at b
    cases x with
    | ok fs =>
      refine ⟨?_, b.df, b.msg, b.held, fun _ => b.quiet (by intro e h; cases h)⟩
      simp only
      rw [Machine.fromFrames_ok hM (Nat.lt_of_le_of_lt (b.got fs rfl) room)]
    | err e => exact ⟨rfl, b.df, b.msg, b.held, fun h => b.quiet (by intro e' he; cases he; exact h)⟩
    | panic e => exact ⟨rfl, b.df, b.msg, b.held, fun _ => b.quiet (by intro e h; cases h)⟩

theorem many_same {M : Machine} (hM : 32 ≤ M.bits ∧ M.bits ≤ 64) (n : Nat) (W : Nat) (r : Receiver) (s : Src) (hr : r.maxDf ≤ u32Max) (hm : r.maxMsg ≤ u32Max)
    (hW : r.maxMsg ≤ W) (hD : r.maxDf + 64 ≤ W) (hh : heldLen r.buffer ≤ W)
    (room : W + ((M.recvMany n r s).1.countP Res.over + 1) * (r.maxDf + 64) < 2 ^ (M.bits - 1)) :
    M.recvMany n r s = r.recvMany n s := by
  induction n generalizing W r s with
  | zero => rfl
  | succ n ih =>
    have hroom : W + (r.maxDf + 64) < 2 ^ (M.bits - 1) := by
      rw [Nat.add_mul, Nat.one_mul] at room; omega
    obtain ⟨a, b, c, d, e⟩ := message_same hM W r s hr hm hW hD hh hroom
    simp only [Machine.recvMany, List.countP_cons] at room
    simp only [Machine.recvMany, Receiver.recvMany]
    rw [a] at room ⊢
    have key : M.recvMany n (r.recvMessage s).2.1 (r.recvMessage s).2.2 = (r.recvMessage s).2.1.recvMany n (r.recvMessage s).2.2 := by
      cases ho : (r.recvMessage s).1.over with
      | false =>
        rw [ho] at room
        exact ih W _ _ (b ▸ hr) (c ▸ hm) (c ▸ hW) (b ▸ hD) (e ho) (by rw [b]; simpa using room)
      | true =>
        rw [ho] at room
        refine ih (W + (r.maxDf + 64)) _ _ (b ▸ hr) (c ▸ hm) (by rw [c]; omega) (by rw [b]; omega) d ?_
        rw [b]
        rw [if_pos rfl, Nat.succ_mul (_ + 1)] at room
        rw [Nat.add_assoc, Nat.add_comm (r.maxDf + 64)]
        exact room
    rw [key]

/-! ### The async decoder -/

theorem decode_data {c : DfCodec} (hc : c.maxDf ≤ u32Max) {src rest : Bytes} {f : DataFrame} (h : c.decode src = (.ok (some f), rest)) :
    f.data.length ≤ c.maxDf := by
  have hd := DfCodec.decode_eq c hc src
  rw [h] at hd
  split at hd
  · next g r hp =>
    cases hd
    exact ((parseFrame_ok_iff (Nat.lt_of_le_of_lt hc (by decide))).mp hp).1
  all_goals simp at hd

/-- What one step of the decoder leaves behind. -/
theorem onFrame_same {M : Machine} (hM : 32 ≤ M.bits ∧ M.bits ≤ 64) (W D maxMsg : Nat) (hm : maxMsg ≤ u32Max) (hW : maxMsg ≤ W) (b : List DataFrame) (cur : Nat) (f : DataFrame)
    (hc : cur ≤ W) (hh : heldLen b ≤ cur) (hf : f.data.length ≤ D) (room : W + (D + 64) < 2 ^ (M.bits - 1)) :
    M.onFrame maxMsg b cur f = MsgCodec.onFrame maxMsg b cur f ∧
      match MsgCodec.onFrame maxMsg b cur f with
      | .done x b' => heldLen b' ≤ W + (D + 64) ∧ (x.over = false → heldLen b' ≤ W)
      | .next b' cur' => cur' ≤ W ∧ heldLen b' ≤ cur' := by
  have ho : overhead = 64 := rfl
  have hs := heldLen_snoc b f
  have h1 : M.fromDataframes [f.view] = OwnedMsg.fromDataframes [f.view] := by
    have : heldLen [f] < 2 ^ (M.bits - 1) := by simp [heldLen]; omega
    exact Machine.fromFrames_ok hM this
  have h2 : M.fromDataframes ((b ++ [f]).map DataFrame.view) = OwnedMsg.fromDataframes ((b ++ [f]).map DataFrame.view) :=
    Machine.fromFrames_ok hM (by omega)
  unfold Machine.onFrame MsgCodec.onFrame
  simp only [h1, h2, Machine.grow_ok hM (show cur + (f.data.length + 64) < _ by omega), Machine.usize_u32 hM hm, true_and]
  by_cases c1 : f.opcode.toU8 = 0 ∧ decide (b = []) = true
  · simp only [if_pos c1]; exact ⟨by omega, fun _ => by omega⟩
  · simp only [if_neg c1]
    by_cases c2 : 8 ≤ f.opcode.toU8 ∧ f.opcode.toU8 ≤ 15
    · simp only [if_pos c2]; exact ⟨by omega, fun _ => by omega⟩
    · simp only [if_neg c2]
      by_cases c3 : 1 ≤ f.opcode.toU8 ∧ f.opcode.toU8 ≤ 7 ∧ decide (b = []) = false
      · simp only [if_pos c3]; exact ⟨by omega, fun _ => by omega⟩
      · simp only [if_neg c3]
        by_cases c4 : f.finished = true
        · simp only [if_pos c4]; exact ⟨by simp [heldLen], fun _ => by simp [heldLen]⟩
        · simp only [if_neg c4]
          by_cases c5 : (b ++ [f]).length ≥ maxFrames
          · simp only [if_pos c5]; exact ⟨by omega, fun h => absurd h (by decide)⟩
          · simp only [if_neg c5]
            by_cases c6 : cur + (f.data.length + overhead) > maxMsg
            · simp only [if_pos c6]; exact ⟨by omega, fun h => absurd h (by decide)⟩
            · simp only [if_neg c6]; exact ⟨by omega, by omega⟩

theorem decodeLoop_same {M : Machine} (hM : 32 ≤ M.bits ∧ M.bits ≤ 64) (W : Nat) (c : MsgCodec) (cur : Nat) (src : Bytes) (hr : c.df.maxDf ≤ u32Max) (hm : c.maxMsg ≤ u32Max)
    (hW : c.maxMsg ≤ W) (hc : cur ≤ W) (hh : heldLen c.buffer ≤ cur) (room : W + (c.df.maxDf + 64) < 2 ^ (M.bits - 1)) :
    M.decodeLoop c cur src = c.loop cur src ∧ (c.loop cur src).2.1.df = c.df ∧ (c.loop cur src).2.1.maxMsg = c.maxMsg ∧
      heldLen (c.loop cur src).2.1.buffer ≤ W + (c.df.maxDf + 64) ∧ ((c.loop cur src).1.over = false → heldLen (c.loop cur src).2.1.buffer ≤ W) := by
  induction hn : src.length using Nat.strongRecOn generalizing c cur src with
  | _ n ih =>
  rw [Machine.decodeLoop, MsgCodec.loop]
  cases hd : c.df.decode src with
  | mk x src' =>
    cases x with
    | ok o =>
      cases o with
      | none => exact ⟨rfl, rfl, rfl, by show heldLen c.buffer ≤ _; omega, fun _ => by show heldLen c.buffer ≤ _; omega⟩
      | some f =>
        obtain ⟨a, b⟩ := onFrame_same hM W c.df.maxDf c.maxMsg hm hW c.buffer cur f hc hh (decode_data hr hd) room
        simp only [a]
        cases hs : MsgCodec.onFrame c.maxMsg c.buffer cur f with
        | done x b' =>
          rw [hs] at b
          exact ⟨rfl, rfl, rfl, b.1, b.2⟩
        | next b' cur' =>
          rw [hs] at b
          have hlt : src'.length < src.length := DfCodec.decode_lt hd
          exact ih src'.length (by omega) { c with buffer := b' } cur' src' hr hm hW b.1 b.2 room rfl
    | err e => exact ⟨rfl, rfl, rfl, by show heldLen c.buffer ≤ _; omega, fun _ => by show heldLen c.buffer ≤ _; omega⟩
    | panic e => exact ⟨rfl, rfl, rfl, by show heldLen c.buffer ≤ _; omega, fun _ => by show heldLen c.buffer ≤ _; omega⟩

/-- The state allows for `W` bytes and `k + 1` further frames. -/
def HasRoom (bits k : Nat) (c : MsgCodec) : Prop :=
  c.df.maxDf ≤ u32Max ∧ c.maxMsg ≤ u32Max ∧ ∃ W, c.maxMsg ≤ W ∧ heldLen c.buffer ≤ W ∧ W + (k + 1) * (c.df.maxDf + 64) < 2 ^ (bits - 1)

theorem HasRoom.mono {bits k k' : Nat} {c : MsgCodec} (h : HasRoom bits k c) (hk : k' ≤ k) : HasRoom bits k' c := by
  obtain ⟨h1, h2, W, h3, h4, h5⟩ := h
  refine ⟨h1, h2, W, h3, h4, ?_⟩
  have := Nat.mul_le_mul_right (c.df.maxDf + 64) (show k' + 1 ≤ k + 1 by omega)
  omega

theorem decoder_same {M : Machine} (hM : 32 ≤ M.bits ∧ M.bits ≤ 64) (k : Nat) (c : MsgCodec) (src : Bytes) (h : HasRoom M.bits k c) :
    M.msgDecoder c src = msgDecoder c src ∧
      ((msgDecoder c src).1.over = false → HasRoom M.bits k (msgDecoder c src).2.1) ∧
      (∀ j, k = j + 1 → HasRoom M.bits j (msgDecoder c src).2.1) := by
  obtain ⟨h1, h2, W, h3, h4, h5⟩ := h
  have h6 : W + (c.df.maxDf + 64) < 2 ^ (M.bits - 1) := by rw [Nat.add_mul, Nat.one_mul] at h5; omega
  have hsum : M.sumFrom 0 (c.buffer.map fun f => f.data.length) = .ok (heldLen c.buffer) := by
    rw [Machine.sumFrom_ok hM (by have : heldLen c.buffer = (c.buffer.map fun f => f.data.length).sum := rfl; omega), Nat.zero_add]; rfl
  obtain ⟨a, b, d, e, f⟩ := decodeLoop_same hM W c (heldLen c.buffer) src h1 h2 h3 h4 (Nat.le_refl _) h6
  have e1 : msgDecoder c src = c.loop (heldLen c.buffer) src := rfl
  rw [e1]
  refine ⟨by unfold Machine.msgDecoder; rw [hsum]; exact a, fun ho => ⟨by rw [b]; exact h1, by rw [d]; exact h2, W, by rw [d]; exact h3, f ho, by rw [b]; exact h5⟩, fun j hj => ?_⟩
  subst hj
  refine ⟨by rw [b]; exact h1, by rw [d]; exact h2, W + (c.df.maxDf + 64), by rw [d]; omega, e, ?_⟩
  rw [b]
  rw [Nat.succ_mul (j + 1)] at h5
  omega

/-- Did the await report that a message exceeds a limit? -/
def Item.over {α} : Item α → Bool
  | .err e => Spec.overLimit e
  | _ => false

/-- What awaiting an item leaves behind. -/
def LeavesItem (bits k : Nat) (x : Item OwnedMsg) (fr : Framed MsgCodec) : Prop :=
  (x.over = false → HasRoom bits k fr.codec) ∧ ∀ j, k = j + 1 → HasRoom bits j fr.codec

theorem leaves_kept {bits k : Nat} {x : Item OwnedMsg} {fr : Framed MsgCodec} (h : HasRoom bits k fr.codec) : LeavesItem bits k x fr :=
  ⟨fun _ => h, fun j hj => h.mono (by omega)⟩

theorem pollEof_same {M : Machine} (hM : 32 ≤ M.bits ∧ M.bits ≤ 64) (k : Nat) (fr : Framed MsgCodec) (h : HasRoom M.bits k fr.codec) :
    fr.pollEof M.msgDecoder = fr.pollEof msgDecoder ∧ LeavesItem M.bits k (fr.pollEof msgDecoder).1 (fr.pollEof msgDecoder).2 := by
  obtain ⟨a, b, c⟩ := decoder_same hM k fr.codec fr.buf h
  unfold Framed.pollEof
  rw [a]
  cases hd : msgDecoder fr.codec fr.buf with
  | mk x p =>
    rw [hd] at b c
    cases x with
    | ok o =>
      cases o with
      | some m => exact ⟨rfl, fun _ => b rfl, c⟩
      | none => exact ⟨rfl, fun _ => b rfl, c⟩
    | err e => exact ⟨rfl, b, c⟩
    | panic e => exact ⟨rfl, fun _ => b rfl, c⟩

theorem pollRead_same {M : Machine} (hM : 32 ≤ M.bits ∧ M.bits ≤ 64) (k : Nat) (s : Src) (fr : Framed MsgCodec) (h : HasRoom M.bits k fr.codec) :
    fr.pollRead M.msgDecoder s = fr.pollRead msgDecoder s ∧
      match fr.pollRead msgDecoder s with
      | (.ready x, fr', _) => LeavesItem M.bits k x fr'
      | (.notReady, fr', _) => HasRoom M.bits k fr'.codec := by
  induction s generalizing fr with
  | nil =>
    obtain ⟨a, b⟩ := pollEof_same hM k { fr with eof := true, readable := true } h
    unfold Framed.pollRead
    rw [a]
    exact ⟨rfl, b⟩
  | cons ev rest ih =>
    cases ev with
    | error q =>
      unfold Framed.pollRead
      split
      · exact ⟨rfl, h⟩
      · exact ⟨rfl, leaves_kept h⟩
    | chunk bs =>
      unfold Framed.pollRead
      split
      · obtain ⟨a, b⟩ := pollEof_same hM k { fr with eof := true, readable := true } h
        rw [a]
        exact ⟨rfl, b⟩
      · obtain ⟨a, b, c⟩ := decoder_same hM k fr.codec (fr.buf ++ bs) h
        rw [a]
        cases hd : msgDecoder fr.codec (fr.buf ++ bs) with
        | mk x p =>
          rw [hd] at b c
          cases x with
          | ok o =>
            cases o with
            | some m => exact ⟨rfl, fun _ => b rfl, c⟩
            | none => exact ih { fr with codec := p.1, buf := p.2, readable := false } (b rfl)
          | err e => exact ⟨rfl, b, c⟩
          | panic e => exact ⟨rfl, fun _ => b rfl, c⟩

theorem poll_same {M : Machine} (hM : 32 ≤ M.bits ∧ M.bits ≤ 64) (k : Nat) (s : Src) (fr : Framed MsgCodec) (h : HasRoom M.bits k fr.codec) :
    fr.poll M.msgDecoder s = fr.poll msgDecoder s ∧
      match fr.poll msgDecoder s with
      | (.ready x, fr', _) => LeavesItem M.bits k x fr'
      | (.notReady, fr', _) => HasRoom M.bits k fr'.codec := by
  unfold Framed.poll
  split
  · split
    · obtain ⟨a, b⟩ := pollEof_same hM k fr h
      rw [a]
      exact ⟨rfl, b⟩
    · obtain ⟨a, b, c⟩ := decoder_same hM k fr.codec fr.buf h
      rw [a]
      cases hd : msgDecoder fr.codec fr.buf with
      | mk x p =>
        rw [hd] at b c
        cases x with
        | ok o =>
          cases o with
          | some m => exact ⟨rfl, fun _ => b rfl, c⟩
          | none => exact pollRead_same hM k s { fr with codec := p.1, buf := p.2, readable := false } (b rfl)
        | err e => exact ⟨rfl, b, c⟩
        | panic e => exact ⟨rfl, fun _ => b rfl, c⟩
  · exact pollRead_same hM k s fr h

theorem next_same {M : Machine} (hM : 32 ≤ M.bits ∧ M.bits ≤ 64) (k : Nat) (s : Src) (fr : Framed MsgCodec) (h : HasRoom M.bits k fr.codec) :
    fr.next M.msgDecoder s = fr.next msgDecoder s ∧ LeavesItem M.bits k (fr.next msgDecoder s).1 (fr.next msgDecoder s).2.1 := by
  induction hn : s.length using Nat.strongRecOn generalizing fr s with
  | _ n ih =>
  obtain ⟨a, b⟩ := poll_same hM k s fr h
  rw [Framed.next, Framed.next, a]
  cases hp : fr.poll msgDecoder s with
  | mk x p =>
    rw [hp] at b
    cases x with
    | ready x => exact ⟨rfl, b⟩
    | notReady =>
      have := Framed.poll_lt (show fr.poll msgDecoder s = (.notReady, p.1, p.2) from hp)
      exact ih p.2.length (by omega) p.2 p.1 b rfl

theorem nextMany_same {M : Machine} (hM : 32 ≤ M.bits ∧ M.bits ≤ 64) (n : Nat) (s : Src) (fr : Framed MsgCodec)
    (h : HasRoom M.bits ((fr.nextMany M.msgDecoder n s).1.countP Item.over) fr.codec) :
    fr.nextMany M.msgDecoder n s = fr.nextMany msgDecoder n s := by
  induction n generalizing s fr with
  | zero => rfl
  | succ n ih =>
    obtain ⟨a, b, c⟩ := next_same hM _ s fr h
    simp only [Framed.nextMany, List.countP_cons] at h b c
    simp only [Framed.nextMany]
    rw [a] at h b c ⊢
    have key : (fr.next msgDecoder s).2.1.nextMany M.msgDecoder n (fr.next msgDecoder s).2.2 =
        (fr.next msgDecoder s).2.1.nextMany msgDecoder n (fr.next msgDecoder s).2.2 := by
      cases ho : (fr.next msgDecoder s).1.over with
      | false => rw [ho] at b; exact ih _ _ (b rfl)
      | true => rw [ho] at c; exact ih _ _ (c _ rfl)
    rw [key]

end WS
