import Verif.Props.Limits
import Verif.Lemmas.Word
/-!
# Property C87: other machines

The other files take a `usize` of 64 bits and sums of sizes that do not overflow for granted. Here both receivers are shown to do the
same on any machine with a `usize` of 32 to 64 bits, however the library is compiled, as long as the configured limits leave room.
-/

namespace WS
open Spec

/-- The limits with which the connections are made (src/receiver.rs:101-110, websocket-base/src/codec/ws.rs:97-104 and 260-268) leave room. -/
def Spec.LimitsFor (M : Machine) (maxDf maxMsg k : Nat) : Prop := LimitsFit M.bits (min maxDf (2 ^ 32 - 1)) (min maxMsg (2 ^ 32 - 1)) k

instance (M : Machine) (maxDf maxMsg k : Nat) : Decidable (LimitsFor M maxDf maxMsg k) := inferInstanceAs (Decidable (LimitsFit _ _ _ _))

/-- C87, blocking: over any transport, any number of `recv_message` calls return the same, leave the same in the receiver and take the same from the transport
as on the machine that the other theorems are about, if the limits leave room for the calls that the program makes after it was told that a message exceeds a limit. -/
theorem C87_blocking_partial (M : Machine) (hM : 32 ≤ M.bits ∧ M.bits ≤ 64) (mask : Bool) (maxDf maxMsg n : Nat) (s : Src)
    (room : LimitsFor M maxDf maxMsg ((M.recvMany n (Receiver.newWithLimits mask maxDf maxMsg) s).1.countP fun x => match x with | .err e => overLimit e | _ => false)) :
    M.recvMany n (Receiver.newWithLimits mask maxDf maxMsg) s = (Receiver.newWithLimits mask maxDf maxMsg).recvMany n s := by
  have hc : (fun x : Res OwnedMsg => match x with | .err e => overLimit e | _ => false) = Res.over := by funext x; cases x <;> rfl
  rw [hc] at room
  refine many_same hM n (max (min maxMsg u32Max) (min maxDf u32Max + 64)) _ s (Nat.min_le_right _ _) (Nat.min_le_right _ _) (Nat.le_max_left _ _) (Nat.le_max_right _ _) (Nat.zero_le _) ?_
  exact room

/-- C87, async: the same for any number of messages awaited from a framed connection, with anything left over from the handshake in its buffer. -/
theorem C87_async_partial (M : Machine) (hM : 32 ≤ M.bits ∧ M.bits ≤ 64) (ctx : Context) (maxDf maxMsg n : Nat) (left : Bytes) (s : Src)
    (room : LimitsFor M maxDf maxMsg (((Framed.fromParts (MsgCodec.newWithLimits ctx maxDf maxMsg) left).nextMany M.msgDecoder n s).1.countP
      fun x => match x with | .err e => overLimit e | _ => false)) :
    (Framed.fromParts (MsgCodec.newWithLimits ctx maxDf maxMsg) left).nextMany M.msgDecoder n s =
      (Framed.fromParts (MsgCodec.newWithLimits ctx maxDf maxMsg) left).nextMany msgDecoder n s := by
  have hc : (fun x : Item OwnedMsg => match x with | .err e => overLimit e | _ => false) = Item.over := by funext x; cases x <;> rfl
  rw [hc] at room
  refine nextMany_same hM n s _ ⟨Nat.min_le_right _ _, Nat.min_le_right _ _, max (min maxMsg u32Max) (min maxDf u32Max + 64), Nat.le_max_left _ _, Nat.zero_le _, ?_⟩
  exact room

/-- C87: and so the bytes of a peer do not crash a receiver there either. -/
theorem C87_no_panic_partial (M : Machine) (hM : 32 ≤ M.bits ∧ M.bits ≤ 64) (mask : Bool) (maxDf maxMsg n : Nat) (s : Src) (hs : s.flat.length < 2 ^ 63)
    (room : LimitsFor M maxDf maxMsg ((M.recvMany n (Receiver.newWithLimits mask maxDf maxMsg) s).1.countP fun x => match x with | .err e => overLimit e | _ => false)) (why : String) :
    Res.panic why ∉ (M.recvMany n (Receiver.newWithLimits mask maxDf maxMsg) s).1 := by
  rw [C87_blocking_partial M hM mask maxDf maxMsg n s room]
  exact C09_blocking_never_panics n _ (Nat.min_le_right _ _) s (by show 0 + _ ≤ isizeMax; unfold isizeMax; omega) why

/-- C87: the limits that are used unless others are asked for leave room on a machine of 32 bits, for a program that goes on 17 times after it was told that a message exceeds a limit,
and any limits at all leave room on a machine of 64 bits, for two thousand million times. -/
theorem C87_room (checks : Bool) :
    (∀ k, k ≤ 17 → LimitsFor ⟨32, checks⟩ (100 * 1024 * 1024) (200 * 1024 * 1024) k) ∧
      ∀ maxDf maxMsg k, k ≤ 2000000000 → LimitsFor ⟨64, checks⟩ maxDf maxMsg k := by
  constructor
  · intro k hk
    have := Nat.mul_le_mul_right (100 * 1024 * 1024 + 64) (show k + 1 ≤ 18 by omega)
    show 200 * 1024 * 1024 + (k + 1) * (100 * 1024 * 1024 + 64) < 2 ^ 31
    omega
  · intro maxDf maxMsg k hk
    have h1 := Nat.mul_le_mul (show k + 1 ≤ 2000000001 by omega) (show min maxDf (2 ^ 32 - 1) + 64 ≤ 2 ^ 32 + 63 by omega)
    show max (min maxMsg (2 ^ 32 - 1)) (min maxDf (2 ^ 32 - 1) + 64) + (k + 1) * (min maxDf (2 ^ 32 - 1) + 64) < 2 ^ 63
    have h2 : max (min maxMsg (2 ^ 32 - 1)) (min maxDf (2 ^ 32 - 1) + 64) ≤ 2 ^ 32 + 63 := by omega
    omega

/-- C87: the size by which the async encoders make room for a frame is computed without overflow, whatever the payload that fits into memory. -/
theorem C87_frame_size (M : Machine) (hM : 32 ≤ M.bits) (v : FrameView) (hv : v.size < 2 ^ (M.bits - 1)) (masked : Bool) : M.frameSize v masked = .ok (v.frameSize masked) := by
  have h1 : 2 * 2 ^ (M.bits - 1) = 2 ^ M.bits := by rw [← Nat.pow_succ']; congr 1; omega
  have h2 : 2 ^ 31 ≤ 2 ^ (M.bits - 1) := Nat.pow_le_pow_right (by decide) (by omega)
  have h3 : (if v.size ≤ 125 then 1 else if v.size ≤ 65535 then 3 else 9) ≤ 9 := by split; omega; split <;> omega
  have h4 : (if masked then 4 else 0) ≤ 4 := by split <;> omega
  unfold Machine.frameSize FrameView.frameSize
  generalize (if v.size ≤ 125 then 1 else if v.size ≤ 65535 then 3 else 9) = a at h3 ⊢
  generalize (if masked then 4 else 0) = b at h4 ⊢
  unfold Machine.add
  rw [if_pos (by omega), Res.bind, if_pos (by omega), Res.bind, if_pos (by omega)]

theorem body_length {h : Header} {b : Bytes} {m : Bool} {f : DataFrame} (hb : readDataframeBody h b m = .ok f) : f.data.length = b.length := by
  unfold readDataframeBody at hb
  split at hb
  · cases hb
  · simp only at hb
    split at hb
    · split at hb
      · cases hb
      · cases hb; exact (C05_mask_data _ _).2.1
    · split at hb
      · cases hb
      · cases hb; rfl

/-- C87: a frame that `read_dataframe`, which knows no limit, returns on a machine of 64 bits is returned on a smaller one as well if its payload fits into memory there. -/
theorem C87_unlimited (M : Machine) (hM : 32 ≤ M.bits ∧ M.bits ≤ 64) (masked : Bool) (s s' : Src) (f : DataFrame) (h : readDataframe masked s = (.ok f, s')) (hf : f.data.length < 2 ^ (M.bits - 1)) :
    M.readDataframe masked s = (.ok f, s') := by
  unfold readDataframe at h
  unfold Machine.readDataframe
  change Rd.bind readHeader _ s = _ at h
  change Rd.bind readHeader _ s = _
  unfold Rd.bind at h ⊢
  cases hh : readHeader s with
  | mk x s1 =>
    rw [hh] at h
    cases x with
    | err e => simp at h
    | panic e => simp at h
    | ok hd =>
      simp only at h ⊢
      suffices hl : hd.len ≤ M.isizeMax by rw [Machine.cap_eq hM hl, Machine.payload_eq hl]; exact h
      have h2 := h
      change Rd.bind (vecWithCapacity hd.len) _ s1 = _ at h2
      unfold Rd.bind vecWithCapacity at h2
      split at h2
      · next hv =>
        by_cases hb : hd.len > isizeMax
        · rw [if_pos hb] at hv; cases hv
        · rw [if_neg hb] at hv
          cases hv
          change Rd.bind (readPayload hd.len) _ s1 = _ at h2
          unfold Rd.bind readPayload at h2
          cases ht : takeToEnd hd.len s1 with
          | mk y s2 =>
            rw [ht] at h2
            cases y with
            | error k => simp at h2
            | ok b =>
              simp only at h2
              by_cases hbl : b.length < hd.len
              · rw [if_pos hbl] at h2; simp at h2
              · rw [if_neg hbl] at h2
                have h3 : readDataframeBody hd b masked = .ok f := (Prod.mk.inj h2).1
                have := body_length h3
                unfold Machine.isizeMax
                omega
      · simp at h2
      · simp at h2

/-- The header of a binary frame that announces 2^31 bytes. -/
def hugeHeader : Bytes := [0x82, 127, 0, 0, 0, 0, 0x80, 0, 0, 0]

theorem huge_header : readHeader [.chunk hugeHeader] = (.ok ⟨FIN, 2, none, 2 ^ 31⟩, []) := by rfl

theorem huge_crash (checks mask : Bool) {limit : Nat} (h : 2 ^ 31 ≤ limit) :
    Machine.readDataframeWithLimit ⟨32, checks⟩ mask limit [.chunk hugeHeader] = (.panic "capacity overflow", []) ∧
      readDataframeWithLimit mask limit [.chunk hugeHeader] = (.err .noData, []) := by
  unfold Machine.readDataframeWithLimit readDataframeWithLimit
  change Rd.bind readHeader _ _ = _ ∧ Rd.bind readHeader _ _ = _
  unfold Rd.bind
  rw [huge_header]
  constructor
  · simp only
    split
    · next hgt => exact absurd hgt (by show ¬ (2 ^ 31 > limit); omega)
    · rfl
  · simp only
    split
    · next hgt => exact absurd hgt (by show ¬ (2 ^ 31 > limit); omega)
    · rfl

/-- C87 does not hold for all the limits that may be configured (`new_with_limits` only says that sizes should not be larger than `u32::MAX`, src/receiver.rs:95-100): on a machine of
32 bits ten bytes crash a receiver that allows frames of 2^31 bytes or more, whichever side it is on and however the library is compiled; on a machine of 64 bits it asks for more. -/
theorem C87_refuted_crash (checks mask : Bool) (maxDf maxMsg : Nat) (h : 2 ^ 31 ≤ maxDf) :
    (Machine.recvMessage ⟨32, checks⟩ (Receiver.newWithLimits mask maxDf maxMsg) [.chunk hugeHeader]).1 = .panic "capacity overflow" ∧
      ((Receiver.newWithLimits mask maxDf maxMsg).recvMessage [.chunk hugeHeader]).1 = .err .noData := by
  have hl : 2 ^ 31 ≤ min maxDf u32Max := by unfold u32Max; omega
  have hu : Machine.usize ⟨32, checks⟩ (min maxDf u32Max) = min maxDf u32Max := Nat.mod_eq_of_lt (by unfold u32Max; show _ < 2 ^ 32; omega)
  have hd : Machine.recvDataframe ⟨32, checks⟩ (Receiver.newWithLimits mask maxDf maxMsg) [.chunk hugeHeader] = (.panic "capacity overflow", []) := by
    unfold Machine.recvDataframe
    rw [show (Receiver.newWithLimits mask maxDf maxMsg).maxDf = min maxDf u32Max from rfl, hu]
    exact (huge_crash checks mask hl).1
  have hd' : (Receiver.newWithLimits mask maxDf maxMsg).recvDataframe [.chunk hugeHeader] = (.err .noData, []) := (huge_crash checks mask hl).2
  constructor
  · unfold Machine.recvMessage Machine.recvMessageDataframes
    simp only [show (Receiver.newWithLimits mask maxDf maxMsg).buffer = [] from rfl, List.map_nil, Machine.sumFrom, if_true, hd]
  · unfold Receiver.recvMessage Receiver.recvMessageDataframes
    simp only [show (Receiver.newWithLimits mask maxDf maxMsg).buffer = [] from rfl, if_true, hd']

/-! ## Concrete cases -/

/-- A fragmented message that exceeds a limit of 100 bytes, a ping in between, and after the report another message. -/
def overBytes : Src := [.chunk [0x02, 3, 1, 2, 3, 0x89, 1, 7], .error .interrupted, .chunk [0x00, 2, 4, 5, 0x00, 1, 6], .error .wouldBlock, .chunk [0x80, 1, 7, 0x81, 1, 0x41]]

theorem over_run (checks : Bool) : (Machine.recvMany ⟨32, checks⟩ 5 (Receiver.newWithLimits false 1000 100) overBytes).1 =
    [.ok (.ping [7]), .err (.protocol "Exceeded maximum WebSocket message size"), .err (.io .wouldBlock), .ok (.binary [1, 2, 3, 4, 5, 6, 7]), .ok (.text [0x41])] := by
  cases checks <;> decide +kernel

example (checks : Bool) := C87_blocking_partial ⟨32, checks⟩ (by decide +revert) false 1000 100 5 overBytes (by rw [over_run]; decide +revert)
example (checks : Bool) := C87_no_panic_partial ⟨32, checks⟩ (by decide +revert) false 1000 100 5 overBytes (by decide) (by rw [over_run]; decide +revert)

/-- The same with an async connection, and some of the bytes left over from the handshake. -/
theorem over_items (checks : Bool) : ((Framed.fromParts (MsgCodec.newWithLimits .client 1000 100) [0x02, 3, 1]).nextMany (Machine.msgDecoder ⟨32, checks⟩) 4
      [.chunk [2, 3, 0x89, 1, 7], .error .wouldBlock, .chunk [0x00, 2, 4, 5, 0x00, 1, 6, 0x80, 1, 7, 0x81, 1, 0x41]]).1 =
    [.item (.ping [7]), .err (.protocol "Exceeded maximum WebSocket message size"), .item (.binary [1, 2, 3, 4, 5, 6, 7]), .item (.text [0x41])] := by
  cases checks <;> decide +kernel

example (checks : Bool) := C87_async_partial ⟨32, checks⟩ (by decide +revert) .client 1000 100 4 [0x02, 3, 1]
  [.chunk [2, 3, 0x89, 1, 7], .error .wouldBlock, .chunk [0x00, 2, 4, 5, 0x00, 1, 6, 0x80, 1, 7, 0x81, 1, 0x41]] (by rw [over_items]; decide +revert)

example := C87_frame_size ⟨32, true⟩ (by decide) (DataFrame.view ⟨true, false, false, false, .binary, [1, 2, 3]⟩) (by decide) true
example := C87_unlimited ⟨32, false⟩ (by decide) false [.chunk [0x82, 3, 1], .chunk [2, 3, 9]] [.chunk [9]] ⟨true, false, false, false, .binary, [1, 2, 3]⟩ (by decide +kernel) (by decide)
example (mask : Bool) := C87_refuted_crash true mask (2 ^ 32 - 1) (2 ^ 32 - 1) (by decide)

end WS
