import Verif.Model.Framed
/-!
# The receivers on other machines

Everywhere else `usize` has 64 bits and sums of sizes do not overflow. Here the two receivers and what they call are written
down again for any width of `usize` and for both ways of compiling (`overflow-checks` on, as in debug builds, or off, as in release
builds). Only what touches a `usize` differs from `Model/DataFrame`, `Model/Message`, `Model/Receiver` and `Model/Codec`.
-/

namespace WS

/-- What the compiler is told: how many bits a `usize` has, and whether arithmetic is checked for overflow. -/
structure Machine where
  bits : Nat
  checks : Bool
  deriving DecidableEq, Repr

/-- `n as usize`. -/
def Machine.usize (M : Machine) (n : Nat) : Nat := n % 2 ^ M.bits

/-- `isize::MAX`, the most bytes a `Vec` can hold. -/
def Machine.isizeMax (M : Machine) : Nat := 2 ^ (M.bits - 1) - 1

/-- `a + b` for `usize`: on overflow a panic, or the sum wraps around if overflow is not checked. -/
def Machine.add (M : Machine) (a b : Nat) : Res Nat :=
  if a + b < 2 ^ M.bits then .ok (a + b)
  else if M.checks then .panic "attempt to add with overflow" else .ok ((a + b) % 2 ^ M.bits)

/-- `Iterator::sum` for `usize` (standard library: a fold with `+` that is compiled with the caller's overflow checks). -/
def Machine.sumFrom (M : Machine) (a : Nat) : List Nat → Res Nat
  | [] => .ok a
  | b :: rest => (M.add a b).bind fun c => M.sumFrom c rest

/-- `current_message_length += frame.data.len() + PER_DATAFRAME_OVERHEAD`, src/receiver.rs:142 and 156,
websocket-base/src/codec/ws.rs:303. -/
def Machine.grow (M : Machine) (cur len : Nat) : Res Nat :=
  (M.add len overhead).bind fun x => M.add cur x

/-- `Vec::with_capacity(n)`. -/
def Machine.withCapacity (M : Machine) (n : Nat) : Rd Unit :=
  if n > M.isizeMax then Rd.lift (.panic "capacity overflow") else pure ()

/-- `reader.take(len).read_to_end(&mut data)?` followed by the length check, websocket-base/src/dataframe.rs:92-95 and 111-114. The
vector cannot grow beyond `isize::MAX` bytes (depending on the version of the standard library this is a panic or an out-of-memory
error; a panic here). -/
def Machine.readPayload (M : Machine) (n : Nat) : Rd Bytes := fun s =>
  match takeToEnd n s with
  | (.ok b, s') =>
    if b.length > M.isizeMax then (.panic "capacity overflow", s')
    else if b.length < n then (.err (.ofIo .unexpectedEof), s') else (.ok b, s')
  | (.error k, s') => (.err (.ofIo k), s')

/-- `read_dataframe`, websocket-base/src/dataframe.rs:85-98. -/
def Machine.readDataframe (M : Machine) (shouldBeMasked : Bool) : Rd DataFrame := do
  let h ← readHeader
  M.withCapacity (M.usize h.len)
  let data ← M.readPayload h.len
  Rd.lift (readDataframeBody h data shouldBeMasked)

/-- `read_dataframe_with_limit`, websocket-base/src/dataframe.rs:101-117. -/
def Machine.readDataframeWithLimit (M : Machine) (shouldBeMasked : Bool) (limit : Nat) : Rd DataFrame := do
  let h ← readHeader
  if h.len > limit then Rd.fail (.ofIo .invalidData)
  else do
    M.withCapacity (M.usize h.len)
    let data ← M.readPayload h.len
    Rd.lift (readDataframeBody h data shouldBeMasked)

theorem Machine.nonInc_payload (M : Machine) (n : Nat) : NonInc (M.readPayload n) := by
  intro s
  have := takeToEnd_measure n s
  unfold Machine.readPayload
  split
  · split
    · simp_all
    · split <;> simp_all
  · simp_all

theorem Machine.nonInc_cap (M : Machine) (n : Nat) : NonInc (M.withCapacity n) := by
  unfold Machine.withCapacity; exact nonInc_ite (nonInc_lift _) (nonInc_pure _)

theorem Machine.readDataframeWithLimit_lt {M : Machine} {masked : Bool} {limit : Nat} {s s' : Src} {f : DataFrame}
    (h : M.readDataframeWithLimit masked limit s = (.ok f, s')) : s'.measure < s.measure := by
  unfold Machine.readDataframeWithLimit readHeader at h
  rw [bind_assoc_apply] at h
  refine u8_bind_lt (fun b0 => ?_) h
  rw [bind_assoc_apply]
  refine nonInc_bind nonInc_u8 fun b1 => ?_
  rw [bind_assoc_apply]
  refine nonInc_bind (nonInc_len _) fun len => ?_
  refine nonInc_bind ?_ fun h => ?_
  · refine nonInc_ite (nonInc_fail _) (nonInc_ite (nonInc_fail _) ?_)
    exact nonInc_bind (nonInc_mask _) fun _ => nonInc_pure _
  · refine nonInc_ite (nonInc_fail _) ?_
    exact nonInc_bind (M.nonInc_cap _) fun _ => nonInc_bind (M.nonInc_payload _) fun _ => nonInc_lift _

/-- `from_dataframes`, websocket-base/src/message.rs:189-246 and 359-364: the payload sizes are added up and a vector of that
capacity is made; with that done the rest does not depend on the machine. -/
def Machine.fromDataframes (M : Machine) (frames : List FrameView) : Res OwnedMsg :=
  if frames = [] then .err (.protocol "No dataframes provided")
  else (M.sumFrom 0 (frames.map FrameView.size)).bind fun payloadSize =>
    if payloadSize > M.isizeMax then .panic "capacity overflow"
    -- appending the payloads makes the vector as long as they are together
    else if (frames.map FrameView.size).sum > M.isizeMax then .panic "capacity overflow"
    else OwnedMsg.fromDataframes frames

/-- `recv_dataframe`, src/receiver.rs:119-124. -/
def Machine.recvDataframe (M : Machine) (r : Receiver) : Rd DataFrame :=
  M.readDataframeWithLimit r.mask (M.usize r.maxDf)

/-- The loop `while !finished`, src/receiver.rs:150-183, as in `recvLoop`. -/
def Machine.recvLoop (M : Machine) (r : Receiver) (cur : Nat) (s : Src) : Res (List DataFrame) × Receiver × Src :=
  match h : M.recvDataframe r s with
  | (.ok next, s') =>
    if next.opcode.toU8 = 0 then
      match M.grow cur next.data.length with
      | .ok cur' =>
        let r' := { r with buffer := r.buffer ++ [next] }
        if next.finished then (.ok r'.buffer, { r' with buffer := [] }, s')
        else if r'.buffer.length ≥ maxFrames then
          (.err (.protocol "Exceeded count of data frames in one WebSocket message"), r', s')
        else if cur' ≥ M.usize r.maxMsg then
          (.err (.protocol "Exceeded maximum WebSocket message size"), r', s')
        else M.recvLoop r' cur' s'
      | .err e => (.err e, r, s')
      | .panic e => (.panic e, r, s')
    else if next.opcode.toU8 ≥ 8 ∧ next.opcode.toU8 ≤ 15 then (.ok [next], r, s')
    else (.err (.protocol "Unexpected data frame opcode"), r, s')
  | (.err e, s') => (.err e, r, s')
  | (.panic e, s') => (.panic e, r, s')
termination_by s.measure
decreasing_by exact Machine.readDataframeWithLimit_lt h

/-- `recv_message_dataframes`, src/receiver.rs:127-186. -/
def Machine.recvMessageDataframes (M : Machine) (r : Receiver) (s : Src) : Res (List DataFrame) × Receiver × Src :=
  match M.sumFrom 0 (r.buffer.map fun f => f.data.length) with
  | .ok cur =>
    if r.buffer = [] then
      match M.recvDataframe r s with
      | (.ok first, s') =>
        if first.opcode = .continuation then
          (.err (.protocol "Unexpected continuation data frame opcode"), r, s')
        else
          match M.grow cur first.data.length with
          | .ok cur' =>
            let r' := { r with buffer := r.buffer ++ [first] }
            if first.finished then (.ok r'.buffer, { r' with buffer := [] }, s')
            else M.recvLoop r' cur' s'
          | .err e => (.err e, r, s')
          | .panic e => (.panic e, r, s')
      | (.err e, s') => (.err e, r, s')
      | (.panic e, s') => (.panic e, r, s')
    else M.recvLoop r cur s
  | .err e => (.err e, r, s)
  | .panic e => (.panic e, r, s)

/-- `recv_message`, websocket-base/src/ws/receiver.rs:41-47. -/
def Machine.recvMessage (M : Machine) (r : Receiver) (s : Src) : Res OwnedMsg × Receiver × Src :=
  match M.recvMessageDataframes r s with
  | (.ok fs, r', s') => (M.fromDataframes (fs.map DataFrame.view), r', s')
  | (.err e, r', s') => (.err e, r', s')
  | (.panic e, r', s') => (.panic e, r', s')

/-- `n` successive `recv_message` calls (websocket-base/src/ws/receiver.rs:71-104). -/
def Machine.recvMany (M : Machine) : Nat → Receiver → Src → List (Res OwnedMsg) × Receiver × Src
  | 0, r, s => ([], r, s)
  | n + 1, r, s =>
    let (x, r', s') := M.recvMessage r s
    let (xs, r'', s'') := Machine.recvMany M n r' s'
    (x :: xs, r'', s'')

/-- Body of the loop of `MessageCodec::decode`, websocket-base/src/codec/ws.rs:281-322, as in `MsgCodec.onFrame`. -/
def Machine.onFrame (M : Machine) (maxMsg : Nat) (buffer : List DataFrame) (cur : Nat) (frame : DataFrame) : FrameStep :=
  let isFirst := decide (buffer = [])
  let finished := frame.finished
  if frame.opcode.toU8 = 0 ∧ isFirst = true then
    .done (.err (.protocol "Unexpected continuation data frame opcode")) buffer
  else if 8 ≤ frame.opcode.toU8 ∧ frame.opcode.toU8 ≤ 15 then
    .done (do let m ← M.fromDataframes [frame.view]; pure (some m)) buffer
  else if 1 ≤ frame.opcode.toU8 ∧ frame.opcode.toU8 ≤ 7 ∧ isFirst = false then
    .done (.err (.protocol "Unexpected data frame opcode")) buffer
  else
    match M.grow cur frame.data.length with
    | .ok cur' =>
      let buffer' := buffer ++ [frame]
      if finished then
        .done (do let m ← M.fromDataframes (buffer'.map DataFrame.view); pure (some m)) []
      else if buffer'.length ≥ maxFrames then
        .done (.err (.protocol "Exceeded count of data frames in one WebSocket message")) buffer'
      else if cur' > M.usize maxMsg then
        .done (.err (.protocol "Exceeded maximum WebSocket message size")) buffer'
      else .next buffer' cur'
    | .err e => .done (.err e) buffer
    | .panic e => .done (.panic e) buffer

/-- The loop of `MessageCodec::decode`, websocket-base/src/codec/ws.rs:280-323. `DataFrameCodec::decode` does its arithmetic with `u64`;
the two casts to `usize` in it (websocket-base/src/codec/ws.rs:139-140) are of numbers that do not exceed the length of the buffer. -/
def Machine.decodeLoop (M : Machine) (c : MsgCodec) (cur : Nat) (src : Bytes) : Res (Option OwnedMsg) × MsgCodec × Bytes :=
  match h : c.df.decode src with
  | (.ok (some frame), src') =>
    match M.onFrame c.maxMsg c.buffer cur frame with
    | .done r buffer => (r, { c with buffer := buffer }, src')
    | .next buffer cur' => M.decodeLoop { c with buffer := buffer } cur' src'
  | (.ok none, src') => (.ok none, c, src')
  | (.err e, src') => (.err e, c, src')
  | (.panic e, src') => (.panic e, c, src')
termination_by src.length
decreasing_by exact DfCodec.decode_lt h

/-- `MessageCodec::decode`, websocket-base/src/codec/ws.rs:278-326. -/
def Machine.msgDecoder (M : Machine) : Decoder MsgCodec OwnedMsg := fun c src =>
  match M.sumFrom 0 (c.buffer.map fun f => f.data.length) with
  | .ok cur => M.decodeLoop c cur src
  | .err e => (.err e, c, src)
  | .panic e => (.panic e, c, src)

/-- `frame_size`, websocket-base/src/ws/dataframe.rs:27-46. -/
def Machine.frameSize (M : Machine) (v : FrameView) (masked : Bool) : Res Nat :=
  (M.add 1 (if v.size ≤ 125 then 1 else if v.size ≤ 65535 then 3 else 9)).bind fun a =>
  (M.add a (if masked then 4 else 0)).bind fun b => M.add b v.size

end WS
