import Verif.Model.IO
/-!
# Masking (websocket-base/src/ws/util/mask.rs)
-/

namespace WS

/-- `[u8; 4]` masking key. -/
structure Key4 where
  k0 : UInt8
  k1 : UInt8
  k2 : UInt8
  k3 : UInt8
  deriving DecidableEq, Repr

/-- The key as a byte array. -/
def Key4.toBytes (k : Key4) : Bytes := [k.k0, k.k1, k.k2, k.k3]

/-- `key[pos]` (websocket-base/src/ws/util/mask.rs:30); the code only uses `pos < 4`. -/
def Key4.at (k : Key4) (pos : Nat) : UInt8 :=
  match pos with
  | 0 => k.k0
  | 1 => k.k1
  | 2 => k.k2
  | _ => k.k3

/-- `mask_data`, websocket-base/src/ws/util/mask.rs:47-54: `data.iter().zip(mask.iter().cycle())`.  The cycling
iterator is modelled by the list of keys still to come before wrapping around. -/
def maskCycle (full : Bytes) : Bytes → Bytes → Bytes
  | _, [] => []
  | [], d :: ds =>
    match full with
    | [] => []
    | k :: ks => (d ^^^ k) :: maskCycle full ks ds
  | k :: ks, d :: ds => (d ^^^ k) :: maskCycle full ks ds

/-- `mask_data`, websocket-base/src/ws/util/mask.rs:47-54. -/
def maskData (key : Key4) (data : Bytes) : Bytes :=
  maskCycle key.toBytes key.toBytes data

/-- `Masker`, websocket-base/src/ws/util/mask.rs:8-23, with its endpoint. -/
structure Masker where
  key : Key4
  pos : Nat
  out : Sink
  deriving DecidableEq, Repr

/-- `Masker::new`, websocket-base/src/ws/util/mask.rs:16-22. -/
def Masker.new (key : Key4) (out : Sink) : Masker := ⟨key, 0, out⟩

/-- The loop of `Masker::write`, websocket-base/src/ws/util/mask.rs:29-32: the masked buffer and the new position. -/
def maskLoop (key : Key4) : Nat → Bytes → Bytes × Nat
  | pos, [] => ([], pos)
  | pos, b :: bs =>
    let (rest, p) := maskLoop key ((pos + 1) % 4) bs
    ((b ^^^ key.at pos) :: rest, p)

/-- `<Masker as Write>::write`, websocket-base/src/ws/util/mask.rs:27-34. -/
def Masker.write (data : Bytes) (m : Masker) : Except IoKind Nat × Masker :=
  let (buf, pos) := maskLoop m.key m.pos data
  let (r, out) := m.out.write buf
  (r, { m with pos := pos, out := out })

theorem Sink.write_script_le (bs : Bytes) (w : Sink) :
    (w.write bs).2.script.length ≤ w.script.length := by
  unfold Sink.write; split <;> simp_all

/-- `write_all` on a `Masker` (standard-library loop over `Masker::write`).  A `Vec`
endpoint takes every write whole; for other endpoints the loop is bounded by the script. -/
def Masker.writeAll (data : Bytes) (m : Masker) : Except IoKind Unit × Masker :=
  if data = [] then (.ok (), m)
  else
    match _hs : m.out.script with
    | [] =>
      -- the endpoint accepts everything in one call
      let (r, m') := m.write data
      match r with
      | .ok _ => (.ok (), m')
      | .error k => (.error k, m')
    | .error k :: s =>
      let (_, m') := m.write data
      if k = .interrupted then Masker.writeAll data { m' with out := ⟨m'.out.wire, s⟩ }
      else (.error k, m')
    | .accept n :: s =>
      let (_, m') := m.write data
      if n = 0 then (.error .writeZero, m')
      else Masker.writeAll (data.drop n) { m' with out := ⟨m'.out.wire, s⟩ }
termination_by m.out.script.length
decreasing_by all_goals simp [_hs]

end WS
