import Verif.Model.DataFrame
import Verif.Spec.Frame
/-! Byte-level facts, by checking all 256 values in the kernel. -/

namespace WS

theorem forall_u8 {p : UInt8 → Prop} (h : ∀ n : Fin 256, p (UInt8.ofNat n.val)) (b : UInt8) :
    p b := by
  have := h ⟨b.toNat, b.toNat_lt⟩
  simpa using this

theorem u8_eq_of_toNat {a b : UInt8} (h : a.toNat = b.toNat) : a = b :=
  UInt8.toNat_inj.mp h

theorem u8_and7F (b : UInt8) : (b &&& 0x7F).toNat = b.toNat % 128 :=
  forall_u8 (p := fun b => (b &&& 0x7F).toNat = b.toNat % 128) (by decide +kernel) b

theorem u8_and0F (b : UInt8) : (b &&& 0x0F).toNat = b.toNat % 16 :=
  forall_u8 (p := fun b => (b &&& 0x0F).toNat = b.toNat % 16) (by decide +kernel) b

theorem u8_and80 (b : UInt8) : (b &&& 0x80 = 0x80) ↔ 128 ≤ b.toNat :=
  forall_u8 (p := fun b => (b &&& 0x80 = 0x80) ↔ 128 ≤ b.toNat) (by decide +kernel) b

theorem u8_xor_xor (a b : UInt8) : (a ^^^ b) ^^^ b = a := by
  rw [UInt8.xor_assoc, UInt8.xor_self, UInt8.xor_zero]

theorem flag_fin (b : UInt8) : flagContains (fromBitsTruncate b) FIN = decide (128 ≤ b.toNat) :=
  forall_u8 (p := fun b => flagContains (fromBitsTruncate b) FIN = decide (128 ≤ b.toNat))
    (by decide +kernel) b

theorem flag_rsv1 (b : UInt8) :
    flagContains (fromBitsTruncate b) RSV1 = decide (b.toNat / 64 % 2 = 1) :=
  forall_u8 (p := fun b => flagContains (fromBitsTruncate b) RSV1 = decide (b.toNat / 64 % 2 = 1))
    (by decide +kernel) b

theorem flag_rsv2 (b : UInt8) :
    flagContains (fromBitsTruncate b) RSV2 = decide (b.toNat / 32 % 2 = 1) :=
  forall_u8 (p := fun b => flagContains (fromBitsTruncate b) RSV2 = decide (b.toNat / 32 % 2 = 1))
    (by decide +kernel) b

theorem flag_rsv3 (b : UInt8) :
    flagContains (fromBitsTruncate b) RSV3 = decide (b.toNat / 16 % 2 = 1) :=
  forall_u8 (p := fun b => flagContains (fromBitsTruncate b) RSV3 = decide (b.toNat / 16 % 2 = 1))
    (by decide +kernel) b

/-- The first header byte as written, as a number. -/
theorem byte0_toNat (fin r1 r2 r3 : Bool) (op : UInt8) (h : op.toNat < 16) :
    (((if fin then FIN else 0) ||| (if r1 then RSV1 else 0) |||
      (if r2 then RSV2 else 0) ||| (if r3 then RSV3 else 0)) ||| op).toNat =
    128 * Spec.bit fin + 64 * Spec.bit r1 + 32 * Spec.bit r2 + 16 * Spec.bit r3 + op.toNat := by
  revert fin r1 r2 r3 h
  exact forall_u8 (p := fun op => ∀ fin r1 r2 r3 : Bool, op.toNat < 16 →
    (((if fin then FIN else 0) ||| (if r1 then RSV1 else 0) |||
      (if r2 then RSV2 else 0) ||| (if r3 then RSV3 else 0)) ||| op).toNat =
    128 * Spec.bit fin + 64 * Spec.bit r1 + 32 * Spec.bit r2 + 16 * Spec.bit r3 + op.toNat)
    (by decide +kernel) op

/-- The second header byte as written, as a number. -/
theorem byte1_toNat (m : Bool) (l : UInt8) (h : l.toNat < 128) :
    ((if m then 0x80 else 0x00) ||| l).toNat = 128 * Spec.bit m + l.toNat := by
  revert m h
  exact forall_u8 (p := fun l => ∀ m : Bool, l.toNat < 128 →
    ((if m then (0x80 : UInt8) else 0x00) ||| l).toNat = 128 * Spec.bit m + l.toNat)
    (by decide +kernel) l

theorem opcode_new_toU8 (o : Opcode) : Opcode.new o.toU8 = some o := by
  cases o <;> rfl

theorem opcode_toU8_lt (o : Opcode) : o.toU8.toNat < 16 := by
  cases o <;> decide

theorem opcode_new_some {n : UInt8} {o : Opcode} (h : Opcode.new n = some o) : o.toU8 = n := by
  refine forall_u8 (p := fun n => ∀ o, Opcode.new n = some o → o.toU8 = n) (fun n => ?_) n o h
  skip; exact (by
    have : ∀ n : Fin 256, (match Opcode.new (UInt8.ofNat n.val) with
      | some o => decide (o.toU8 = UInt8.ofNat n.val) | none => true) = true := by decide +kernel
    intro o ho
    have := this n
    rw [ho] at this
    simpa using this)

theorem opcode_new_isSome (n : UInt8) : (Opcode.new n).isSome = decide (n.toNat < 16) :=
  forall_u8 (p := fun n => (Opcode.new n).isSome = decide (n.toNat < 16)) (by decide +kernel) n

theorem u8_le_iff (a b : UInt8) : a ≤ b ↔ a.toNat ≤ b.toNat := UInt8.le_iff_toNat_le
theorem u8_lt_iff (a b : UInt8) : a < b ↔ a.toNat < b.toNat := UInt8.lt_iff_toNat_lt

/-! Big-endian numbers. -/

theorem be_append_single (bs : Bytes) (b : UInt8) : Spec.be (bs ++ [b]) = Spec.be bs * 256 + b.toNat := by
  induction bs with
  | nil => simp [Spec.be]
  | cons x xs ih =>
    simp only [List.cons_append, Spec.be, ih, List.length_append, List.length_singleton, Nat.pow_succ]
    rw [Nat.add_mul, ← Nat.mul_assoc]; omega

theorem foldl_be (bs : Bytes) (a : Nat) :
    bs.foldl (fun a b => a * 256 + b.toNat) a = a * 256 ^ bs.length + Spec.be bs := by
  induction bs generalizing a with
  | nil => simp [Spec.be]
  | cons x xs ih =>
    simp only [List.foldl_cons, ih, Spec.be, List.length_cons, Nat.pow_succ, Nat.add_mul]
    rw [Nat.mul_assoc, Nat.mul_comm 256]; omega

theorem beNat_eq (bs : Bytes) : beNat bs = Spec.be bs := by
  unfold beNat; rw [foldl_be]; simp

theorem be_lt (bs : Bytes) : Spec.be bs < 256 ^ bs.length := by
  induction bs with
  | nil => simp [Spec.be]
  | cons x xs ih =>
    simp only [Spec.be, List.length_cons, Nat.pow_succ]
    have := x.toNat_lt
    have h : x.toNat * 256 ^ xs.length ≤ 255 * 256 ^ xs.length := Nat.mul_le_mul_right _ (by omega)
    omega

theorem beBytes_length (n v : Nat) : (beBytes n v).length = n := by
  induction n with
  | zero => rfl
  | succ n ih => simp [beBytes, ih]

theorem be_beBytes (n v : Nat) : Spec.be (beBytes n v) = v % 256 ^ n := by
  induction n with
  | zero => simp [beBytes, Spec.be, Nat.mod_one]
  | succ n ih =>
    simp only [beBytes, Spec.be, beBytes_length, ih]
    rw [UInt8.toNat_ofNat']
    rw [Nat.pow_succ (m := n), Nat.mod_mul (x := v), show (2 : Nat) ^ 8 = 256 from rfl, Nat.mul_comm]
    omega

theorem be_beBytes_of_lt {n v : Nat} (h : v < 256 ^ n) : Spec.be (beBytes n v) = v := by
  rw [be_beBytes, Nat.mod_eq_of_lt h]

theorem be_inj {a b : Bytes} (hl : a.length = b.length) (h : Spec.be a = Spec.be b) : a = b := by
  induction a generalizing b with
  | nil => cases b with
    | nil => rfl
    | cons => simp at hl
  | cons x xs ih =>
    cases b with
    | nil => simp at hl
    | cons y ys =>
      simp only [List.length_cons, Nat.add_right_cancel_iff] at hl
      simp only [Spec.be, hl] at h
      have h1 := be_lt xs
      have h2 := be_lt ys
      rw [hl] at h1
      have hxy : x.toNat = y.toNat := by
        have e1 : (x.toNat * 256 ^ ys.length + Spec.be xs) / 256 ^ ys.length = x.toNat := by
          rw [Nat.mul_comm, Nat.mul_add_div (Nat.pow_pos (by decide)), Nat.div_eq_of_lt h1]; omega
        have e2 : (y.toNat * 256 ^ ys.length + Spec.be ys) / 256 ^ ys.length = y.toNat := by
          rw [Nat.mul_comm, Nat.mul_add_div (Nat.pow_pos (by decide)), Nat.div_eq_of_lt h2]; omega
        rw [h] at e1; omega
      rw [hxy] at h
      rw [u8_eq_of_toNat hxy, ih hl (by omega)]

theorem beBytes_be {bs : Bytes} {n : Nat} (h : bs.length = n) : beBytes n (Spec.be bs) = bs := by
  apply be_inj
  · rw [beBytes_length, h]
  · exact be_beBytes_of_lt (h ▸ be_lt bs)

end WS
