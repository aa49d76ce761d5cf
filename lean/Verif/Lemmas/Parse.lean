import Verif.Lemmas.IO
import Verif.Lemmas.Mask
/-! The frame parser on byte strings that both the blocking reader and the async decoder
follow, and its relation to the RFC layout. -/

namespace WS

def Ps.u8 : Ps UInt8 := fun bs =>
  match bs with
  | [] => .more
  | b :: rest => .ok b rest

def parseLen (b1 : UInt8) : Ps Nat :=
  let l7 := b1 &&& 0x7F
  if l7 ≤ 125 then pure l7.toNat
  else if l7 = 126 then do
    let len ← (do let b ← Ps.take 2; pure (beNat b))
    if len ≤ 125 then Ps.fail (.dataFrame "Invalid data frame length") else pure len
  else do
    let len ← (do let b ← Ps.take 8; pure (beNat b))
    if len ≤ 65535 then Ps.fail (.dataFrame "Invalid data frame length") else pure len

def parseMask (b1 : UInt8) : Ps (Option Key4) :=
  if b1 &&& 0x80 = 0x80 then do
    let a ← Ps.u8
    let b ← Ps.u8
    let c ← Ps.u8
    let d ← Ps.u8
    pure (some ⟨a, b, c, d⟩)
  else pure none

def parseHeader : Ps Header := do
  let byte0 ← Ps.u8
  let byte1 ← Ps.u8
  let len ← parseLen byte1
  if (byte0 &&& 0x0F) ≥ 8 ∧ len ≥ 126 then
    Ps.fail (.dataFrame "Control frame length too long")
  else if (byte0 &&& 0x0F) ≥ 8 ∧ flagContains (fromBitsTruncate byte0) FIN = false then
    Ps.fail (.protocol "Illegal fragmented control frame")
  else do
    let mask ← parseMask byte1
    pure { flags := fromBitsTruncate byte0, opcode := byte0 &&& 0x0F, mask := mask, len := len }

theorem refines_u8 : Refines Rd.u8 Ps.u8 := by
  have h : Refines Rd.u8 (do let b ← Ps.take 1; pure (b.headD 0)) :=
    refines_bind (refines_exact 1) (fun b => refines_pure _)
  have e : (do let b ← Ps.take 1; pure (b.headD 0)) = Ps.u8 := by
    funext bs
    show Ps.bind (Ps.take 1) _ bs = _
    cases bs <;> simp [Ps.bind, Ps.take, Ps.u8] <;> rfl
  exact e ▸ h

theorem refines_header : Refines readHeader parseHeader := by
  unfold readHeader parseHeader readLen parseLen readMask parseMask
  refine refines_bind refines_u8 fun byte0 => ?_
  refine refines_bind refines_u8 fun byte1 => ?_
  refine refines_bind ?_ fun len => ?_
  · refine refines_ite _ (refines_pure _) ?_
    refine refines_ite _ ?_ ?_
    · refine refines_bind (refines_bind (refines_exact 2) fun b => refines_pure _) fun len => ?_
      exact refines_ite _ (refines_fail _) (refines_pure _)
    · refine refines_bind (refines_bind (refines_exact 8) fun b => refines_pure _) fun len => ?_
      exact refines_ite _ (refines_fail _) (refines_pure _)
  · refine refines_ite _ (refines_fail _) ?_
    refine refines_ite _ (refines_fail _) ?_
    refine refines_bind ?_ fun mask => refines_pure _
    refine refines_ite _ ?_ (refines_pure _)
    exact refines_bind refines_u8 fun _ => refines_bind refines_u8 fun _ =>
      refines_bind refines_u8 fun _ => refines_bind refines_u8 fun _ => refines_pure _

/-! ### Step lemmas for the parser monad -/

theorem Ps.bind_def {α β} (m : Ps α) (f : α → Ps β) (bs : Bytes) :
    (m >>= f) bs = match m bs with
      | .ok a rest => f a rest
      | .err e rest => .err e rest
      | .more => .more := rfl

@[simp] theorem Ps.pure_apply {α} (a : α) (bs : Bytes) : (pure a : Ps α) bs = .ok a bs := rfl
@[simp] theorem Ps.fail_apply {α} (e : WsErr) (bs : Bytes) : (Ps.fail e : Ps α) bs = .err e bs := rfl
@[simp] theorem Ps.u8_cons (b : UInt8) (bs : Bytes) : Ps.u8 (b :: bs) = .ok b bs := rfl
@[simp] theorem Ps.u8_nil : Ps.u8 [] = .more := rfl

theorem Ps.take_append {n : Nat} {a bs : Bytes} (h : a.length = n) : Ps.take n (a ++ bs) = .ok a bs := by
  subst h; simp [Ps.take]

theorem Ps.bind_ok_iff {α β} {m : Ps α} {f : α → Ps β} {bs : Bytes} {b : β} {rest : Bytes} :
    (m >>= f) bs = .ok b rest ↔ ∃ a mid, m bs = .ok a mid ∧ f a mid = .ok b rest := by
  rw [Ps.bind_def]
  cases h : m bs with
  | ok a mid => exact ⟨fun h => ⟨a, mid, rfl, h⟩, by rintro ⟨_, _, h1, h2⟩; cases h1; exact h2⟩
  | err => simp
  | more => simp

theorem Ps.take_ok_iff {n : Nat} {bs a rest : Bytes} :
    Ps.take n bs = .ok a rest ↔ a.length = n ∧ bs = a ++ rest := by
  unfold Ps.take
  constructor
  · intro h
    split at h
    · simp only [PRes.ok.injEq] at h
      obtain ⟨rfl, rfl⟩ := h
      refine ⟨by simp; omega, (List.take_append_drop n bs).symm⟩
    · simp at h
  · rintro ⟨rfl, rfl⟩; simp

theorem Ps.u8_ok_iff {bs : Bytes} {b : UInt8} {rest : Bytes} :
    Ps.u8 bs = .ok b rest ↔ bs = b :: rest := by
  cases bs <;> simp [Ps.u8]

/-- `LenOk n l7 ext`: extended length as accepted by the reader. -/
inductive LenOk (n : Nat) : Nat → Bytes → Prop
  | short (h : n ≤ 125) : LenOk n n []
  | medium (ext : Bytes) (h₁ : 126 ≤ n) (h₂ : n ≤ 65535) (hl : ext.length = 2)
      (hv : Spec.be ext = n) : LenOk n 126 ext
  | long (ext : Bytes) (h₁ : 65536 ≤ n) (hl : ext.length = 8) (hv : Spec.be ext = n) :
      LenOk n 127 ext

theorem LenOk.lt {n l7 : Nat} {ext : Bytes} (h : LenOk n l7 ext) : l7 < 128 := by
  cases h <;> omega

theorem parseLen_ok_iff {b1 : UInt8} {bs rest : Bytes} {n : Nat} :
    parseLen b1 bs = .ok n rest ↔ ∃ ext, LenOk n (b1.toNat % 128) ext ∧ bs = ext ++ rest := by
  unfold parseLen
  simp only [u8_le_iff, u8_and7F]
  have h125 : (125 : UInt8).toNat = 125 := rfl
  have hb := u8_and7F b1
  constructor
  · intro h
    split at h
    · next hle =>
      simp only [Ps.pure_apply, PRes.ok.injEq] at h
      obtain ⟨rfl, rfl⟩ := h
      refine ⟨[], ?_, by simp⟩
      rw [h125] at hle
      exact .short hle
    · next hle =>
      rw [h125] at hle
      split at h
      · next h126 =>
        have e : b1.toNat % 128 = 126 := by rw [← hb, h126]; rfl
        rw [e]
        simp only [Ps.bind_ok_iff, Ps.take_ok_iff, Ps.pure_apply, PRes.ok.injEq] at h
        obtain ⟨len, mid, ⟨ext, mid', ⟨hl, rfl⟩, rfl, rfl⟩, h⟩ := h
        split at h
        · simp at h
        · simp only [Ps.pure_apply, PRes.ok.injEq] at h
          obtain ⟨rfl, rfl⟩ := h
          have := be_lt ext
          rw [hl] at this
          refine ⟨ext, .medium ext ?_ ?_ hl (beNat_eq ext).symm, rfl⟩
          · omega
          · rw [beNat_eq]; omega
      · next h126 =>
        have e : b1.toNat % 128 = 127 := by
          have : b1.toNat % 128 ≠ 126 := by
            intro hc; apply h126; apply u8_eq_of_toNat; rw [hb, hc]; rfl
          omega
        rw [e]
        simp only [Ps.bind_ok_iff, Ps.take_ok_iff, Ps.pure_apply, PRes.ok.injEq] at h
        obtain ⟨len, mid, ⟨ext, mid', ⟨hl, rfl⟩, rfl, rfl⟩, h⟩ := h
        split at h
        · simp at h
        · simp only [Ps.pure_apply, PRes.ok.injEq] at h
          obtain ⟨rfl, rfl⟩ := h
          exact ⟨ext, .long ext (by omega) hl (beNat_eq ext).symm, rfl⟩
  · rintro ⟨ext, hl, rfl⟩
    generalize hm : b1.toNat % 128 = m at hl
    cases hl with
    | short h => simp [h125, h]
    | medium ext h₁ h₂ hl hv =>
      have h126 : b1 &&& 127 = 126 := u8_eq_of_toNat (by rw [hb, hm]; rfl)
      rw [if_neg (by rw [h125]; omega), if_pos h126]
      simp only [Ps.bind_def, Ps.take_append hl, Ps.pure_apply, beNat_eq, hv]
      rw [if_neg (by omega)]; rfl
    | long ext h₁ hl hv =>
      have h126 : b1 &&& 127 ≠ 126 := by intro h; rw [h] at hb; rw [hm] at hb; exact absurd hb (by decide)
      rw [if_neg (by rw [h125]; omega), if_neg h126]
      simp only [Ps.bind_def, Ps.take_append hl, Ps.pure_apply, beNat_eq, hv]
      rw [if_neg (by omega)]; rfl

theorem parseMask_ok_iff {b1 : UInt8} {bs rest : Bytes} {m : Option Key4} :
    parseMask b1 bs = .ok m rest ↔
      m.isSome = decide (128 ≤ b1.toNat) ∧ bs = (m.map Key4.toBytes).getD [] ++ rest := by
  unfold parseMask
  constructor
  · intro h
    split at h
    · next h80 =>
      rw [u8_and80] at h80
      simp only [Ps.bind_ok_iff, Ps.u8_ok_iff, Ps.pure_apply, PRes.ok.injEq] at h
      obtain ⟨a, _, rfl, b, _, rfl, c, _, rfl, d, _, rfl, rfl, rfl⟩ := h
      simp [h80, Key4.toBytes]
    · next h80 =>
      rw [u8_and80] at h80
      simp only [Ps.pure_apply, PRes.ok.injEq] at h
      obtain ⟨rfl, rfl⟩ := h
      simp [h80]
  · rintro ⟨hm, rfl⟩
    cases m with
    | none =>
      simp at hm
      rw [if_neg (by rw [u8_and80]; omega)]; simp
    | some k =>
      simp at hm
      rw [if_pos (by rw [u8_and80]; omega)]
      simp [Ps.bind_def, Key4.toBytes]

theorem parseHeader_ok_iff {bs rest : Bytes} {h : Header} :
    parseHeader bs = .ok h rest ↔
      ∃ (b0 b1 : UInt8) (ext : Bytes),
        bs = [b0, b1] ++ ext ++ (h.mask.map Key4.toBytes).getD [] ++ rest ∧
        LenOk h.len (b1.toNat % 128) ext ∧
        h.mask.isSome = decide (128 ≤ b1.toNat) ∧
        h.flags = fromBitsTruncate b0 ∧ h.opcode = b0 &&& 0x0F ∧
        (8 ≤ h.opcode.toNat → h.len ≤ 125 ∧ 128 ≤ b0.toNat) := by
  have h8 : (8 : UInt8).toNat = 8 := rfl
  unfold parseHeader
  simp only [Ps.bind_ok_iff, Ps.u8_ok_iff, parseLen_ok_iff]
  constructor
  · rintro ⟨b0, _, rfl, b1, _, rfl, len, mid, ⟨ext, hl, rfl⟩, h2⟩
    split at h2
    · simp at h2
    · next hc1 =>
      split at h2
      · simp at h2
      · next hc2 =>
        simp only [Ps.bind_ok_iff, parseMask_ok_iff, Ps.pure_apply, PRes.ok.injEq] at h2
        obtain ⟨m, _, ⟨hm, rfl⟩, rfl, rfl⟩ := h2
        refine ⟨b0, b1, ext, by simp, hl, hm, rfl, rfl, ?_⟩
        intro hop
        simp only [ge_iff_le, u8_le_iff, h8, not_and, flag_fin, decide_eq_false_iff_not] at hc1 hc2
        have := hc1 hop; have := hc2 hop
        simp only at *
        omega
  · rintro ⟨b0, b1, ext, rfl, hl, hm, hf, ho, hc⟩
    refine ⟨b0, b1 :: (ext ++ ((h.mask.map Key4.toBytes).getD [] ++ rest)), by simp, b1, _, rfl, h.len, _, ⟨ext, hl, rfl⟩, ?_⟩
    simp only [ge_iff_le, u8_le_iff, h8, flag_fin, decide_eq_false_iff_not]
    rw [ho] at hc
    rw [if_neg (by rintro ⟨h1, h2⟩; have := hc h1; omega), if_neg (by rintro ⟨h1, h2⟩; have := hc h1; omega)]
    simp only [Ps.bind_ok_iff, parseMask_ok_iff, Ps.pure_apply, PRes.ok.injEq]
    refine ⟨h.mask, rest, ⟨hm, rfl⟩, ?_, rfl⟩
    cases h; simp_all

end WS
