import Verif.Model.Base64
import Verif.Spec.Base64
import Verif.Lemmas.U8
/-! Base64 encoding against RFC 4648, and the strict decoder. -/

namespace WS

theorem b64Char_spec (n : Nat) (h : n < 64) : Char.ofNat (b64Char n).toNat = Spec.alphabet.getD n 'A' := by
  have : ∀ i : Fin 64, Char.ofNat (b64Char i.1).toNat = Spec.alphabet.getD i.1 'A' := by decide +kernel
  exact this ⟨n, h⟩

theorem b64Val_b64Char (n : Nat) (h : n < 64) : b64Val (b64Char n) = some n := by
  have : ∀ i : Fin 64, b64Val (b64Char i.1) = some i.1 := by decide +kernel
  exact this ⟨n, h⟩

theorem b64Char_ne_pad (n : Nat) (h : n < 64) : b64Char n ≠ 61 := by
  have : ∀ i : Fin 64, b64Char i.1 ≠ 61 := by decide +kernel
  exact this ⟨n, h⟩

theorem b64Val_some {c : UInt8} {n : Nat} (h : b64Val c = some n) : n < 64 ∧ b64Char n = c := by
  have key : ∀ i : Fin 256, ∀ j : Fin 64, b64Val (UInt8.ofNat i.1) = some j.1 → b64Char j.1 = UInt8.ofNat i.1 := by
    decide +kernel
  have lt : ∀ i : Fin 256, (b64Val (UInt8.ofNat i.1)).getD 0 < 64 := by decide +kernel
  have h64 : n < 64 := by
    have := lt ⟨c.toNat, c.toNat_lt⟩
    simpa [UInt8.ofNat_toNat, h] using this
  refine ⟨h64, ?_⟩
  have := key ⟨c.toNat, c.toNat_lt⟩ ⟨n, h64⟩
  simp only [UInt8.ofNat_toNat] at this
  exact this h

/-- The text of a byte string of ASCII characters. -/
def chars (b : Bytes) : List Char := b.map fun c => Char.ofNat c.toNat

theorem b64Encode_spec (b : Bytes) : chars (b64Encode b) = Spec.base64 (b.map UInt8.toNat) := by
  fun_induction b64Encode b with
  | case1 => rfl
  | case2 a =>
    have ha : a.toNat < 256 := a.toNat_lt
    simp only [chars, List.map_cons, List.map_nil, Spec.base64, Spec.digits, List.take_succ_cons, List.take_zero,
      List.cons_append, List.nil_append]
    rw [b64Char_spec _ (by omega), b64Char_spec _ (by omega)]
    rw [show a.toNat * 65536 / 64 ^ 3 % 64 = a.toNat / 4 by simp only [Nat.reducePow]; omega,
      show a.toNat * 65536 / 64 ^ 2 % 64 = a.toNat % 4 * 16 by simp only [Nat.reducePow]; omega]
    rfl
  | case3 a b =>
    have ha : a.toNat < 256 := a.toNat_lt
    have hb : b.toNat < 256 := b.toNat_lt
    simp only [chars, List.map_cons, List.map_nil, Spec.base64, Spec.digits, List.take_succ_cons, List.take_zero,
      List.cons_append, List.nil_append]
    rw [b64Char_spec _ (by omega), b64Char_spec _ (by omega), b64Char_spec _ (by omega)]
    rw [show (a.toNat * 65536 + b.toNat * 256) / 64 ^ 3 % 64 = a.toNat / 4 by simp only [Nat.reducePow]; omega,
      show (a.toNat * 65536 + b.toNat * 256) / 64 ^ 2 % 64 = a.toNat % 4 * 16 + b.toNat / 16 by
        simp only [Nat.reducePow]; omega,
      show (a.toNat * 65536 + b.toNat * 256) / 64 % 64 = b.toNat % 16 * 4 by omega]
    rfl
  | case4 a b c rest ih =>
    have ha : a.toNat < 256 := a.toNat_lt
    have hb : b.toNat < 256 := b.toNat_lt
    have hc : c.toNat < 256 := c.toNat_lt
    simp only [chars] at ih
    simp only [chars, List.map_cons, List.map_nil, Spec.base64, Spec.digits, List.cons_append, List.nil_append]
    rw [ih, b64Char_spec _ (by omega), b64Char_spec _ (by omega), b64Char_spec _ (by omega), b64Char_spec _ (by omega)]
    rw [show (a.toNat * 65536 + b.toNat * 256 + c.toNat) / 64 ^ 3 % 64 = a.toNat / 4 by simp only [Nat.reducePow]; omega,
      show (a.toNat * 65536 + b.toNat * 256 + c.toNat) / 64 ^ 2 % 64 = a.toNat % 4 * 16 + b.toNat / 16 by
        simp only [Nat.reducePow]; omega,
      show (a.toNat * 65536 + b.toNat * 256 + c.toNat) / 64 % 64 = b.toNat % 16 * 4 + c.toNat / 64 by omega,
      show (a.toNat * 65536 + b.toNat * 256 + c.toNat) % 64 = c.toNat % 64 by omega]

theorem b64Encode_length (b : Bytes) : (b64Encode b).length = (b.length + 2) / 3 * 4 := by
  fun_induction b64Encode b with
  | case1 => rfl
  | case2 => simp
  | case3 => simp
  | case4 a b c rest ih => simp only [List.length_cons, ih]; omega

theorem ofNat_of_toNat {n : Nat} {a : UInt8} (h : n = a.toNat) : UInt8.ofNat n = a := by
  rw [h, UInt8.ofNat_toNat]

theorem strict_encode (b : Bytes) : b64Strict (b64Encode b) = some b := by
  fun_induction b64Encode b with
  | case1 => rfl
  | case2 a =>
    have ha : a.toNat < 256 := a.toNat_lt
    rw [b64Strict]
    simp only [b64Val_b64Char _ (show a.toNat / 4 < 64 by omega), b64Val_b64Char _ (show a.toNat % 4 * 16 < 64 by omega),
      Option.bind_eq_bind, Option.bind_some]
    rw [if_pos (by omega), ofNat_of_toNat (a := a) (by omega)]
  | case3 a b =>
    have ha : a.toNat < 256 := a.toNat_lt
    have hb : b.toNat < 256 := b.toNat_lt
    rw [b64Strict]
    · simp only [b64Val_b64Char _ (show a.toNat / 4 < 64 by omega),
        b64Val_b64Char _ (show a.toNat % 4 * 16 + b.toNat / 16 < 64 by omega),
        b64Val_b64Char _ (show b.toNat % 16 * 4 < 64 by omega), Option.bind_eq_bind, Option.bind_some]
      rw [if_pos (by omega), ofNat_of_toNat (a := a) (by omega), ofNat_of_toNat (a := b) (by omega)]
    · exact b64Char_ne_pad _ (by omega)
  | case4 a b c rest ih =>
    have ha : a.toNat < 256 := a.toNat_lt
    have hb : b.toNat < 256 := b.toNat_lt
    have hc : c.toNat < 256 := c.toNat_lt
    have hz := b64Char_ne_pad (c.toNat % 64) (by omega)
    rw [b64Strict]
    · simp only [b64Val_b64Char _ (show a.toNat / 4 < 64 by omega),
        b64Val_b64Char _ (show a.toNat % 4 * 16 + b.toNat / 16 < 64 by omega),
        b64Val_b64Char _ (show b.toNat % 16 * 4 + c.toNat / 64 < 64 by omega),
        b64Val_b64Char _ (show c.toNat % 64 < 64 by omega), ih, Option.bind_eq_bind, Option.bind_some]
      rw [ofNat_of_toNat (a := a) (by omega), ofNat_of_toNat (a := b) (by omega), ofNat_of_toNat (a := c) (by omega)]
    · intro _ h; exact absurd h hz
    · intro h; exact absurd h hz

theorem strict_some {t b : Bytes} (h : b64Strict t = some b) : t = b64Encode b := by
  fun_induction b64Strict t generalizing b with
  | case1 => simp only [Option.some.injEq] at h; subst h; rfl
  | case2 w x =>
    simp only [Option.bind_eq_bind, Option.bind_eq_some_iff] at h
    obtain ⟨p, hp, q, hq, h⟩ := h
    obtain ⟨hp1, hp2⟩ := b64Val_some hp
    obtain ⟨hq1, hq2⟩ := b64Val_some hq
    split at h
    · simp only [Option.some.injEq] at h
      subst h
      have e : (UInt8.ofNat (p * 4 + q / 16)).toNat = p * 4 + q / 16 := by rw [UInt8.toNat_ofNat']; omega
      simp only [b64Encode, e]
      rw [show (p * 4 + q / 16) / 4 = p by omega, show (p * 4 + q / 16) % 4 * 16 = q by omega, hp2, hq2]
    · cases h
  | case3 w x y _ =>
    simp only [Option.bind_eq_bind, Option.bind_eq_some_iff] at h
    obtain ⟨p, hp, q, hq, r, hr, h⟩ := h
    obtain ⟨hp1, hp2⟩ := b64Val_some hp
    obtain ⟨hq1, hq2⟩ := b64Val_some hq
    obtain ⟨hr1, hr2⟩ := b64Val_some hr
    split at h
    · simp only [Option.some.injEq] at h
      subst h
      have e : (UInt8.ofNat (p * 4 + q / 16)).toNat = p * 4 + q / 16 := by rw [UInt8.toNat_ofNat']; omega
      have e' : (UInt8.ofNat (q % 16 * 16 + r / 4)).toNat = q % 16 * 16 + r / 4 := by rw [UInt8.toNat_ofNat']; omega
      simp only [b64Encode, e, e']
      rw [show (p * 4 + q / 16) / 4 = p by omega,
        show (p * 4 + q / 16) % 4 * 16 + (q % 16 * 16 + r / 4) / 16 = q by omega,
        show (q % 16 * 16 + r / 4) % 16 * 4 = r by omega, hp2, hq2, hr2]
    · cases h
  | case4 w x y z rest _ _ ih =>
    simp only [Option.bind_eq_bind, Option.bind_eq_some_iff] at h
    obtain ⟨p, hp, q, hq, r, hr, s, hs, tl, ht, h⟩ := h
    obtain ⟨hp1, hp2⟩ := b64Val_some hp
    obtain ⟨hq1, hq2⟩ := b64Val_some hq
    obtain ⟨hr1, hr2⟩ := b64Val_some hr
    obtain ⟨hs1, hs2⟩ := b64Val_some hs
    simp only [Option.some.injEq] at h
    subst h
    have e : (UInt8.ofNat (p * 4 + q / 16)).toNat = p * 4 + q / 16 := by rw [UInt8.toNat_ofNat']; omega
    have e' : (UInt8.ofNat (q % 16 * 16 + r / 4)).toNat = q % 16 * 16 + r / 4 := by rw [UInt8.toNat_ofNat']; omega
    have e'' : (UInt8.ofNat (r % 4 * 64 + s)).toNat = r % 4 * 64 + s := by rw [UInt8.toNat_ofNat']; omega
    simp only [b64Encode, e, e', e'']
    rw [show (p * 4 + q / 16) / 4 = p by omega,
      show (p * 4 + q / 16) % 4 * 16 + (q % 16 * 16 + r / 4) / 16 = q by omega,
      show (q % 16 * 16 + r / 4) % 16 * 4 + (r % 4 * 64 + s) / 64 = r by omega,
      show (r % 4 * 64 + s) % 64 = s by omega, hp2, hq2, hr2, hs2, ← ih ht]
  | case5 => cases h

/-- The decoder of RFC 4648 is one admissible `base64::decode`. -/
@[reducible] def B64.strict : B64 := ⟨b64Strict, strict_encode⟩

theorem b64Encode_inj {a b : Bytes} (h : b64Encode a = b64Encode b) : a = b := by
  have := strict_encode a
  rw [h, strict_encode] at this
  exact (Option.some.inj this).symm

/-- Encoded text consists of alphabet characters and `=`. -/
theorem b64Encode_mem {b : Bytes} {c : UInt8} (h : c ∈ b64Encode b) : c = 61 ∨ ∃ n, n < 64 ∧ c = b64Char n := by
  fun_induction b64Encode b with
  | case1 => cases h
  | case2 a =>
    have ha : a.toNat < 256 := a.toNat_lt
    simp only [List.mem_cons, List.not_mem_nil, or_false] at h
    rcases h with h | h | h | h
    · exact .inr ⟨_, by omega, h⟩
    · exact .inr ⟨_, by omega, h⟩
    · exact .inl h
    · exact .inl h
  | case3 a b =>
    have ha : a.toNat < 256 := a.toNat_lt
    have hb : b.toNat < 256 := b.toNat_lt
    simp only [List.mem_cons, List.not_mem_nil, or_false] at h
    rcases h with h | h | h | h
    · exact .inr ⟨_, by omega, h⟩
    · exact .inr ⟨_, by omega, h⟩
    · exact .inr ⟨_, by omega, h⟩
    · exact .inl h
  | case4 a b c' rest ih =>
    have ha : a.toNat < 256 := a.toNat_lt
    have hb : b.toNat < 256 := b.toNat_lt
    have hc : c'.toNat < 256 := c'.toNat_lt
    simp only [List.mem_cons] at h
    rcases h with h | h | h | h | h
    · exact .inr ⟨_, by omega, h⟩
    · exact .inr ⟨_, by omega, h⟩
    · exact .inr ⟨_, by omega, h⟩
    · exact .inr ⟨_, by omega, h⟩
    · exact ih h

/-- Encoded text is visible ASCII without separators. -/
theorem b64Encode_visible {b : Bytes} {c : UInt8} (h : c ∈ b64Encode b) : 43 ≤ c ∧ c ≤ 122 ∧ c ≠ 44 := by
  rcases b64Encode_mem h with rfl | ⟨n, hn, rfl⟩
  · decide
  · have : ∀ i : Fin 64, 43 ≤ b64Char i.1 ∧ b64Char i.1 ≤ 122 ∧ b64Char i.1 ≠ 44 := by decide +kernel
    exact this ⟨n, hn⟩

theorem ofNat_toNat_char (a : UInt8) : (Char.ofNat a.toNat).toNat = a.toNat := by
  have key : ∀ i : Fin 256, (Char.ofNat i.1).toNat = i.1 := by decide +kernel
  exact key ⟨a.toNat, a.toNat_lt⟩

theorem chars_toNat (l : Bytes) : (chars l).map Char.toNat = l.map UInt8.toNat := by
  simp only [chars, List.map_map]
  exact List.map_congr_left fun a _ => ofNat_toNat_char a

theorem chars_inj {x y : Bytes} (h : chars x = chars y) : x = y := by
  have h1 : x.map UInt8.toNat = y.map UInt8.toNat := by rw [← chars_toNat, ← chars_toNat, h]
  exact (List.map_inj_right fun a b => UInt8.toNat_inj.mp).mp h1

end WS
