import Verif.Model.Utf8
import Verif.Spec.Utf8
import Verif.Lemmas.U8
/-! The UTF-8 validator against the specification. -/

namespace WS
open Spec (IsScalar utf8Char EncodesText IsUtf8)

theorem isCont_iff (b : UInt8) : isCont b = true ↔ 128 ≤ b.toNat ∧ b.toNat ≤ 191 := by
  have h1 : (0x80 : UInt8).toNat = 128 := rfl
  have h2 : (0xBF : UInt8).toNat = 191 := rfl
  simp [isCont, u8_le_iff, h1, h2]

theorem u8_beq_iff (a b : UInt8) : (a == b) = true ↔ a.toNat = b.toNat := by
  rw [beq_iff_eq]; exact ⟨fun h => by rw [h], u8_eq_of_toNat⟩

theorem second3_iff (a b : UInt8) : second3 a b = true ↔
    (a.toNat = 224 ∧ 160 ≤ b.toNat ∧ b.toNat ≤ 191) ∨
    (225 ≤ a.toNat ∧ a.toNat ≤ 236 ∧ 128 ≤ b.toNat ∧ b.toNat ≤ 191) ∨
    (a.toNat = 237 ∧ 128 ≤ b.toNat ∧ b.toNat ≤ 159) ∨
    (238 ≤ a.toNat ∧ a.toNat ≤ 239 ∧ 128 ≤ b.toNat ∧ b.toNat ≤ 191) := by
  simp only [second3, Bool.or_eq_true, Bool.and_eq_true, decide_eq_true_eq, u8_le_iff, u8_beq_iff]
  show _ ↔ _
  simp only [UInt8.toNat_ofNat]
  omega

theorem second4_iff (a b : UInt8) : second4 a b = true ↔
    (a.toNat = 240 ∧ 144 ≤ b.toNat ∧ b.toNat ≤ 191) ∨
    (241 ≤ a.toNat ∧ a.toNat ≤ 243 ∧ 128 ≤ b.toNat ∧ b.toNat ≤ 191) ∨
    (a.toNat = 244 ∧ 128 ≤ b.toNat ∧ b.toNat ≤ 143) := by
  simp only [second4, Bool.or_eq_true, Bool.and_eq_true, decide_eq_true_eq, u8_le_iff, u8_beq_iff]
  simp only [UInt8.toNat_ofNat]
  omega

theorem charWidth_eq (b : UInt8) : charWidth b =
    if b.toNat < 128 then 1 else if b.toNat < 194 then 0 else if b.toNat < 224 then 2
    else if b.toNat < 240 then 3 else if b.toNat < 245 then 4 else 0 := by
  simp only [charWidth, u8_lt_iff, UInt8.toNat_ofNat]

theorem charWidth_1 (b : UInt8) : charWidth b = 1 ↔ b.toNat < 128 := by
  rw [charWidth_eq]; repeat' split
  all_goals omega
theorem charWidth_2 (b : UInt8) : charWidth b = 2 ↔ 194 ≤ b.toNat ∧ b.toNat < 224 := by
  rw [charWidth_eq]; repeat' split
  all_goals omega
theorem charWidth_3 (b : UInt8) : charWidth b = 3 ↔ 224 ≤ b.toNat ∧ b.toNat < 240 := by
  rw [charWidth_eq]; repeat' split
  all_goals omega
theorem charWidth_4 (b : UInt8) : charWidth b = 4 ↔ 240 ≤ b.toNat ∧ b.toNat < 245 := by
  rw [charWidth_eq]; repeat' split
  all_goals omega

theorem utf8Char_1 {n : Nat} (h : n < 0x80) : utf8Char n = [n] := by simp [utf8Char, h]
theorem utf8Char_2 {n a b : Nat} (h1 : 0x80 ≤ n) (h2 : n < 0x800) (ha : a = 0xC0 + n / 64) (hb : b = 0x80 + n % 64) :
    utf8Char n = [a, b] := by
  unfold utf8Char; rw [if_neg (by omega), if_pos h2, ha, hb]
theorem utf8Char_3 {n a b c : Nat} (h1 : 0x800 ≤ n) (h2 : n < 0x10000) (ha : a = 0xE0 + n / 4096)
    (hb : b = 0x80 + n / 64 % 64) (hc : c = 0x80 + n % 64) : utf8Char n = [a, b, c] := by
  unfold utf8Char; rw [if_neg (by omega), if_neg (by omega), if_pos h2, ha, hb, hc]
theorem utf8Char_4 {n a b c d : Nat} (h1 : 0x10000 ≤ n) (ha : a = 0xF0 + n / 262144)
    (hb : b = 0x80 + n / 4096 % 64) (hc : c = 0x80 + n / 64 % 64) (hd : d = 0x80 + n % 64) :
    utf8Char n = [a, b, c, d] := by
  unfold utf8Char; rw [if_neg (by omega), if_neg (by omega), if_neg (by omega), ha, hb, hc, hd]

/-- What a successful step consumes is one encoded scalar value. -/
theorem utf8Step_sound {a : UInt8} {rest : Bytes} {n : Nat} (h : utf8Step a rest = (n, true)) :
    ∃ c, IsScalar c ∧ ((a :: rest.take (n - 1)).map UInt8.toNat) = utf8Char c ∧ n - 1 ≤ rest.length := by
  unfold utf8Step at h
  simp only [isCont_iff, second3_iff, second4_iff, charWidth_1, charWidth_2, charWidth_3, charWidth_4] at h
  have ha := a.toNat_lt
  split at h
  · next hw =>
    simp only [Prod.mk.injEq, and_true] at h; subst h
    exact ⟨a.toNat, .inl (by omega), by simp [utf8Char_1 hw], by simp⟩
  · next hw1 =>
    split at h
    · next hw2 =>
      split at h
      · next b r =>
        split at h
        · next hb =>
          simp only [Prod.mk.injEq, and_true] at h; subst h
          refine ⟨(a.toNat - 192) * 64 + (b.toNat - 128), .inl (by omega), ?_, by simp⟩
          rw [utf8Char_2 (a := a.toNat) (b := b.toNat) (by omega) (by omega) (by omega) (by omega)]
          simp
        · simp at h
      · simp at h
    · next hw2 =>
      split at h
      · next hw3 =>
        split at h
        · next b r =>
          split at h
          · next hb =>
            split at h
            · next c r' =>
              split at h
              · next hc =>
                simp only [Prod.mk.injEq, and_true] at h; subst h
                refine ⟨(a.toNat - 224) * 4096 + (b.toNat - 128) * 64 + (c.toNat - 128), ?_, ?_, by simp⟩
                · unfold IsScalar; omega
                · rw [utf8Char_3 (a := a.toNat) (b := b.toNat) (c := c.toNat) (by omega) (by omega) (by omega) (by omega) (by omega)]
                  simp
              · simp at h
            · simp at h
          · simp at h
        · simp at h
      · next hw3 =>
        split at h
        · next hw4 =>
          split at h
          · next b r =>
            split at h
            · next hb =>
              split at h
              · next c r' =>
                split at h
                · next hc =>
                  split at h
                  · next d r'' =>
                    split at h
                    · next hd =>
                      simp only [Prod.mk.injEq, and_true] at h; subst h
                      refine ⟨(a.toNat - 240) * 262144 + (b.toNat - 128) * 4096 + (c.toNat - 128) * 64 + (d.toNat - 128), ?_, ?_, by simp⟩
                      · unfold IsScalar; omega
                      · rw [utf8Char_4 (a := a.toNat) (b := b.toNat) (c := c.toNat) (d := d.toNat) (by omega) (by omega) (by omega) (by omega) (by omega)]
                        simp
                    · simp at h
                  · simp at h
                · simp at h
              · simp at h
            · simp at h
          · simp at h
        · simp at h

theorem utf8Step_complete {a : UInt8} {rest : Bytes} {c : Nat} {tail : List Nat} (hc : IsScalar c)
    (h : (a :: rest).map UInt8.toNat = utf8Char c ++ tail) :
    utf8Step a rest = ((utf8Char c).length, true) ∧
    (rest.drop ((utf8Char c).length - 1)).map UInt8.toNat = tail := by
  unfold utf8Step
  simp only [isCont_iff, second3_iff, second4_iff, charWidth_1, charWidth_2, charWidth_3, charWidth_4]
  unfold utf8Char at *
  unfold IsScalar at hc
  split at h
  · next h1 =>
    simp only [List.map_cons, List.cons_append, List.nil_append, List.cons.injEq] at h
    obtain ⟨rfl, rfl⟩ := h
    simp [h1]
  · next h1 =>
    split at h
    · next h2 =>
      match rest, h with
      | b :: r, h =>
        simp only [List.map_cons, List.cons_append, List.nil_append, List.cons.injEq] at h
        obtain ⟨ha, hb, rfl⟩ := h
        rw [if_neg h1, if_pos h2]
        rw [if_neg (by omega), if_pos (by omega)]
        simp only
        rw [if_pos (by omega)]
        simp
      | [], h => simp at h
    · next h2 =>
      split at h
      · next h3 =>
        match rest, h with
        | b :: d :: r, h =>
          simp only [List.map_cons, List.cons_append, List.nil_append, List.cons.injEq] at h
          obtain ⟨ha, hb, hd, rfl⟩ := h
          rw [if_neg h1, if_neg h2, if_pos h3]
          rw [if_neg (by omega), if_neg (by omega), if_pos (by omega)]
          simp only
          rw [if_pos (by omega), if_pos (by omega)]
          simp
        | [b], h => simp at h
        | [], h => simp at h
      · next h3 =>
        match rest, h with
        | b :: d :: e :: r, h =>
          simp only [List.map_cons, List.cons_append, List.nil_append, List.cons.injEq] at h
          obtain ⟨ha, hb, hd, he, rfl⟩ := h
          rw [if_neg h1, if_neg h2, if_neg h3]
          rw [if_neg (by omega), if_neg (by omega), if_neg (by omega), if_pos (by omega)]
          simp only
          rw [if_pos (by omega), if_pos (by omega), if_pos (by omega)]
          simp
        | [b, d], h => simp at h
        | [b], h => simp at h
        | [], h => simp at h

theorem utf8Step_pos (a : UInt8) (rest : Bytes) : 1 ≤ (utf8Step a rest).1 := by
  unfold utf8Step
  repeat' split
  all_goals simp

theorem utf8Valid_iff (bs : Bytes) : utf8Valid bs = true ↔ IsUtf8 bs := by
  fun_induction utf8Valid bs with
  | case1 => exact ⟨fun _ => ⟨[], by simp [EncodesText]⟩, fun _ => rfl⟩
  | case2 a rest st ih =>
    rw [Bool.and_eq_true, ih]
    constructor
    · rintro ⟨h2, cs, hcs, htail⟩
      have hst : utf8Step a rest = (st.1, true) := by rw [← h2]
      obtain ⟨c, hc, he, hl⟩ := utf8Step_sound hst
      refine ⟨c :: cs, by intro x hx; rcases List.mem_cons.mp hx with rfl | hx; exact hc; exact hcs x hx, ?_⟩
      rw [List.flatMap_cons, ← he, ← htail, ← List.map_append, List.cons_append, List.take_append_drop]
    · rintro ⟨cs, hcs, he⟩
      cases cs with
      | nil => simp at he
      | cons c cs =>
        rw [List.flatMap_cons] at he
        obtain ⟨h1, h2⟩ := utf8Step_complete (hcs c (by simp)) he
        have hst : st = ((utf8Char c).length, true) := h1
        rw [hst]
        exact ⟨rfl, cs, fun x hx => hcs x (by simp [hx]), h2⟩

theorem utf8Lossy_valid {bs : Bytes} (h : utf8Valid bs = true) : utf8Lossy bs = bs := by
  fun_induction utf8Valid bs with
  | case1 => rw [utf8Lossy]
  | case2 a rest st ih =>
    rw [Bool.and_eq_true] at h
    rw [utf8Lossy]
    have hs : utf8Step a rest = st := rfl
    rw [hs, if_pos h.1, ih h.2, List.cons_append, List.take_append_drop]

theorem IsUtf8.append {a b : Bytes} (ha : IsUtf8 a) (hb : IsUtf8 b) : IsUtf8 (a ++ b) := by
  obtain ⟨ca, h1, h2⟩ := ha
  obtain ⟨cb, h3, h4⟩ := hb
  refine ⟨ca ++ cb, ?_, by simp [h2, h4]⟩
  intro c hc
  rcases List.mem_append.mp hc with h | h
  · exact h1 c h
  · exact h3 c h

theorem replacement_utf8 : IsUtf8 replacement :=
  ⟨[0xFFFD], by simp [IsScalar], by decide⟩

/-- Lossy decoding always gives valid UTF-8. -/
theorem utf8Lossy_isUtf8 (bs : Bytes) : IsUtf8 (utf8Lossy bs) := by
  fun_induction utf8Lossy bs with
  | case1 => exact ⟨[], by simp [EncodesText]⟩
  | case2 a rest st ih =>
    refine IsUtf8.append ?_ ih
    split
    · next h =>
      have hst : utf8Step a rest = (st.1, true) := by rw [← h]
      obtain ⟨c, hc, he, -⟩ := utf8Step_sound hst
      exact ⟨[c], by simpa using hc, by simpa using he⟩
    · exact replacement_utf8

/-- Encoding is injective, so the text a byte string encodes is unique. -/
theorem encodesText_unique {bs : Bytes} {cs ds : List Nat} (h1 : EncodesText cs bs) (h2 : EncodesText ds bs) :
    cs = ds := by
  induction cs generalizing bs ds with
  | nil =>
    obtain ⟨-, h1⟩ := h1
    simp at h1; subst h1
    obtain ⟨-, h2⟩ := h2
    cases ds with
    | nil => rfl
    | cons d ds =>
      exfalso
      simp only [List.map_nil, List.flatMap_cons] at h2
      have : utf8Char d ≠ [] := by unfold utf8Char; repeat' split
                                   all_goals simp
      simp [this] at h2
  | cons c cs ih =>
    obtain ⟨hs1, h1⟩ := h1
    obtain ⟨hs2, h2⟩ := h2
    have hne : ∀ d, utf8Char d ≠ [] := by
      intro d; unfold utf8Char; repeat' split
      all_goals simp
    cases bs with
    | nil => simp [hne] at h1
    | cons a rest =>
      cases ds with
      | nil => simp at h2
      | cons d ds =>
        rw [List.flatMap_cons] at h1 h2
        obtain ⟨e1, t1⟩ := utf8Step_complete (hs1 c (by simp)) h1
        obtain ⟨e2, t2⟩ := utf8Step_complete (hs2 d (by simp)) h2
        have hl : (utf8Char c).length = (utf8Char d).length := by
          rw [e1] at e2; simpa using e2
        have hcd : utf8Char c = utf8Char d := List.append_inj_left (h1.symm.trans h2) hl
        have : c = d := by
          unfold utf8Char at hcd
          have := hs1 c (by simp); have := hs2 d (by simp)
          repeat' split at hcd
          all_goals simp at hcd
          all_goals omega
        subst this
        congr 1
        refine ih ⟨fun x hx => hs1 x (by simp [hx]), t1⟩ ⟨fun x hx => hs2 x (by simp [hx]), ?_⟩
        exact t2

end WS
