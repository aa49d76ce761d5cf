import Verif.Lemmas.Text
/-!
# Header values: extensions, protocols and lists of lines
-/

namespace WS

open Spec

theorem fromCommaDelimited_some {α} (f : Bytes → α) (raw : List Bytes) (h : ∀ l ∈ raw, IsUtf8 l) :
    fromCommaDelimited (fun s => some (f s)) raw = some (raw.flatMap fun s => (commaItems s).map f) := by
  unfold fromCommaDelimited
  rw [if_pos]
  · congr 2
    funext s
    exact congrFun (List.filterMap_eq_map (f := f)) _
  · rw [List.all_eq_true]
    intro l hl
    exact (utf8Valid_iff l).mpr (h l hl)

theorem fromCommaDelimited_none {α} (f : Bytes → Option α) (raw : List Bytes) (h : ¬ ∀ l ∈ raw, IsUtf8 l) :
    fromCommaDelimited f raw = none := by
  unfold fromCommaDelimited
  rw [if_neg]
  rw [List.all_eq_true]
  intro hc
  exact h fun l hl => (utf8Valid_iff l).mp (hc l hl)

theorem comma_space_utf8 : IsUtf8 [44, 32] := isUtf8_ascii (by decide)
theorem semi_space_utf8 : IsUtf8 [59, 32] := isUtf8_ascii (by decide)

/-! ## White space next to separators -/

theorem ws_not_mem {c : UInt8} (hc : c = 59 ∨ c = 61) : ∀ w ∈ whiteSpace, c ∉ w := by
  rcases hc with rfl | rfl <;> decide +kernel

theorem ws_space : ∀ w ∈ whiteSpace, 32 ∈ w → w.length = 1 := by decide +kernel

theorem prefix_before {c : UInt8} {w x y : Bytes} (hc : c ∉ w) (h : w <+: x ++ c :: y) : w <+: x := by
  obtain ⟨t, ht⟩ := h
  rcases List.append_eq_append_iff.mp ht with ⟨a, ha, _⟩ | ⟨a, ha, hb⟩
  · exact ⟨a, ha.symm⟩
  · cases a with
    | nil => rw [ha]; simp
    | cons d a =>
      simp only [List.cons_append, List.cons.injEq] at hb
      exact absurd (by rw [ha, hb.1]; simp) hc

theorem suffix_after {c : UInt8} {w x y : Bytes} (hc : c ∉ w) (h : w <:+ x ++ c :: y) : w <:+ y := by
  have h1 : w.reverse <+: y.reverse ++ c :: x.reverse := by
    have := List.reverse_prefix.mpr h
    simpa using this
  have h2 := prefix_before (by simpa using hc) h1
  exact List.reverse_prefix.mp h2

theorem suffix_after_space {w x y : Bytes} (hw : w ∈ whiteSpace) (hy : y ≠ []) (h : w <:+ x ++ 32 :: y) : w <:+ y := by
  by_cases hm : 32 ∈ w
  · have hl := ws_space w hw hm
    obtain ⟨t, ht⟩ := h
    rcases List.append_eq_append_iff.mp ht with ⟨a, ha, hb⟩ | ⟨a, ha, hb⟩
    · -- x = t ++ a, w = a ++ 32 :: y
      rw [hb] at hl
      simp only [List.length_append, List.length_cons] at hl
      cases y with
      | nil => exact absurd rfl hy
      | cons _ _ => simp only [List.length_cons] at hl; omega
    · cases a with
      | nil =>
        simp only [List.nil_append] at hb
        rw [← hb] at hl
        cases y with
        | nil => exact absurd rfl hy
        | cons _ _ => simp only [List.length_cons] at hl; omega
      | cons d a =>
        simp only [List.cons_append, List.cons.injEq] at hb
        exact ⟨a, hb.2.symm⟩
  · exact suffix_after hm h

theorem trimmed_eq {x y : Bytes} (hx : Trimmed x) (hy : Trimmed y) : Trimmed (x ++ 61 :: y) := by
  rw [trimmed_iff] at *
  intro w hw
  have hc := ws_not_mem (Or.inr rfl) w hw
  exact ⟨fun h => (hx w hw).1 (prefix_before hc h), fun h => (hy w hw).2 (suffix_after hc h)⟩

theorem trimmed_semi {x y : Bytes} (hx : Trimmed x) (hy : Trimmed y) (hn : y ≠ []) : Trimmed (x ++ 59 :: 32 :: y) := by
  rw [trimmed_iff] at *
  intro w hw
  have hc := ws_not_mem (Or.inl rfl) w hw
  refine ⟨fun h => (hx w hw).1 (prefix_before hc h), fun h => (hy w hw).2 ?_⟩
  have : x ++ 59 :: 32 :: y = (x ++ [59]) ++ 32 :: y := by simp
  rw [this] at h
  exact suffix_after_space hw hn h

/-! ## Extensions -/

/-- A text usable as name or value: a list item without `;`. -/
def Tok (s : Bytes) : Prop := ListItem s ∧ 59 ∉ s

theorem extFmt_eq (e : Ext) : e.fmt = joinWith [59, 32] (e.name :: e.params.map Param.fmt) := by
  unfold Ext.fmt
  generalize e.name = n
  induction e.params generalizing n with
  | nil => simp [joinWith]
  | cons p ps ih =>
    rw [List.map_cons, joinWith, List.flatMap_cons, ← ih p.fmt]
    simp

instance (s : Bytes) : Decidable (Inline s) := inferInstanceAs (Decidable (_ ∧ _))

theorem inline_append {a b : Bytes} (ha : Inline a) (hb : Inline b) : Inline (a ++ b) := by
  unfold Inline at *
  simp only [List.mem_append, not_or]
  exact ⟨⟨ha.1, hb.1⟩, ha.2, hb.2⟩

theorem inline_join {x : List Bytes} (h : ∀ y ∈ x, Inline y) : Inline (joinWith [44, 32] x) := by
  induction x with
  | nil => decide
  | cons a t ih =>
    cases t with
    | nil => exact h a (by simp)
    | cons b t =>
      have e : joinWith [44, 32] (a :: b :: t) = a ++ ([44, 32] ++ joinWith [44, 32] (b :: t)) := by simp [joinWith]
      rw [e]
      exact inline_append (h a (by simp)) (inline_append (by decide) (ih fun y hy => h y (List.mem_cons_of_mem _ hy)))

theorem joinWith_tok {x : Bytes} {xs : List Bytes} (h : ∀ y ∈ x :: xs, Tok y) : ListItem (joinWith [59, 32] (x :: xs)) := by
  induction xs generalizing x with
  | nil => exact (h x (by simp)).1
  | cons y ys ih =>
    obtain ⟨⟨h1, h2, h3, h4⟩, h5⟩ := h x (by simp)
    obtain ⟨i1, i2, i3, i4⟩ := ih (x := y) (fun z hz => h z (List.mem_cons_of_mem _ hz))
    have e : joinWith [59, 32] (x :: y :: ys) = x ++ 59 :: 32 :: joinWith [59, 32] (y :: ys) := by simp [joinWith]
    rw [e]
    refine ⟨by simp, ?_, trimmed_semi h3 i3 i1, ?_⟩
    · simp only [List.mem_append, List.mem_cons, not_or]
      exact ⟨h2, by decide, by decide, i2⟩
    · have : x ++ 59 :: 32 :: joinWith [59, 32] (y :: ys) = (x ++ [59, 32]) ++ joinWith [59, 32] (y :: ys) := by simp
      rw [this]
      exact IsUtf8.append (IsUtf8.append h4 semi_space_utf8) i4

theorem param_fromStr {x : Bytes} (h : Trimmed x) : Param.fromStr x = ⟨x, none⟩ := by
  simp [Param.fromStr, splitN, trim_id h]

theorem ext_fromStr_fmt {e : Ext} (hn : Tok e.name) (hp : ∀ p ∈ e.params, Tok p.fmt) :
    Ext.fromStr e.fmt = ⟨e.name, e.params.map fun p => ⟨p.fmt, none⟩⟩ := by
  unfold Ext.fromStr
  rw [extFmt_eq, splitOn_joined _ _ (by decide)]
  · rw [List.map_cons, trim_id hn.1.2.2.1]
    simp only [List.map_map]
    congr 1
    apply List.map_congr_left
    intro p hm
    simp only [Function.comp_apply]
    have ht := (hp p hm).1.2.2.1
    rw [trim_space ht, param_fromStr ht]
  · intro y hy
    simp only [List.mem_cons, List.mem_map] at hy
    rcases hy with rfl | ⟨p, hm, rfl⟩
    · exact hn.2
    · exact (hp p hm).2

/-- Checking that a concrete ASCII text is a list item. -/
theorem listItem_of {x : Bytes} (h : x ≠ [] ∧ 44 ∉ x ∧
    (∀ w ∈ whiteSpace, w.isPrefixOf x = false ∧ w.isSuffixOf x = false) ∧ (∀ c ∈ x, c.toNat < 128)) : ListItem x := by
  obtain ⟨h1, h2, h3, h4⟩ := h
  refine ⟨h1, h2, (trimmed_iff x).mpr ?_, isUtf8_ascii h4⟩
  intro w hw
  rw [← List.isPrefixOf_iff_prefix, ← List.isSuffixOf_iff_suffix, (h3 w hw).1, (h3 w hw).2]
  decide

end WS
