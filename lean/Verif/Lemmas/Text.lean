import Verif.Spec.Text
import Verif.Model.Headers
import Verif.Lemmas.Utf8
/-!
# Splitting and trimming
-/

namespace WS

open Spec

/-! ## `splitOn` -/

theorem splitOn_ne_nil (c : UInt8) (s : Bytes) : splitOn c s ≠ [] := by
  fun_cases splitOn c s <;> simp_all

theorem splitOn_free {c : UInt8} {s : Bytes} (h : c ∉ s) : splitOn c s = [s] := by
  induction s with
  | nil => rfl
  | cons b s ih =>
    simp only [List.mem_cons, not_or] at h
    rw [splitOn, if_neg (fun hb => h.1 hb.symm), ih h.2]

theorem splitOn_append {c : UInt8} {x : Bytes} (h : c ∉ x) (r : Bytes) :
    splitOn c (x ++ c :: r) = x :: splitOn c r := by
  induction x with
  | nil => simp [splitOn]
  | cons b x ih =>
    simp only [List.mem_cons, not_or] at h
    rw [List.cons_append, splitOn, if_neg (fun hb => h.1 hb.symm), ih h.2]

theorem intercalate_cons {α} (sep : List α) (x y : List α) (r : List (List α)) :
    sep.intercalate (x :: y :: r) = x ++ sep ++ sep.intercalate (y :: r) := by
  simp [List.intercalate, List.intersperse]

theorem intercalate_one {α} (sep : List α) (x : List α) : sep.intercalate [x] = x := by
  simp [List.intercalate, List.intersperse]

theorem splitOn_intercalate {c : UInt8} {segs : List Bytes} (hn : segs ≠ []) (h : ∀ s ∈ segs, c ∉ s) :
    splitOn c ([c].intercalate segs) = segs := by
  induction segs with
  | nil => exact absurd rfl hn
  | cons x r ih =>
    cases r with
    | nil => rw [intercalate_one]; exact splitOn_free (h x (by simp))
    | cons y r =>
      rw [intercalate_cons, List.append_assoc]
      simp only [List.singleton_append]
      rw [splitOn_append (h x (by simp)), ih (by simp) (fun s hs => h s (List.mem_cons_of_mem _ hs))]

theorem splitOn_pieces (c : UInt8) (s : Bytes) : Pieces c s (splitOn c s) := by
  induction s with
  | nil => exact ⟨by simp [splitOn], by simp [splitOn, intercalate_one], by simp [splitOn]⟩
  | cons b s ih =>
    obtain ⟨h1, h2, h3⟩ := ih
    by_cases hb : b = c
    · subst hb
      rw [splitOn, if_pos rfl]
      refine ⟨by simp, ?_, by simpa using h3⟩
      cases hs : splitOn b s with
      | nil => exact absurd hs h1
      | cons w ws => rw [intercalate_cons, ← hs, ← h2]; rfl
    · rw [splitOn, if_neg hb]
      cases hs : splitOn c s with
      | nil => exact absurd hs h1
      | cons w ws =>
        rw [hs] at h2 h3
        refine ⟨by simp, ?_, ?_⟩
        · cases ws with
          | nil => rw [intercalate_one] at h2 ⊢; rw [h2]
          | cons y ws => rw [intercalate_cons] at h2 ⊢; rw [h2]; rfl
        · intro x hx
          simp only [List.mem_cons] at hx
          rcases hx with rfl | hx
          · simp only [List.mem_cons, not_or]
            exact ⟨fun h => hb h.symm, h3 w (by simp)⟩
          · exact h3 x (by simp [hx])

theorem pieces_iff {c : UInt8} {s : Bytes} {segs : List Bytes} : Pieces c s segs ↔ splitOn c s = segs :=
  ⟨fun ⟨h1, h2, h3⟩ => by rw [h2, splitOn_intercalate h1 h3], fun h => h ▸ splitOn_pieces c s⟩

/-! ## `dropAny` -/

theorem dropAny_stop {tab : List Bytes} {s : Bytes} (h : ∀ w ∈ tab, w ≠ [] → ¬ w <+: s) : dropAny tab s = s := by
  rw [dropAny]
  split
  · next w hw =>
    have h1 := List.find?_some hw
    have h2 := List.mem_of_find?_eq_some hw
    simp only [ne_eq, decide_not, Bool.and_eq_true, Bool.not_eq_eq_eq_not, Bool.not_true, decide_eq_false_iff_not,
      List.isPrefixOf_iff_prefix] at h1
    exact absurd h1.2 (h w h2 h1.1)
  · rfl

/-- No word of the table is a proper prefix of another, none is empty. -/
def PrefixFree (tab : List Bytes) : Prop := ∀ w ∈ tab, w ≠ [] ∧ ∀ v ∈ tab, w <+: v → w = v

theorem dropAny_word {tab : List Bytes} (hp : PrefixFree tab) {w : Bytes} (hw : w ∈ tab) (s : Bytes) :
    dropAny tab (w ++ s) = dropAny tab s := by
  rw [dropAny]
  split
  · next v hv =>
    have h1 := List.find?_some hv
    have h2 := List.mem_of_find?_eq_some hv
    simp only [ne_eq, decide_not, Bool.and_eq_true, Bool.not_eq_eq_eq_not, Bool.not_true, decide_eq_false_iff_not,
      List.isPrefixOf_iff_prefix] at h1
    have hvw : v = w := by
      rcases List.prefix_or_prefix_of_prefix h1.2 (List.prefix_append w s) with h | h
      · exact (hp v h2).2 w hw h
      · exact ((hp w hw).2 v h2 h).symm
    subst hvw
    rw [List.drop_left]
  · next hn =>
    rw [List.find?_eq_none] at hn
    have := hn w hw
    simp [(hp w hw).1, List.isPrefixOf_iff_prefix] at this

theorem dropAny_words {tab : List Bytes} (hp : PrefixFree tab) {ws : List Bytes} (hw : ∀ w ∈ ws, w ∈ tab) (s : Bytes) :
    dropAny tab (ws.flatten ++ s) = dropAny tab s := by
  induction ws with
  | nil => rfl
  | cons w ws ih =>
    rw [List.flatten_cons, List.append_assoc, dropAny_word hp (hw w (by simp)),
      ih (fun w h => hw w (List.mem_cons_of_mem _ h))]

theorem dropAny_spec (tab : List Bytes) (s : Bytes) :
    (∃ ws : List Bytes, (∀ w ∈ ws, w ∈ tab) ∧ s = ws.flatten ++ dropAny tab s) ∧
    ∀ w ∈ tab, w ≠ [] → ¬ w <+: dropAny tab s := by
  fun_induction dropAny tab s with
  | case1 s w hw ih =>
    have h1 := List.find?_some hw
    have h2 := List.mem_of_find?_eq_some hw
    simp only [ne_eq, decide_not, Bool.and_eq_true, Bool.not_eq_eq_eq_not, Bool.not_true, decide_eq_false_iff_not,
      List.isPrefixOf_iff_prefix] at h1
    obtain ⟨⟨ws, h3, h4⟩, h5⟩ := ih
    refine ⟨⟨w :: ws, ?_, ?_⟩, h5⟩
    · intro v hv
      simp only [List.mem_cons] at hv
      rcases hv with rfl | hv
      · exact h2
      · exact h3 v hv
    · rw [List.flatten_cons, List.append_assoc, ← h4]
      obtain ⟨t, ht⟩ := h1.2
      rw [← ht, List.drop_left]
  | case2 s hn =>
    refine ⟨⟨[], by simp, by simp⟩, ?_⟩
    intro w hw h0 hp
    rw [List.find?_eq_none] at hn
    have := hn w hw
    simp [h0, List.isPrefixOf_iff_prefix] at this
    exact this hp

/-! ## The white space table -/

def wsPoints : List Nat :=
  [9, 10, 11, 12, 13, 32, 0x85, 0xA0, 0x1680, 0x2000, 0x2001, 0x2002, 0x2003, 0x2004, 0x2005, 0x2006, 0x2007,
   0x2008, 0x2009, 0x200A, 0x2028, 0x2029, 0x202F, 0x205F, 0x3000]

theorem isWhiteSpace_iff (c : Nat) : IsWhiteSpace c ↔ c ∈ wsPoints := by
  simp only [IsWhiteSpace, wsPoints, List.mem_cons, List.not_mem_nil, or_false]
  omega

theorem whiteSpace_eq : whiteSpace.map (·.map UInt8.toNat) = wsPoints.map utf8Char := by decide +kernel

theorem ws_word {w : Bytes} (h : w ∈ whiteSpace) : ∃ c, IsWhiteSpace c ∧ w.map UInt8.toNat = utf8Char c := by
  have h1 : w.map UInt8.toNat ∈ whiteSpace.map (·.map UInt8.toNat) := List.mem_map_of_mem h
  rw [whiteSpace_eq, List.mem_map] at h1
  obtain ⟨c, hc, he⟩ := h1
  exact ⟨c, (isWhiteSpace_iff c).mpr hc, he.symm⟩

theorem ws_point {c : Nat} (h : IsWhiteSpace c) : ∃ w ∈ whiteSpace, w.map UInt8.toNat = utf8Char c := by
  have h1 : utf8Char c ∈ wsPoints.map utf8Char := List.mem_map_of_mem ((isWhiteSpace_iff c).mp h)
  rw [← whiteSpace_eq, List.mem_map] at h1
  exact h1

theorem toNat_map_inj {a b : Bytes} (h : a.map UInt8.toNat = b.map UInt8.toNat) : a = b :=
  (List.map_inj_right fun _ _ => UInt8.toNat_inj.mp).mp h

theorem prefix_map {a b : Bytes} : a.map UInt8.toNat <+: b.map UInt8.toNat ↔ a <+: b := by
  constructor
  · intro h
    have h1 := List.prefix_iff_eq_take.mp h
    rw [← List.map_take, List.length_map] at h1
    rw [toNat_map_inj h1]
    exact List.take_prefix _ _
  · rintro ⟨t, rfl⟩
    exact ⟨t.map UInt8.toNat, by simp⟩

theorem suffix_map {a b : Bytes} : a.map UInt8.toNat <:+ b.map UInt8.toNat ↔ a <:+ b := by
  rw [← List.reverse_prefix, ← List.map_reverse, ← List.map_reverse, prefix_map, List.reverse_prefix]

theorem trimmed_iff (s : Bytes) : Trimmed s ↔ ∀ w ∈ whiteSpace, ¬ w <+: s ∧ ¬ w <:+ s := by
  constructor
  · intro h w hw
    obtain ⟨c, hc, he⟩ := ws_word hw
    have := h c hc
    rw [← he, prefix_map, suffix_map] at this
    exact this
  · intro h c hc
    obtain ⟨w, hw, he⟩ := ws_point hc
    rw [← he, prefix_map, suffix_map]
    exact h w hw

theorem blank_iff (s : Bytes) : Blank s ↔ ∃ ws : List Bytes, (∀ w ∈ ws, w ∈ whiteSpace) ∧ s = ws.flatten := by
  constructor
  · rintro ⟨cs, ⟨h1, h2⟩, h3⟩
    induction cs generalizing s with
    | nil =>
      refine ⟨[], by simp, ?_⟩
      simpa using h2
    | cons c cs ih =>
      obtain ⟨w, hw, he⟩ := ws_point (h3 c (by simp))
      rw [List.flatMap_cons, ← he] at h2
      have hp : w <+: s := prefix_map.mp (by rw [h2]; exact List.prefix_append _ _)
      obtain ⟨t, rfl⟩ := hp
      rw [List.map_append] at h2
      obtain ⟨ws, h4, h5⟩ := ih t (fun c hc => h3 c (List.mem_cons_of_mem _ hc)) (fun d hd => h1 d (List.mem_cons_of_mem _ hd))
        (List.append_cancel_left h2)
      refine ⟨w :: ws, ?_, by rw [h5]; rfl⟩
      intro v hv
      simp only [List.mem_cons] at hv
      rcases hv with rfl | hv
      · exact hw
      · exact h4 v hv
  · rintro ⟨ws, h1, rfl⟩
    induction ws with
    | nil => exact ⟨[], ⟨by simp, rfl⟩, by simp⟩
    | cons w ws ih =>
      obtain ⟨cs, ⟨h2, h3⟩, h4⟩ := ih (fun v hv => h1 v (List.mem_cons_of_mem _ hv))
      obtain ⟨c, hc, he⟩ := ws_word (h1 w (by simp))
      refine ⟨c :: cs, ⟨?_, ?_⟩, ?_⟩
      · intro d hd
        simp only [List.mem_cons] at hd
        rcases hd with rfl | hd
        · unfold IsWhiteSpace at hc; unfold IsScalar; omega
        · exact h2 d hd
      · rw [List.flatten_cons, List.map_append, he, h3]; rfl
      · intro d hd
        simp only [List.mem_cons] at hd
        rcases hd with rfl | hd
        · exact hc
        · exact h4 d hd

theorem whiteSpace_prefixFree : PrefixFree whiteSpace := by
  unfold PrefixFree
  simp only [← List.isPrefixOf_iff_prefix]
  decide +kernel

theorem whiteSpace_suffixFree : PrefixFree (whiteSpace.map List.reverse) := by
  unfold PrefixFree
  simp only [← List.isPrefixOf_iff_prefix]
  decide +kernel

theorem whiteSpace_heads : ∀ w ∈ whiteSpace, ∀ v ∈ whiteSpace, ∀ c ∈ w.tail, v.head? ≠ some c := by
  decide +kernel

/-! ## `trim` -/

theorem no_ws_prefix_append {x : Bytes} (hx : x ≠ []) (h : ∀ w ∈ whiteSpace, ¬ w <+: x) {r : Bytes} (hr : Blank r) :
    ∀ w ∈ whiteSpace, ¬ w <+: x ++ r := by
  intro w hw hp
  obtain ⟨t, ht⟩ := hp
  rcases List.append_eq_append_iff.mp ht with ⟨a, ha, _⟩ | ⟨a, ha, hb⟩
  · exact h w hw ⟨a, ha.symm⟩
  · -- w = x ++ a, r = a ++ t
    cases a with
    | nil => exact h w hw (by rw [ha]; simp)
    | cons c a =>
      obtain ⟨ws, h1, h2⟩ := (blank_iff r).mp hr
      cases ws with
      | nil => rw [hb] at h2; simp at h2
      | cons v ws =>
        have hv := h1 v (by simp)
        have hv0 := (whiteSpace_prefixFree v hv).1
        cases v with
        | nil => exact hv0 rfl
        | cons d v =>
          rw [hb] at h2
          simp only [List.cons_append, List.flatten_cons, List.cons.injEq] at h2
          cases x with
          | nil => exact hx rfl
          | cons e x =>
            refine whiteSpace_heads w hw (d :: v) hv c ?_ (by rw [h2.1]; rfl)
            rw [ha]; simp

theorem trim_padded {seg item : Bytes} (h : Padded seg item) : trim seg = item := by
  obtain ⟨l, r, rfl, hl, hr, ht⟩ := h
  rw [trimmed_iff] at ht
  obtain ⟨wl, hl1, rfl⟩ := (blank_iff l).mp hl
  unfold trim
  by_cases hi : item = []
  · subst hi
    obtain ⟨wr, hr1, rfl⟩ := (blank_iff r).mp hr
    rw [List.append_nil, trimStart, dropAny_words whiteSpace_prefixFree hl1,
      ← List.append_nil (List.flatten wr), dropAny_words whiteSpace_prefixFree hr1]
    decide +kernel
  · rw [List.append_assoc, trimStart, dropAny_words whiteSpace_prefixFree hl1,
      dropAny_stop (fun w hw _ => no_ws_prefix_append hi (fun w hw => (ht w hw).1) hr w hw)]
    obtain ⟨wr, hr1, rfl⟩ := (blank_iff r).mp hr
    have hrev : (item ++ wr.flatten).reverse = (wr.map List.reverse).reverse.flatten ++ item.reverse := by
      rw [List.reverse_append, List.reverse_flatten]
    rw [trimEnd, hrev, dropAny_words whiteSpace_suffixFree, dropAny_stop, List.reverse_reverse]
    · intro w hw _ hp
      rw [List.mem_map] at hw
      obtain ⟨v, hv, rfl⟩ := hw
      exact (ht v hv).2 (List.reverse_prefix.mp hp)
    · intro w hw
      rw [List.mem_reverse, List.mem_map] at hw
      obtain ⟨v, hv, rfl⟩ := hw
      exact List.mem_map_of_mem (hr1 v hv)

theorem padded_trim (seg : Bytes) : Padded seg (trim seg) := by
  obtain ⟨⟨wl, h1, h2⟩, h3⟩ := dropAny_spec whiteSpace seg
  obtain ⟨⟨wr, h4, h5⟩, h6⟩ := dropAny_spec (whiteSpace.map List.reverse) (dropAny whiteSpace seg).reverse
  have e : dropAny whiteSpace seg = trim seg ++ (wr.flatten).reverse := by
    have := congrArg List.reverse h5
    rw [List.reverse_reverse, List.reverse_append] at this
    exact this
  refine ⟨wl.flatten, wr.flatten.reverse, ?_, (blank_iff _).mpr ⟨wl, h1, rfl⟩, (blank_iff _).mpr ?_, ?_⟩
  · rw [List.append_assoc, ← e, ← h2]
  · refine ⟨(wr.map List.reverse).reverse, ?_, by rw [List.reverse_flatten]⟩
    intro w hw
    rw [List.mem_reverse, List.mem_map] at hw
    obtain ⟨v, hv, rfl⟩ := hw
    have := h4 v hv
    rw [List.mem_map] at this
    obtain ⟨u, hu, rfl⟩ := this
    rw [List.reverse_reverse]; exact hu
  · rw [trimmed_iff]
    intro w hw
    refine ⟨?_, ?_⟩
    · intro hp
      refine h3 w hw (whiteSpace_prefixFree w hw).1 ?_
      rw [e]
      exact hp.trans (List.prefix_append _ _)
    · intro hp
      refine h6 w.reverse (List.mem_map_of_mem hw) ?_ ?_
      · intro h0; exact (whiteSpace_prefixFree w hw).1 (List.reverse_eq_nil_iff.mp h0)
      · have : trim seg = (dropAny (whiteSpace.map List.reverse) (dropAny whiteSpace seg).reverse).reverse := rfl
        rw [this] at hp
        have := List.reverse_prefix.mpr hp
        rwa [List.reverse_reverse] at this

theorem padded_iff {seg item : Bytes} : Padded seg item ↔ trim seg = item :=
  ⟨trim_padded, fun h => h ▸ padded_trim seg⟩

theorem trim_trimmed (s : Bytes) : Trimmed (trim s) := by
  obtain ⟨_, _, _, _, _, h⟩ := padded_trim s
  exact h

theorem blank_nil : Blank [] := ⟨[], ⟨by simp, rfl⟩, by simp⟩

theorem trim_id {s : Bytes} (h : Trimmed s) : trim s = s :=
  trim_padded ⟨[], [], by simp, blank_nil, blank_nil, h⟩

theorem trim_space {s : Bytes} (h : Trimmed s) : trim (32 :: s) = s :=
  trim_padded ⟨[32], [], by simp, ⟨[32], ⟨by simp [IsScalar], by decide⟩, by simp [IsWhiteSpace]⟩, blank_nil, h⟩

theorem trim_nil : trim [] = [] := by decide +kernel

/-! ## Comma separated lists -/

theorem zip_forall_map {α β} {P : α → β → Prop} {f : α → β} (hf : ∀ a b, P a b ↔ f a = b) {l : List α} {m : List β} :
    (l.length = m.length ∧ ∀ p ∈ l.zip m, P p.1 p.2) ↔ m = l.map f := by
  induction l generalizing m with
  | nil => cases m <;> simp
  | cons a l ih =>
    cases m with
    | nil => simp
    | cons b m =>
      simp only [List.length_cons, Nat.add_right_cancel_iff, List.zip_cons_cons, List.mem_cons, forall_eq_or_imp,
        List.map_cons, List.cons.injEq]
      rw [← ih, hf]
      constructor
      · rintro ⟨h1, h2, h3⟩; exact ⟨h2.symm, h1, h3⟩
      · rintro ⟨h2, h1, h3⟩; exact ⟨h1, h2.symm, h3⟩

theorem commaList_iff {line : Bytes} {items : List Bytes} : CommaList line items ↔ items = commaItems line := by
  unfold CommaList commaItems
  constructor
  · rintro ⟨segs, cores, h1, h2, h3, rfl⟩
    have := (zip_forall_map (P := Padded) (fun a b => padded_iff)).mp ⟨h2, h3⟩
    rw [pieces_iff.mp h1, this]
  · rintro rfl
    have := (zip_forall_map (l := splitOn 44 line) (P := Padded) (fun a b => padded_iff)).mpr rfl
    exact ⟨_, _, splitOn_pieces 44 line, this.1, this.2, rfl⟩

/-- A text that can be an element of a comma separated list. -/
def ItemOk (s : Bytes) : Prop := s ≠ [] ∧ 44 ∉ s ∧ Trimmed s

theorem commaItems_ok {line s : Bytes} (h : s ∈ commaItems line) : ItemOk s := by
  unfold commaItems at h
  simp only [ne_eq, decide_not, List.mem_filter, List.mem_map, Bool.not_eq_eq_eq_not, Bool.not_true,
    decide_eq_false_iff_not] at h
  obtain ⟨⟨w, hw, rfl⟩, h0⟩ := h
  refine ⟨h0, ?_, trim_trimmed w⟩
  obtain ⟨l, r, he, _⟩ := padded_trim w
  have := (splitOn_pieces 44 line).2.2 w hw
  intro hm
  apply this
  rw [he]
  simp [hm]

/-- Splitting a joined text. -/
theorem splitOn_joined {c : UInt8} {x : Bytes} (xs : List Bytes) (h : ∀ y ∈ x :: xs, c ∉ y) (hc : c ≠ 32) :
    splitOn c (joinWith [c, 32] (x :: xs)) = x :: xs.map (32 :: ·) := by
  induction xs generalizing x with
  | nil => exact splitOn_free (h x (by simp))
  | cons y ys ih =>
    have e : joinWith [c, 32] (x :: y :: ys) = x ++ c :: (32 :: joinWith [c, 32] (y :: ys)) := by
      simp [joinWith]
    rw [e, splitOn_append (h x (by simp)), splitOn, if_neg (fun h => hc h.symm),
      ih (fun z hz => h z (List.mem_cons_of_mem _ hz))]
    rfl

theorem commaItems_joined {parts : List Bytes} (h : ∀ x ∈ parts, ItemOk x) :
    commaItems (fmtCommaDelimited parts) = parts := by
  cases parts with
  | nil => decide +kernel
  | cons x xs =>
    unfold commaItems fmtCommaDelimited
    rw [splitOn_joined xs (fun y hy => (h y hy).2.1) (by decide), List.map_cons, trim_id (h x (by simp)).2.2]
    have : (xs.map (32 :: ·)).map trim = xs := by
      rw [List.map_map]
      conv => rhs; rw [← List.map_id xs]
      apply List.map_congr_left
      intro y hy
      exact trim_space (h y (List.mem_cons_of_mem _ hy)).2.2
    rw [this, List.filter_eq_self]
    intro y hy
    simpa using (h y hy).1

/-! ## UTF-8 -/

theorem joinWith_utf8 {sep : Bytes} (hs : IsUtf8 sep) {parts : List Bytes} (h : ∀ x ∈ parts, IsUtf8 x) :
    IsUtf8 (joinWith sep parts) := by
  fun_induction joinWith sep parts with
  | case1 => exact ⟨[], by simp [EncodesText]⟩
  | case2 x => exact h x (by simp)
  | case3 x y rest ih =>
    exact IsUtf8.append (IsUtf8.append (h x (by simp)) hs) (ih fun z hz => h z (List.mem_cons_of_mem _ hz))

theorem isUtf8_ascii {s : Bytes} (h : ∀ c ∈ s, c.toNat < 128) : IsUtf8 s := by
  refine ⟨s.map UInt8.toNat, ?_, ?_⟩
  · intro c hc
    rw [List.mem_map] at hc
    obtain ⟨b, hb, rfl⟩ := hc
    have := h b hb
    left; omega
  · induction s with
    | nil => rfl
    | cons b s ih =>
      rw [List.map_cons, List.flatMap_cons, utf8Char_1 (h b (by simp)), ← ih (fun c hc => h c (List.mem_cons_of_mem _ hc))]
      rfl

theorem utf8Char_ne_nil (c : Nat) : utf8Char c ≠ [] := by
  unfold utf8Char; repeat' split
  all_goals simp

/-- The bytes after the first of a character are continuation bytes, the first is not. -/
theorem utf8Char_shape {c : Nat} (h : IsScalar c) :
    ∃ a r, utf8Char c = a :: r ∧ (a < 128 ∨ 192 ≤ a) ∧ ∀ b ∈ r, 128 ≤ b ∧ b < 192 := by
  unfold utf8Char
  unfold IsScalar at h
  repeat' split
  · exact ⟨_, _, rfl, by omega, by simp⟩
  · refine ⟨_, _, rfl, by omega, ?_⟩
    intro b hb; simp only [List.mem_cons, List.not_mem_nil, or_false] at hb; omega
  · refine ⟨_, _, rfl, by omega, ?_⟩
    intro b hb; simp only [List.mem_cons, List.not_mem_nil, or_false] at hb; omega
  · refine ⟨_, _, rfl, by omega, ?_⟩
    intro b hb; simp only [List.mem_cons, List.not_mem_nil, or_false] at hb; omega

/-- Valid text cut where valid text starts is valid on both sides. -/
theorem IsUtf8.cut {a b : Bytes} (h : IsUtf8 (a ++ b)) (hb : ∀ c, b.head? = some c → c.toNat < 128 ∨ 192 ≤ c.toNat) :
    IsUtf8 a ∧ IsUtf8 b := by
  obtain ⟨cs, h1, h2⟩ := h
  induction cs generalizing a with
  | nil =>
    simp only [List.map_append, List.flatMap_nil, List.append_eq_nil_iff, List.map_eq_nil_iff] at h2
    obtain ⟨rfl, rfl⟩ := h2
    exact ⟨⟨[], by simp [EncodesText]⟩, ⟨[], by simp [EncodesText]⟩⟩
  | cons c cs ih =>
    rw [List.flatMap_cons, List.map_append] at h2
    obtain ⟨x, r, hx, hx1, hx2⟩ := utf8Char_shape (h1 c (by simp))
    have hcs : ∀ d ∈ cs, IsScalar d := fun d hd => h1 d (List.mem_cons_of_mem _ hd)
    rcases List.append_eq_append_iff.mp h2 with ⟨t, ht1, ht2⟩ | ⟨t, ht1, ht2⟩
    · -- utf8Char c = a ++ t, b = t ++ rest
      cases t with
      | nil =>
        simp only [List.append_nil] at ht1
        exact ⟨⟨[c], by simpa using h1 c (by simp), by simp [ht1]⟩, ⟨cs, hcs, by simpa using ht2⟩⟩
      | cons y t =>
        cases a with
        | nil =>
          refine ⟨⟨[], by simp [EncodesText]⟩, ⟨c :: cs, h1, ?_⟩⟩
          rw [List.flatMap_cons]
          simpa using h2
        | cons a0 a =>
          rw [hx] at ht1
          simp only [List.map_cons, List.cons_append, List.cons.injEq] at ht1
          cases b with
          | nil => simp at ht2
          | cons b0 b =>
            simp only [List.map_cons, List.cons_append, List.cons.injEq] at ht2
            have hy := hx2 y (by rw [ht1.2]; simp)
            have := hb b0 rfl
            omega
    · -- a = utf8Char c ++ t
      have hp : utf8Char c = (a.take (utf8Char c).length).map UInt8.toNat := by
        rw [List.map_take, ht1, List.take_left]
      have hd : (a.drop (utf8Char c).length).map UInt8.toNat = t := by
        rw [List.map_drop, ht1, List.drop_left]
      have ih2 := ih (a := a.drop (utf8Char c).length) hcs (by rw [List.map_append, hd, ht2])
      refine ⟨?_, ih2.2⟩
      rw [← List.take_append_drop (utf8Char c).length a]
      exact IsUtf8.append ⟨[c], by simpa using h1 c (by simp), by simp [← hp]⟩ ih2.1

theorem isUtf8_head {b : Bytes} (h : IsUtf8 b) : ∀ c, b.head? = some c → c.toNat < 128 ∨ 192 ≤ c.toNat := by
  intro c hc
  obtain ⟨cs, h1, h2⟩ := h
  cases b with
  | nil => cases hc
  | cons b0 b =>
    simp only [List.head?_cons, Option.some.injEq] at hc
    subst hc
    cases cs with
    | nil => simp at h2
    | cons d cs =>
      obtain ⟨x, r, hx, hx1, _⟩ := utf8Char_shape (h1 d (by simp))
      rw [List.flatMap_cons, hx] at h2
      simp only [List.map_cons, List.cons_append, List.cons.injEq] at h2
      omega

theorem blank_utf8 {s : Bytes} (h : Blank s) : IsUtf8 s := by
  obtain ⟨cs, h1, _⟩ := h
  exact ⟨cs, h1⟩

theorem padded_utf8 {seg item : Bytes} (h : Padded seg item) (hu : IsUtf8 seg) : IsUtf8 item := by
  obtain ⟨l, r, rfl, hl, hr, _⟩ := h
  have h1 := (IsUtf8.cut hu (isUtf8_head (blank_utf8 hr))).1
  -- strip the prefix
  have strip : ∀ (x y : Bytes), IsUtf8 x → IsUtf8 (x ++ y) → IsUtf8 y := by
    intro x y ⟨cx, hx1, hx2⟩ ⟨cs, h1, h2⟩
    induction cx generalizing x cs with
    | nil =>
      simp only [List.flatMap_nil, List.map_eq_nil_iff] at hx2
      subst hx2
      exact ⟨cs, h1, by simpa using h2⟩
    | cons c cx ih =>
      have e : x.map UInt8.toNat = utf8Char c ++ (x.drop (utf8Char c).length).map UInt8.toNat := by
        rw [List.map_drop, hx2, List.flatMap_cons, List.drop_left]
      have e2 : (x.drop (utf8Char c).length).map UInt8.toNat = cx.flatMap utf8Char := by
        rw [List.map_drop, hx2, List.flatMap_cons, List.drop_left]
      have ht : ∀ d ∈ cx, IsScalar d := fun d hd => hx1 d (List.mem_cons_of_mem _ hd)
      -- whole text decodes with first character c
      have hw : ∃ cs', EncodesText cs' (x.drop (utf8Char c).length ++ y) := by
        cases cs with
        | nil =>
          simp only [List.map_append, List.flatMap_nil, List.append_eq_nil_iff] at h2
          rw [e] at h2
          have := h2.1
          simp only [List.append_eq_nil_iff] at this
          exact absurd this.1 (utf8Char_ne_nil c)
        | cons d cs =>
          rw [List.map_append, e, List.flatMap_cons, List.append_assoc] at h2
          cases x with
          | nil => simp at e; exact absurd e (utf8Char_ne_nil c)
          | cons x0 x =>
            have k1 := utf8Step_complete (a := x0) (rest := x ++ y) (tail := (List.drop (utf8Char c).length (x0 :: x)).map UInt8.toNat ++ y.map UInt8.toNat) (hx1 c (by simp)) (by
              have : ((x0 :: x) ++ y).map UInt8.toNat = utf8Char c ++ ((List.drop (utf8Char c).length (x0 :: x)).map UInt8.toNat ++ y.map UInt8.toNat) := by
                rw [List.map_append, e, List.append_assoc]
              exact this)
            have k2 := utf8Step_complete (a := x0) (rest := x ++ y) (tail := cs.flatMap utf8Char) (h1 d (by simp)) (by
              have : ((x0 :: x) ++ y).map UInt8.toNat = utf8Char d ++ cs.flatMap utf8Char := by
                rw [List.map_append, e, List.append_assoc, ← h2]
              exact this)
            have hl : (utf8Char c).length = (utf8Char d).length := by
              have := k1.1.symm.trans k2.1
              simpa using this
            refine ⟨cs, fun z hz => h1 z (List.mem_cons_of_mem _ hz), ?_⟩
            rw [List.map_append, ← k1.2, hl, k2.2]
      obtain ⟨cs', g1, g2⟩ := hw
      exact ih _ ht e2 cs' g1 g2
  exact strip l item (blank_utf8 hl) h1

theorem pieces_utf8 {c : UInt8} (hc : c.toNat < 128) {s : Bytes} (h : IsUtf8 s) : ∀ w ∈ splitOn c s, IsUtf8 w := by
  have key : ∀ (segs : List Bytes), IsUtf8 ([c].intercalate segs) → ∀ w ∈ segs, IsUtf8 w := by
    intro segs
    induction segs with
    | nil => simp
    | cons x r ih =>
      cases r with
      | nil => intro h w hw; simp only [List.mem_cons, List.not_mem_nil, or_false] at hw; subst hw; rwa [intercalate_one] at h
      | cons y r =>
        intro h w hw
        rw [intercalate_cons, List.append_assoc] at h
        have h1 := IsUtf8.cut h (by intro d hd; simp at hd; subst hd; exact Or.inl hc)
        simp only [List.mem_cons] at hw
        rcases hw with rfl | hw
        · exact h1.1
        · refine ih ?_ w (by simpa using hw)
          obtain ⟨cs, g1, g2⟩ := h1.2
          cases cs with
          | nil => simp at g2
          | cons d cs =>
            rw [List.flatMap_cons] at g2
            simp only [List.singleton_append, List.map_cons] at g2
            have hd : utf8Char d = [c.toNat] := by
              obtain ⟨a, r', ha, ha1, ha2⟩ := utf8Char_shape (g1 d (by simp))
              rw [ha] at g2
              simp only [List.cons_append, List.cons.injEq] at g2
              have hd128 : d < 128 := by
                have e := ha
                have e1 := g2.1
                unfold utf8Char at e
                have g := g1 d (by simp)
                unfold IsScalar at g
                repeat' split at e
                all_goals (simp only [List.cons.injEq] at e; omega)
              rw [utf8Char_1 hd128] at ha ⊢
              simp only [List.cons.injEq] at ha
              rw [g2.1, ha.1]
            rw [hd] at g2
            simp only [List.singleton_append, List.cons.injEq, true_and] at g2
            exact ⟨cs, fun z hz => g1 z (List.mem_cons_of_mem _ hz), g2⟩
  obtain ⟨_, h2, _⟩ := splitOn_pieces c s
  rw [h2] at h
  exact key _ h

theorem commaItems_utf8 {line s : Bytes} (hu : IsUtf8 line) (h : s ∈ commaItems line) : IsUtf8 s := by
  unfold commaItems at h
  simp only [ne_eq, decide_not, List.mem_filter, List.mem_map] at h
  obtain ⟨⟨w, hw, rfl⟩, _⟩ := h
  exact padded_utf8 (padded_trim w) (pieces_utf8 (by decide) hu w hw)

/-! ## Case -/

theorem sameLetter_iff (a b : UInt8) : SameLetter a b ↔ lower a = lower b := by
  unfold SameLetter lower
  have e : ∀ x : UInt8, 65 ≤ x ∧ x ≤ 90 → (x + 32).toNat = x.toNat + 32 := by
    intro x hx
    simp only [u8_le_iff, UInt8.toNat_ofNat] at hx
    rw [UInt8.toNat_add]
    simp only [UInt8.toNat_ofNat]
    omega
  constructor
  · rintro (rfl | ⟨h1, h2, rfl⟩ | ⟨h1, h2, rfl⟩)
    · rfl
    · rw [if_pos ⟨h1, h2⟩, if_neg]
      intro ⟨h3, h4⟩
      have := e a ⟨h1, h2⟩
      simp only [u8_le_iff, UInt8.toNat_ofNat] at h1 h2 h3 h4
      omega
    · rw [if_neg, if_pos ⟨h1, h2⟩]
      intro ⟨h3, h4⟩
      have := e b ⟨h1, h2⟩
      simp only [u8_le_iff, UInt8.toNat_ofNat] at h1 h2 h3 h4
      omega
  · intro h
    split at h
    · next ha =>
      split at h
      · next hb =>
        left
        apply UInt8.toNat_inj.mp
        have h1 := congrArg UInt8.toNat h
        rw [e a ha, e b hb] at h1
        omega
      · exact Or.inr (Or.inl ⟨ha.1, ha.2, h.symm⟩)
    · split at h
      · next hb => exact Or.inr (Or.inr ⟨hb.1, hb.2, h⟩)
      · exact Or.inl h

theorem sameText_iff (s t : Bytes) : SameText s t ↔ eqIgnoreCase s t = true := by
  unfold eqIgnoreCase
  rw [beq_iff_eq]
  constructor
  · intro h
    induction h with
    | nil => rfl
    | cons h _ ih => rw [List.map_cons, List.map_cons, (sameLetter_iff _ _).mp h, ih]
  · intro h
    induction s generalizing t with
    | nil => cases t with
      | nil => exact .nil
      | cons => simp at h
    | cons a s ih =>
      cases t with
      | nil => simp at h
      | cons b t =>
        simp only [List.map_cons, List.cons.injEq] at h
        exact .cons ((sameLetter_iff _ _).mpr h.1) (ih t h.2)

theorem eqIgnoreCase_refl (a : Bytes) : eqIgnoreCase a a = true := by simp [eqIgnoreCase]

theorem eqIgnoreCase_symm {a b : Bytes} (h : eqIgnoreCase a b = true) : eqIgnoreCase b a = true := by
  simp only [eqIgnoreCase, beq_iff_eq] at h ⊢; exact h.symm

theorem eqIgnoreCase_trans {a b c : Bytes} (h : eqIgnoreCase a b = true) (g : eqIgnoreCase b c = true) :
    eqIgnoreCase a c = true := by
  simp only [eqIgnoreCase, beq_iff_eq] at h g ⊢; exact h.trans g

end WS
