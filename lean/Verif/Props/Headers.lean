import Verif.Lemmas.Headers
/-!
# C43, C44: header values survive formatting and parsing
-/

namespace WS

open Spec

/-! ## C44: protocol lists -/

/-- What the parser of `Sec-WebSocket-Protocol` computes from any header lines: all elements of all
lines in order, provided every line is UTF-8; nothing otherwise. -/
theorem C44_parse_spec (lines : List Bytes) (l : List Bytes) :
    parseProtocol lines = some l ↔
      (∀ x ∈ lines, IsUtf8 x) ∧ ∃ items : List (List Bytes), items.length = lines.length ∧
        (∀ p ∈ lines.zip items, CommaList p.1 p.2) ∧ l = items.flatten := by
  unfold parseProtocol
  by_cases h : ∀ x ∈ lines, IsUtf8 x
  · rw [fromCommaDelimited_some (fun s => s) lines h]
    simp only [List.map_id_fun', id_eq, Option.some.injEq]
    constructor
    · rintro rfl
      refine ⟨h, lines.map commaItems, by simp, ?_, by rw [List.flatMap_def]⟩
      have := (zip_forall_map (l := lines) (m := lines.map commaItems) (P := CommaList)
        (fun a b => commaList_iff.trans eq_comm)).mpr rfl
      exact this.2
    · rintro ⟨_, items, h1, h2, rfl⟩
      have := (zip_forall_map (P := CommaList) (fun a b => commaList_iff.trans eq_comm)).mp ⟨h1.symm, h2⟩
      rw [this, List.flatMap_def]
  · rw [fromCommaDelimited_none _ lines h]
    constructor
    · intro hc; cases hc
    · intro ⟨hc, _⟩; exact absurd hc h

/-- Formatting a list of protocol names and parsing it back yields the list. -/
theorem C44_round_trip (l : List Bytes) (h : ∀ p ∈ l, ListItem p) :
    parseProtocol [(HVal.protocol l).fmt] = some l := by
  have hu : IsUtf8 (fmtCommaDelimited l) := joinWith_utf8 comma_space_utf8 fun x hx => (h x hx).2.2.2
  unfold parseProtocol
  rw [fromCommaDelimited_some (fun s => s) _ (by simpa [HVal.fmt] using hu)]
  simp only [List.flatMap_cons, List.flatMap_nil, List.append_nil, List.map_id_fun', id_eq, HVal.fmt]
  rw [commaItems_joined fun x hx => ⟨(h x hx).1, (h x hx).2.1, (h x hx).2.2.1⟩]

/-- Several header lines give the concatenation of their lists. -/
theorem C44_several_lines (ls : List (List Bytes)) (h : ∀ l ∈ ls, ∀ p ∈ l, ListItem p) :
    parseProtocol (ls.map fun l => (HVal.protocol l).fmt) = some ls.flatten := by
  unfold parseProtocol
  rw [fromCommaDelimited_some (fun s => s)]
  · simp only [List.map_id_fun', id_eq, List.flatMap_map, HVal.fmt]
    rw [← List.flatMap_id, List.flatMap_def, List.flatMap_def]
    congr 2
    apply List.map_congr_left
    intro l hl
    exact commaItems_joined fun x hx => ⟨(h l hl x hx).1, (h l hl x hx).2.1, (h l hl x hx).2.2.1⟩
  · intro x hx
    rw [List.mem_map] at hx
    obtain ⟨l, hl, rfl⟩ := hx
    exact joinWith_utf8 comma_space_utf8 fun x hx => (h l hl x hx).2.2.2

/-- Whatever was parsed consists of legal names, so formatting it and parsing again changes
nothing. -/
theorem C44_stable (lines : List Bytes) (l : List Bytes) (h : parseProtocol lines = some l) :
    (∀ p ∈ l, ListItem p) ∧ parseProtocol [(HVal.protocol l).fmt] = some l := by
  have h1 : ∀ p ∈ l, ListItem p := by
    by_cases hu : ∀ x ∈ lines, IsUtf8 x
    · unfold parseProtocol at h
      rw [fromCommaDelimited_some (fun s => s) lines hu] at h
      simp only [List.map_id_fun', id_eq, Option.some.injEq] at h
      subst h
      intro p hp
      rw [List.mem_flatMap] at hp
      obtain ⟨x, hx, hp⟩ := hp
      have := commaItems_ok hp
      exact ⟨this.1, this.2.1, this.2.2, commaItems_utf8 (hu x hx) hp⟩
    · unfold parseProtocol at h
      rw [fromCommaDelimited_none _ lines hu] at h
      cases h
  exact ⟨h1, C44_round_trip l h1⟩

/-- The conditions on the names are needed: a name with a comma does not come back. -/
theorem C44_comma_needed : parseProtocol [(HVal.protocol [[97, 44, 98]]).fmt] = some [[97], [98]] := by decide +kernel

/-- The hypotheses are met. -/
example : ∀ p ∈ [ascii "chat", ascii "superchat"], ListItem p := by
  intro p hp
  simp only [List.mem_cons, List.not_mem_nil, or_false] at hp
  rcases hp with rfl | rfl <;> exact listItem_of (by decide +kernel)
example : parseProtocol [ascii " chat ,, superchat", ascii "soap"] = some [ascii "chat", ascii "superchat", ascii "soap"] := by
  decide +kernel

/-! ## C43: extension lists -/

/-- Names, parameters and values that can be written: list items without `;`. Values may be any
such text, so that the `name=value` form is also one. -/
def LegalExt (e : Ext) : Prop :=
  ListItem e.name ∧ 59 ∉ e.name ∧ ∀ p ∈ e.params, ListItem p.name ∧ 59 ∉ p.name ∧ 61 ∉ p.name ∧
    ∀ v, p.value = some v → ListItem v ∧ 59 ∉ v

theorem LegalExt.tok {e : Ext} (h : LegalExt e) : Tok e.name ∧ ∀ p ∈ e.params, Tok p.fmt := by
  refine ⟨⟨h.1, h.2.1⟩, ?_⟩
  intro p hp
  obtain ⟨h1, h2, _, h4⟩ := h.2.2 p hp
  unfold Param.fmt
  cases hv : p.value with
  | none => exact ⟨h1, h2⟩
  | some v =>
    obtain ⟨h5, h6⟩ := h4 v hv
    refine ⟨⟨by simp, ?_, trimmed_eq h1.2.2.1 h5.2.2.1, ?_⟩, ?_⟩
    · simp only [List.mem_append, List.mem_cons, not_or]
      exact ⟨h1.2.1, by decide, h5.2.1⟩
    · have : p.name ++ 61 :: v = (p.name ++ [61]) ++ v := by simp
      simp only [this]
      exact IsUtf8.append (IsUtf8.append h1.2.2.2 (isUtf8_ascii (by decide))) h5.2.2.2
    · simp only [List.mem_append, List.mem_cons, not_or]
      exact ⟨h2, by decide, h6⟩

/-- What comes back from formatting and parsing: the same extensions and parameters in order, but a
parameter value ends up glued to its name. Missing for the full property: values. -/
theorem C43_round_trip_partial (l : List Ext) (h : ∀ e ∈ l, LegalExt e) :
    parseExtensions [(HVal.extensions l).fmt] =
      some (l.map fun e => ⟨e.name, e.params.map fun p => ⟨p.fmt, none⟩⟩) := by
  have hi : ∀ x ∈ l.map Ext.fmt, ListItem x := by
    intro x hx
    rw [List.mem_map] at hx
    obtain ⟨e, he, rfl⟩ := hx
    obtain ⟨h1, h2⟩ := (h e he).tok
    rw [extFmt_eq]
    apply joinWith_tok
    intro y hy
    simp only [List.mem_cons, List.mem_map] at hy
    rcases hy with rfl | ⟨p, hp, rfl⟩
    · exact h1
    · exact h2 p hp
  have hu : IsUtf8 (fmtCommaDelimited (l.map Ext.fmt)) := joinWith_utf8 comma_space_utf8 fun x hx => (hi x hx).2.2.2
  unfold parseExtensions
  rw [fromCommaDelimited_some Ext.fromStr _ (by simpa [HVal.fmt] using hu)]
  simp only [List.flatMap_cons, List.flatMap_nil, List.append_nil, HVal.fmt]
  rw [commaItems_joined fun x hx => ⟨(hi x hx).1, (hi x hx).2.1, (hi x hx).2.2.1⟩, List.map_map]
  congr 1
  apply List.map_congr_left
  intro e he
  exact ext_fromStr_fmt (h e he).tok.1 (h e he).tok.2

/-- The round trip works exactly for lists in which no parameter has a value. -/
theorem C43_round_trip_iff (l : List Ext) (h : ∀ e ∈ l, LegalExt e) :
    parseExtensions [(HVal.extensions l).fmt] = some l ↔ ∀ e ∈ l, ∀ p ∈ e.params, p.value = none := by
  rw [C43_round_trip_partial l h, Option.some.injEq]
  constructor
  · intro he e hm p hp
    have h1 : e ∈ l.map fun e => (⟨e.name, e.params.map fun p => ⟨p.fmt, none⟩⟩ : Ext) := by rw [he]; exact hm
    rw [List.mem_map] at h1
    obtain ⟨e', _, rfl⟩ := h1
    simp only [List.mem_map] at hp
    obtain ⟨p', _, rfl⟩ := hp
    rfl
  · intro hv
    conv => rhs; rw [← List.map_id l]
    apply List.map_congr_left
    intro e he
    have : (e.params.map fun p => (⟨p.fmt, none⟩ : Param)) = e.params := by
      conv => rhs; rw [← List.map_id e.params]
      apply List.map_congr_left
      intro p hp
      have := hv e he p hp
      cases p
      simp_all [Param.fmt]
    simp [this]

/-- The text is stable: formatting what was parsed gives the same header line. -/
theorem C43_text_stable (l : List Ext) (h : ∀ e ∈ l, LegalExt e) :
    ∃ l', parseExtensions [(HVal.extensions l).fmt] = some l' ∧
      (HVal.extensions l').fmt = (HVal.extensions l).fmt ∧
      l'.map Ext.name = l.map Ext.name := by
  refine ⟨_, C43_round_trip_partial l h, ?_, ?_⟩
  · simp only [HVal.fmt, List.map_map]
    congr 1
    apply List.map_congr_left
    intro e _
    simp only [Function.comp_apply, Ext.fmt, List.flatMap_map]
    congr 1
  · simp [List.map_map, Function.comp_def]

/-- The full property fails: `permessage-deflate; client_max_window_bits=15` parses to a parameter
named `client_max_window_bits=15` without a value (src/header/extensions.rs:58 calls
`splitn(1, '=')`). -/
theorem C43_refuted :
    let e : Ext := ⟨ascii "permessage-deflate", [⟨ascii "client_max_window_bits", some (ascii "15")⟩]⟩
    LegalExt e ∧ parseExtensions [(HVal.extensions [e]).fmt] =
      some [⟨ascii "permessage-deflate", [⟨ascii "client_max_window_bits=15", none⟩]⟩] := by
  refine ⟨⟨listItem_of (by decide +kernel), by decide, ?_⟩, by decide +kernel⟩
  intro p hp
  simp only [List.mem_cons, List.not_mem_nil, or_false] at hp
  subst hp
  refine ⟨listItem_of (by decide +kernel), by decide +kernel, by decide +kernel, ?_⟩
  intro v hv
  cases hv
  exact ⟨listItem_of (by decide +kernel), by decide +kernel⟩

/-! ## The theorems above on concrete lists -/

theorem exProtocols : ∀ p ∈ [ascii "chat", ascii "superchat"], ListItem p := by
  intro p hp
  simp only [List.mem_cons, List.not_mem_nil, or_false] at hp
  rcases hp with rfl | rfl <;> exact listItem_of (by decide +kernel)

example := C44_round_trip [ascii "chat", ascii "superchat"] exProtocols
example := C44_several_lines [[ascii "chat", ascii "superchat"], [], [ascii "chat", ascii "superchat"]] (by
  intro l hl p hp
  simp only [List.mem_cons, List.not_mem_nil, or_false] at hl
  rcases hl with rfl | rfl | rfl
  · exact exProtocols p hp
  · cases hp
  · exact exProtocols p hp)
example := C44_stable [ascii " chat ,, superchat", ascii "soap"] [ascii "chat", ascii "superchat", ascii "soap"] (by decide +kernel)

/-- A bare extension and one with a bare parameter. -/
def exExtensions : List Ext := [⟨ascii "x-deflate", []⟩, ⟨ascii "mux", [⟨ascii "fast", none⟩]⟩]
theorem exExtensions_legal : ∀ e ∈ exExtensions, LegalExt e := by
  intro e he
  simp only [exExtensions, List.mem_cons, List.not_mem_nil, or_false] at he
  rcases he with rfl | rfl
  · exact ⟨listItem_of (by decide +kernel), by decide, by simp⟩
  · refine ⟨listItem_of (by decide +kernel), by decide, ?_⟩
    intro p hp
    rw [List.mem_singleton] at hp
    subst hp
    exact ⟨listItem_of (by decide +kernel), by decide, by decide, by simp⟩

example := C43_round_trip_partial exExtensions exExtensions_legal
example : parseExtensions [(HVal.extensions exExtensions).fmt] = some exExtensions :=
  (C43_round_trip_iff exExtensions exExtensions_legal).mpr (by decide)
example := C43_text_stable exExtensions exExtensions_legal

end WS
