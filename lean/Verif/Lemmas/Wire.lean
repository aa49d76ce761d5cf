import Verif.Lemmas.Head
import Verif.Lemmas.Response
import Verif.Model.Httparse
/-!
# Heads on the wire

A head made of legal lines ends at its first blank line and is understood by every parser.
-/

namespace WS
open Spec

theorem findBlank_skip {c : UInt8} (h : c ≠ 13) (t : Bytes) : findBlank (c :: t) = (findBlank t).map (· + 1) := by
  match t with
  | [] => rfl
  | [_] => rfl
  | [_, _] => rfl
  | b :: d :: e :: t => rw [findBlank, if_neg (by simp [h])]

theorem findBlank_line {l : Bytes} (h : 13 ∉ l) (t : Bytes) : findBlank (l ++ t) = (findBlank t).map (· + l.length) := by
  induction l with
  | nil => simp
  | cons c l ih =>
    simp only [List.mem_cons, not_or] at h
    rw [List.cons_append, findBlank_skip (Ne.symm h.1), ih h.2]
    cases findBlank t <;> simp
    omega

theorem findBlank_lines (lines : List Bytes) (hne : lines ≠ []) (h : ∀ l ∈ lines, l ≠ [] ∧ 13 ∉ l) :
    findBlank (lines.flatMap (fun l => l ++ [13, 10]) ++ [13, 10]) = some ((lines.flatMap (fun l => l ++ [13, 10])).length - 2) := by
  induction lines with
  | nil => exact absurd rfl hne
  | cons l ls ih =>
    have hl := h l (by simp)
    simp only [List.flatMap_cons, List.append_assoc]
    rw [findBlank_line hl.2]
    cases ls with
    | nil =>
      show Option.map _ (findBlank [13, 10, 13, 10]) = _
      rw [findBlank]
      simp
    | cons l' ls =>
      have ih' := ih (by simp) (fun x hx => h x (List.mem_cons_of_mem _ hx))
      have hl' := h l' (by simp)
      obtain ⟨c, t, rfl⟩ : ∃ c t, l' = c :: t := by
        cases l' with
        | nil => exact absurd rfl hl'.1
        | cons c t => exact ⟨c, t, rfl⟩
      have hc : c ≠ 13 := by intro hc; subst hc; exact hl'.2 (by simp)
      have hstep : ∀ s : Bytes, findBlank (13 :: 10 :: c :: s) = (findBlank (c :: s)).map (· + 2) := by
        intro s
        cases s with
        | nil => rfl
        | cons e s =>
          rw [findBlank, if_neg (by simp [hc]), findBlank_skip (by decide)]
          cases findBlank (c :: e :: s) <;> simp
      simp only [List.flatMap_cons, List.cons_append, List.nil_append, List.append_assoc] at ih' ⊢
      rw [hstep, ih']
      simp
      omega

/-- A head made of legal lines ends at its first blank line. -/
theorem firstBlank_lines (lines : List Bytes) (hne : lines ≠ []) (h : ∀ l ∈ lines, l ≠ [] ∧ 13 ∉ l) (x : Bytes) :
    FirstBlank (lines.flatMap (fun l => l ++ [13, 10]) ++ [13, 10] ++ x) (lines.flatMap (fun l => l ++ [13, 10]) ++ [13, 10]) x := by
  have hf : splitOffHttp (lines.flatMap (fun l => l ++ [13, 10]) ++ [13, 10]) =
      some (lines.flatMap (fun l => l ++ [13, 10]) ++ [13, 10], []) := by
    have h2 : 2 ≤ (lines.flatMap (fun l => l ++ [13, 10])).length := by
      cases lines with
      | nil => exact absurd rfl hne
      | cons l ls => simp; omega
    unfold splitOffHttp
    rw [findBlank_lines lines hne h]
    simp only [Option.some.injEq, Prod.mk.injEq]
    constructor
    · rw [List.take_of_length_le]; simp; omega
    · rw [List.drop_eq_nil_iff]; simp; omega
  have := splitOff_iff.mp hf
  exact ⟨rfl, this.2⟩

/-- A header set with exactly these lines. -/
def headersOf (lines : List (Bytes × Bytes)) : Headers := lines.map fun e => (e.1, .raw [e.2])

theorem wire_headersOf (lines : List (Bytes × Bytes)) (h : ∀ e ∈ lines, LegalLine e) : (headersOf lines).wire = lines := by
  unfold headersOf Headers.wire
  rw [List.flatMap_map]
  induction lines with
  | nil => rfl
  | cons e t ih =>
    rw [List.flatMap_cons, ih fun x hx => h x (List.mem_cons_of_mem _ hx)]
    show (e.1, oneLine e.2) :: t = e :: t
    rw [oneLine_id fun c hc => ?_]
    have := ((h e List.mem_cons_self).2.2.1 c hc).1
    exact ⟨fun x => absurd (x ▸ this) (by decide), fun x => absurd (x ▸ this) (by decide)⟩

/-- Lines that can be sent: legal, and not too many. -/
def Sendable (lines : List (Bytes × Bytes)) : Prop := (∀ e ∈ lines, LegalLine e) ∧ lines.length ≤ maxHeaders

/-- Any parser understands a head of such lines, and takes all of it. -/
theorem parse_lines {σ line ok} (p : HeadParser σ line ok) (v : HttpVersion) (s : σ) (hok : ok v s) {lines : List (Bytes × Bytes)}
    (hs : Sendable lines) :
    p.parse (Head (line v s) lines) = .complete ⟨v, s, .fromRaw lines⟩ (Head (line v s) lines).length := by
  have h := p.parse_fmt ⟨v, s, headersOf lines⟩ hok (by unfold Headers.Sendable; rw [wire_headersOf _ hs.1]; exact hs)
  rw [head_fmt, wire_headersOf _ hs.1] at h
  exact h

theorem head_lines (start : Bytes) (lines : List (Bytes × Bytes)) :
    Head start lines = (start :: lines.map fun e => e.1 ++ [58, 32] ++ e.2).flatMap (fun l => l ++ [13, 10]) ++ [13, 10] := by
  have hc : ascii ": " = [58, 32] := by decide +kernel
  have hn : ascii "\r\n" = [13, 10] := by decide +kernel
  unfold Head
  rw [List.flatMap_cons, List.flatMap_map, hc, hn]

theorem firstBlank_head {start : Bytes} (hs : start ≠ []) (hc : 13 ∉ start) {lines : List (Bytes × Bytes)}
    (hl : ∀ e ∈ lines, LegalLine e) (x : Bytes) : FirstBlank (Head start lines ++ x) (Head start lines) x := by
  rw [head_lines]
  refine firstBlank_lines _ (by simp) ?_ x
  intro l h
  rcases List.mem_cons.mp h with rfl | h
  · exact ⟨hs, hc⟩
  · obtain ⟨e, he, rfl⟩ := List.mem_map.mp h
    obtain ⟨g1, g2, g3, -⟩ := hl e he
    refine ⟨by simp, fun hc => ?_⟩
    simp only [List.mem_append, List.mem_cons, List.not_mem_nil, or_false] at hc
    rcases hc with (hc | hc) | hc
    · exact absurd (tchar_lt (g2 _ hc)).1 (by decide)
    · rcases hc with hc | hc <;> exact absurd hc (by decide)
    · exact absurd (g3 _ hc).1 (by decide)

end WS
