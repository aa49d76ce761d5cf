import Verif.Lemmas.Wire
import Verif.Lemmas.Builder
import Verif.Spec.Inject
import Verif.Lemmas.Each
/-!
# What goes into a header map comes out as lines

Invariants of header maps under everything builders and upgrades do to them.
-/

namespace WS
open Spec

/-! ## Counting lines -/

/-- The number of lines an entry has. -/
def linesAt (n : Bytes) (h : Headers) : Nat := match h.item n with | some it => it.lines.length | none => 0

theorem wire_cons (e : Bytes × HItem) (h : Headers) : Headers.wire (e :: h) = (e.2.lines.map fun l => (e.1, l)) ++ Headers.wire h := rfl

theorem wire_insert (n : Bytes) (it : HItem) (h : Headers) :
    (Headers.insert n it h).wire.length + linesAt n h = h.wire.length + it.lines.length := by
  induction h with
  | nil => simp [Headers.insert, Headers.wire, linesAt]
  | cons e h ih =>
    unfold Headers.insert
    unfold linesAt at ih ⊢
    rw [item_cons]
    split
    · simp only [wire_cons, List.length_append, List.length_map]; omega
    · simp only [wire_cons, List.length_append, List.length_map]; omega

theorem wire_remove (n : Bytes) (h : Headers) : (Headers.remove n h).wire.length + linesAt n h = h.wire.length := by
  induction h with
  | nil => simp [Headers.remove, Headers.wire, linesAt]
  | cons e h ih =>
    unfold Headers.remove
    unfold linesAt at ih ⊢
    rw [item_cons]
    split
    · simp only [wire_cons, List.length_append, List.length_map]; omega
    · simp only [wire_cons, List.length_append, List.length_map]; omega

/-- How many of these names have an entry. -/
def present (ns : List Bytes) (h : Headers) : Nat := ns.countP fun n => (h.item n).isSome

theorem present_le (ns : List Bytes) (h : Headers) : present ns h ≤ ns.length := List.countP_le_length

theorem countP_more {α} (l : List α) (p q : α → Bool) (hpq : ∀ x ∈ l, p x = true → q x = true) {a : α} (ha : a ∈ l) (hp : p a = false) (hq : q a = true) :
    l.countP p + 1 ≤ l.countP q := by
  induction l with
  | nil => cases ha
  | cons b l ih =>
    rw [List.countP_cons, List.countP_cons]
    rcases List.mem_cons.mp ha with rfl | ha
    · have := List.countP_mono_left fun x hx => hpq x (List.mem_cons_of_mem _ hx)
      simp only [hp, hq, Bool.false_eq_true, if_false, if_true]
      omega
    · have := ih (fun x hx => hpq x (List.mem_cons_of_mem _ hx)) ha
      have hb := hpq b List.mem_cons_self
      cases hpb : p b <;> cases hqb : q b <;> simp only [hpb, hqb, Bool.false_eq_true, if_false, if_true] at hb ⊢ <;> simp at hb <;> omega

theorem present_insert {ns : List Bytes} {n : Bytes} (it : HItem) (h : Headers) : present ns h ≤ present ns (Headers.insert n it h) := by
  unfold present
  refine List.countP_mono_left fun x _ hx => ?_
  rw [item_insert]
  split
  · rfl
  · exact hx

theorem present_insert_new {ns : List Bytes} {n : Bytes} (hn : n ∈ ns) (it : HItem) {h : Headers} (hi : h.item n = none) :
    present ns h + 1 ≤ present ns (Headers.insert n it h) := by
  refine countP_more ns _ _ (fun x _ hx => ?_) hn (by rw [hi]; rfl) (by rw [item_insert_same]; rfl)
  rw [item_insert]
  split
  · rfl
  · exact hx

theorem present_remove {ns : List Bytes} (hd : ns.Pairwise fun a b => eqIgnoreCase a b = false) {h : Headers} (hu : h.Unique) (n : Bytes) :
    present ns h ≤ present ns (Headers.remove n h) + 1 := by
  unfold present
  induction ns with
  | nil => simp
  | cons a ns ih =>
    rw [List.pairwise_cons] at hd
    rw [List.countP_cons, List.countP_cons, item_remove hu]
    by_cases ha : eqIgnoreCase n a = true
    · rw [if_pos ha]
      have : ns.countP (fun x => (h.item x).isSome) = ns.countP (fun x => ((Headers.remove n h).item x).isSome) := by
        refine List.countP_congr fun x hx => ?_
        rw [item_remove hu, if_neg]
        have := hd.1 x hx
        rw [← eqIgnoreCase_congr ha, ] at this
        simp [this]
      rw [this]
      split <;> simp <;> omega
    · rw [if_neg ha]
      have := ih hd.2
      omega

/-- The bound: each of the names `ns` adds one line at most, everything else counts for itself. -/
def Bounded (ns : List Bytes) (k : Nat) (h : Headers) : Prop :=
  h.Unique ∧ (∀ e ∈ h, e.2.lines ≠ []) ∧ h.wire.length ≤ present ns h + k

theorem linesAt_pos {h : Headers} (hh : ∀ e ∈ h, e.2.lines ≠ []) {n : Bytes} (hi : h.item n ≠ none) : 1 ≤ linesAt n h := by
  unfold linesAt
  cases hx : h.item n with
  | none => exact absurd hx hi
  | some it =>
    obtain ⟨m, hm, _⟩ := item_entry hx
    have := hh _ hm
    simp only at this ⊢
    cases hl : it.lines with
    | nil => exact absurd hl this
    | cons a l => simp

theorem Bounded.mono {ns : List Bytes} {k k' : Nat} {h : Headers} (hb : Bounded ns k h) (hk : k ≤ k') : Bounded ns k' h :=
  ⟨hb.1, hb.2.1, Nat.le_trans hb.2.2 (Nat.add_le_add_left hk _)⟩

theorem Bounded.set {ns : List Bytes} {k : Nat} {h : Headers} (hb : Bounded ns k h) {n : Bytes} (hn : n ∈ ns) (v : HVal) :
    Bounded ns k (Headers.insert n (.typed v) h) := by
  obtain ⟨h1, h2, h3⟩ := hb
  refine ⟨unique_insert h1 _ _, all_insert (P := fun e => e.2.lines ≠ []) h2 (by simp [HItem.lines]), ?_⟩
  have hw := wire_insert n (.typed v) h
  have h1 : (HItem.lines (.typed v)).length = 1 := rfl
  rw [h1] at hw
  cases hi : h.item n with
  | none =>
    have := present_insert_new hn (.typed v) hi
    omega
  | some it =>
    have := linesAt_pos h2 (n := n) (by rw [hi]; simp)
    have := present_insert (ns := ns) (n := n) (.typed v) h
    omega

theorem Bounded.add {ns : List Bytes} {k : Nat} {h : Headers} (hb : Bounded ns k h) (n : Bytes) (it : HItem) (hi : it.lines ≠ []) :
    Bounded ns (k + it.lines.length) (Headers.insert n it h) := by
  obtain ⟨h1, h2, h3⟩ := hb
  refine ⟨unique_insert h1 _ _, all_insert (P := fun e => e.2.lines ≠ []) h2 hi, ?_⟩
  have hw := wire_insert n it h
  have := present_insert (ns := ns) (n := n) it h
  omega

theorem Bounded.extend {ns : List Bytes} {k : Nat} {h : Headers} (hb : Bounded ns k h) (c : Headers) (hc : ∀ e ∈ c, e.2.lines ≠ []) :
    Bounded ns (k + c.wire.length) (h.extend c) := by
  unfold Headers.extend
  induction c generalizing h k with
  | nil => exact hb
  | cons e c ih =>
    have := ih (hb.add e.1 e.2 (hc e List.mem_cons_self)) fun x hx => hc x (List.mem_cons_of_mem _ hx)
    rw [wire_cons, List.length_append, List.length_map, ← Nat.add_assoc]
    exact this

theorem Bounded.remove {ns : List Bytes} (hd : ns.Pairwise fun a b => eqIgnoreCase a b = false) {k : Nat} {h : Headers} (hb : Bounded ns k h) (n : Bytes) :
    Bounded ns k (Headers.remove n h) := by
  obtain ⟨h1, h2, h3⟩ := hb
  refine ⟨unique_remove h1 _, all_remove (P := fun e => e.2.lines ≠ []) h2 n, ?_⟩
  have hw := wire_remove n h
  by_cases hi : h.item n = none
  · have : present ns (Headers.remove n h) = present ns h := by
      unfold present
      refine List.countP_congr fun x _ => ?_
      rw [item_remove h1]
      split
      · rename_i hx
        have e : Headers.item x h = Headers.item n h := by
          unfold Headers.item
          congr 2
          funext e
          rw [eqIgnoreCase_comm, ← eqIgnoreCase_congr hx, eqIgnoreCase_comm]
        rw [e, hi]
      · rfl
    omega
  · have := linesAt_pos h2 hi
    have := present_remove hd h1 n
    omega

theorem Bounded.upsertProtocol {ns : List Bytes} {k : Nat} {h : Headers} (hb : Bounded ns k h) (hn : nProtocol ∈ ns) (xs : List Bytes) :
    Bounded ns k (h.upsertProtocol xs) := by
  unfold Headers.upsertProtocol
  split
  · split
    · exact hb.set hn _
    · exact hb
  · exact hb.set hn _

theorem Bounded.upsertExtensions {ns : List Bytes} {k : Nat} {h : Headers} (hb : Bounded ns k h) (hn : nExtensions ∈ ns) (xs : List Ext) :
    Bounded ns k (h.upsertExtensions xs) := by
  unfold Headers.upsertExtensions
  split
  · split
    · exact hb.set hn _
    · exact hb
  · exact hb.set hn _

theorem Bounded.init (ns : List Bytes) : Bounded ns 0 ([] : Headers) := ⟨List.Pairwise.nil, by simp, by simp [Headers.wire]⟩

/-! ## Lines -/

theorem oneLine_is_inline (v : Bytes) : Inline (oneLine v) := by
  unfold oneLine Inline
  constructor <;> intro h <;> obtain ⟨c, _, hc⟩ := List.mem_map.mp h <;> split at hc <;> simp_all

theorem lines_inline (it : HItem) : ∀ l ∈ it.lines, Inline l := by
  cases it with
  | raw ls =>
    intro l hl
    obtain ⟨x, _, rfl⟩ := List.mem_map.mp hl
    exact oneLine_is_inline x
  | typed v =>
    intro l hl
    rw [List.mem_singleton.mp hl]
    exact oneLine_is_inline _

theorem mem_wire {h : Headers} {e : Bytes × Bytes} (he : e ∈ h.wire) : ∃ it, (e.1, it) ∈ h ∧ e.2 ∈ it.lines := by
  unfold Headers.wire at he
  obtain ⟨a, ha, hb⟩ := List.mem_flatMap.mp he
  obtain ⟨l, hl, rfl⟩ := List.mem_map.mp hb
  exact ⟨a.2, ha, hl⟩

theorem head_linesAre {start : Bytes} (hs : Inline start) {lines : List (Bytes × Bytes)} (hl : ∀ e ∈ lines, Inline e.1 ∧ Inline e.2) :
    LinesAre (Head start lines) (start :: (lines.map fun e => e.1 ++ ascii ": " ++ e.2) ++ [[]]) := by
  have hc : ascii ": " = [58, 32] := by decide +kernel
  refine ⟨?_, ?_⟩
  · intro l h
    simp only [List.cons_append, List.mem_cons, List.mem_append, List.mem_map, List.not_mem_nil, or_false] at h
    rcases h with rfl | ⟨e, he, rfl⟩ | rfl
    · exact hs
    · exact inline_append (inline_append (hl e he).1 (by rw [hc]; decide)) (hl e he).2
    · decide
  · rw [head_lines, hc]
    simp

theorem linesAre_inj {s : Bytes} {a b : List Bytes} (ha : LinesAre s a) (hb : LinesAre s b) : a = b := by
  obtain ⟨h1, rfl⟩ := ha
  obtain ⟨h2, h3⟩ := hb
  induction a generalizing b with
  | nil =>
    cases b with
    | nil => rfl
    | cons y b => simp at h3
  | cons x a ih =>
    cases b with
    | nil => simp at h3
    | cons y b =>
      rw [List.flatMap_cons, List.flatMap_cons] at h3
      have hx := (h1 x List.mem_cons_self).1
      have hy := (h2 y List.mem_cons_self).1
      have : x = y := by
        have key : ∀ (x y r r' : Bytes), 13 ∉ x → 13 ∉ y → x ++ 13 :: r = y ++ 13 :: r' → x = y := by
          intro x
          induction x with
          | nil =>
            intro y r r' _ hy he
            cases y with
            | nil => rfl
            | cons c y => simp at he; simp [← he.1] at hy
          | cons c x ihx =>
            intro y r r' hx hy he
            cases y with
            | nil => simp at he; simp [he.1] at hx
            | cons d y =>
              simp only [List.cons_append, List.cons.injEq] at he
              rw [he.1, ihx y r r' (fun h => hx (List.mem_cons_of_mem _ h)) (fun h => hy (List.mem_cons_of_mem _ h)) he.2]
        refine key x y (10 :: a.flatMap fun l => l ++ [13, 10]) (10 :: b.flatMap fun l => l ++ [13, 10]) hx hy ?_
        simpa using h3
      subst this
      rw [ih (fun l hl => h1 l (List.mem_cons_of_mem _ hl)) (fun l hl => h2 l (List.mem_cons_of_mem _ hl)) (List.append_cancel_left h3)]

end WS
