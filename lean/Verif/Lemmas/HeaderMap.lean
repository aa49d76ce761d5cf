import Verif.Lemmas.Headers
import Verif.Spec.Handshake
/-!
# The header map
-/

namespace WS

open Spec

/-- Name equality as equality of keys. -/
theorem eqIgnoreCase_iff {a b : Bytes} : eqIgnoreCase a b = true ↔ a.map lower = b.map lower := by
  simp [eqIgnoreCase]

theorem eqIgnoreCase_congr {a b c : Bytes} (h : eqIgnoreCase a b = true) : eqIgnoreCase a c = eqIgnoreCase b c := by
  rw [eqIgnoreCase_iff] at h
  simp [eqIgnoreCase, h]

theorem eqIgnoreCase_comm (a b : Bytes) : eqIgnoreCase a b = eqIgnoreCase b a := by
  simp only [eqIgnoreCase, Bool.beq_comm]

@[simp] theorem item_nil (n : Bytes) : Headers.item n [] = none := rfl

theorem item_cons (e : Bytes × HItem) (h : Headers) (n : Bytes) :
    Headers.item n (e :: h) = if eqIgnoreCase e.1 n then some e.2 else Headers.item n h := by
  unfold Headers.item
  rw [List.find?_cons]
  split <;> simp_all

theorem item_insert (n m : Bytes) (it : HItem) (h : Headers) :
    (Headers.insert n it h).item m = if eqIgnoreCase n m then some it else h.item m := by
  induction h with
  | nil => simp [Headers.insert, item_cons]
  | cons e rest ih =>
    unfold Headers.insert
    by_cases hc : eqIgnoreCase e.1 n = true
    · rw [if_pos hc, item_cons, item_cons, eqIgnoreCase_congr hc]
      split <;> rfl
    · rw [if_neg hc, item_cons, item_cons, ih]
      by_cases h1 : eqIgnoreCase e.1 m = true
      · rw [if_pos h1, if_pos h1, if_neg]
        intro h2
        exact hc (eqIgnoreCase_trans h1 (eqIgnoreCase_symm h2))
      · rw [if_neg h1, if_neg h1]

theorem item_insert_same (n : Bytes) (it : HItem) (h : Headers) : (Headers.insert n it h).item n = some it := by
  rw [item_insert, if_pos (eqIgnoreCase_refl n)]

theorem item_insert_other {n m : Bytes} (hne : eqIgnoreCase n m = false) (it : HItem) (h : Headers) :
    (Headers.insert n it h).item m = h.item m := by
  rw [item_insert, hne]; rfl

/-- No two entries with the same name. -/
def Headers.Unique (h : Headers) : Prop := h.Pairwise fun a b => eqIgnoreCase a.1 b.1 = false

theorem mem_insert {n : Bytes} {it : HItem} {h : Headers} {e : Bytes × HItem} (hm : e ∈ Headers.insert n it h) :
    e = (n, it) ∨ e ∈ h := by
  induction h with
  | nil => simp [Headers.insert] at hm; exact Or.inl hm
  | cons a rest ih =>
    unfold Headers.insert at hm
    split at hm
    · rcases List.mem_cons.mp hm with rfl | hm
      · exact Or.inl rfl
      · exact Or.inr (List.mem_cons_of_mem _ hm)
    · rcases List.mem_cons.mp hm with rfl | hm
      · exact Or.inr (by simp)
      · rcases ih hm with h1 | h1
        · exact Or.inl h1
        · exact Or.inr (List.mem_cons_of_mem _ h1)

theorem unique_insert {h : Headers} (hu : h.Unique) (n : Bytes) (it : HItem) : (Headers.insert n it h).Unique := by
  induction h with
  | nil => simp [Headers.insert, Headers.Unique]
  | cons a rest ih =>
    unfold Headers.Unique at hu
    rw [List.pairwise_cons] at hu
    unfold Headers.insert
    by_cases hc : eqIgnoreCase a.1 n = true
    · rw [if_pos hc]
      unfold Headers.Unique
      rw [List.pairwise_cons]
      refine ⟨?_, hu.2⟩
      intro b hb
      have := hu.1 b hb
      rwa [eqIgnoreCase_congr hc] at this
    · rw [if_neg hc]
      unfold Headers.Unique
      rw [List.pairwise_cons]
      refine ⟨?_, ih hu.2⟩
      intro b hb
      rcases mem_insert hb with rfl | hb
      · simpa using hc
      · exact hu.1 b hb

theorem mem_remove {n : Bytes} {h : Headers} {e : Bytes × HItem} (hm : e ∈ Headers.remove n h) : e ∈ h := by
  induction h with
  | nil => simp [Headers.remove] at hm
  | cons a rest ih =>
    unfold Headers.remove at hm
    split at hm
    · exact List.mem_cons_of_mem _ hm
    · rcases List.mem_cons.mp hm with rfl | hm
      · simp
      · exact List.mem_cons_of_mem _ (ih hm)

theorem unique_remove {h : Headers} (hu : h.Unique) (n : Bytes) : (Headers.remove n h).Unique := by
  induction h with
  | nil => simp [Headers.remove, Headers.Unique]
  | cons a rest ih =>
    unfold Headers.Unique at hu
    rw [List.pairwise_cons] at hu
    unfold Headers.remove
    split
    · exact hu.2
    · unfold Headers.Unique
      rw [List.pairwise_cons]
      exact ⟨fun b hb => hu.1 b (mem_remove hb), ih hu.2⟩

theorem item_none_iff {n : Bytes} {h : Headers} : h.item n = none ↔ ∀ e ∈ h, eqIgnoreCase e.1 n = false := by
  induction h with
  | nil => simp
  | cons a rest ih =>
    rw [item_cons]
    by_cases hc : eqIgnoreCase a.1 n = true
    · simp [hc]
    · simp [hc, ih]

theorem item_remove {h : Headers} (hu : h.Unique) (n m : Bytes) :
    (Headers.remove n h).item m = if eqIgnoreCase n m then none else h.item m := by
  induction h with
  | nil => simp [Headers.remove]
  | cons a rest ih =>
    unfold Headers.Unique at hu
    rw [List.pairwise_cons] at hu
    unfold Headers.remove
    by_cases hc : eqIgnoreCase a.1 n = true
    · rw [if_pos hc, item_cons, eqIgnoreCase_congr hc]
      split
      · rename_i h1
        rw [item_none_iff]
        intro e he
        have h2 := hu.1 e he
        rw [eqIgnoreCase_congr hc, eqIgnoreCase_congr h1] at h2
        rw [eqIgnoreCase_comm]; exact h2
      · rfl
    · rw [if_neg hc, item_cons, item_cons, ih hu.2]
      by_cases h1 : eqIgnoreCase a.1 m = true
      · rw [if_pos h1, if_pos h1, if_neg]
        intro h2
        exact hc (eqIgnoreCase_trans h1 (eqIgnoreCase_symm h2))
      · rw [if_neg h1, if_neg h1]

theorem unique_extend {h : Headers} (hu : h.Unique) (c : Headers) : (h.extend c).Unique := by
  unfold Headers.extend
  induction c generalizing h with
  | nil => exact hu
  | cons e c ih => exact ih (unique_insert hu _ _)

/-- After `extend` a name has the last item the extension gives it, or else its old one. -/
theorem item_extend (h c : Headers) (n : Bytes) :
    (h.extend c).item n = ((Headers.item n c.reverse).or (h.item n)) := by
  unfold Headers.extend
  induction c generalizing h with
  | nil => simp
  | cons e c ih =>
    rw [List.foldl_cons, ih, List.reverse_cons, item_insert]
    have : Headers.item n (c.reverse ++ [e]) = (Headers.item n c.reverse).or (if eqIgnoreCase e.1 n then some e.2 else none) := by
      generalize c.reverse = d
      induction d with
      | nil => simp [item_cons]
      | cons a d ih => rw [List.cons_append, item_cons, item_cons, ih]; split <;> simp
    rw [this]
    cases Headers.item n c.reverse with
    | some x => simp
    | none => simp only [Option.none_or]; split <;> simp

theorem item_reverse {h : Headers} (hu : h.Unique) (n : Bytes) : Headers.item n h.reverse = h.item n := by
  cases hi : h.item n with
  | none =>
    rw [item_none_iff] at hi ⊢
    intro e he
    exact hi e (List.mem_reverse.mp he)
  | some x =>
    have key : ∀ (l : Headers) (a : Bytes × HItem), a ∈ l → eqIgnoreCase a.1 n = true →
        l.Pairwise (fun a b => eqIgnoreCase a.1 b.1 = false ∧ eqIgnoreCase b.1 a.1 = false) → l.item n = some a.2 := by
      intro l a ha hn hp
      induction l with
      | nil => cases ha
      | cons b l ih =>
        rw [List.pairwise_cons] at hp
        rw [item_cons]
        rcases List.mem_cons.mp ha with rfl | ha
        · rw [if_pos hn]
        · rw [if_neg, ih ha hp.2]
          intro hb
          have := (hp.1 a ha).1
          rw [eqIgnoreCase_congr hb, eqIgnoreCase_comm, hn] at this
          cases this
    have hp : h.Pairwise (fun a b => eqIgnoreCase a.1 b.1 = false ∧ eqIgnoreCase b.1 a.1 = false) :=
      hu.imp fun hx => ⟨hx, by rw [eqIgnoreCase_comm]; exact hx⟩
    unfold Headers.item at hi
    cases hf : h.find? fun e => eqIgnoreCase e.1 n with
    | none => rw [hf] at hi; cases hi
    | some a =>
      rw [hf] at hi
      simp only [Option.map_some, Option.some.injEq] at hi
      subst hi
      have h1 := List.mem_of_find?_eq_some hf
      have h2 := List.find?_some hf
      refine key h.reverse a (List.mem_reverse.mpr h1) h2 ?_
      rw [List.pairwise_reverse]
      exact hp.imp fun hx => ⟨hx.2, hx.1⟩

/-! ## Received headers -/

theorem trimSpacesEnd_append (v : Bytes) (k : Nat) (h : v.getLast? ≠ some 32) :
    trimSpacesEnd (v ++ List.replicate k 32) = v := by
  unfold trimSpacesEnd
  rw [List.reverse_append, List.reverse_replicate, List.dropWhile_append]
  have h1 : (List.replicate k (32 : UInt8)).dropWhile (· = 32) = [] := by
    induction k with
    | zero => rfl
    | succ k ih => rw [List.replicate_succ, List.dropWhile_cons_of_pos (by simp), ih]
  simp only [h1, List.isEmpty_nil, if_true]
  have h2 : v.reverse.dropWhile (fun x => decide (x = 32)) = v.reverse := by
    cases hr : v.reverse with
    | nil => rfl
    | cons a t =>
      have : v.getLast? = some a := by rw [List.getLast?_eq_head?_reverse, hr]; rfl
      rw [List.dropWhile_cons_of_neg]
      simp only [decide_eq_true_eq]
      rintro rfl
      exact h this
  rw [h2, List.reverse_reverse]

theorem trimSpacesEnd_spec (v : Bytes) :
    ∃ k, v = trimSpacesEnd v ++ List.replicate k 32 ∧ (trimSpacesEnd v).getLast? ≠ some 32 := by
  have h := List.takeWhile_append_dropWhile (p := fun x : UInt8 => decide (x = 32)) (l := v.reverse)
  refine ⟨(v.reverse.takeWhile fun x => decide (x = 32)).length, ?_, ?_⟩
  · have h2 : (v.reverse.takeWhile fun x => decide (x = 32)) =
        List.replicate (v.reverse.takeWhile fun x => decide (x = 32)).length 32 := by
      rw [List.eq_replicate_iff]
      refine ⟨rfl, fun b hb => ?_⟩
      have h5 : ∀ (l : Bytes), ∀ b ∈ l.takeWhile (fun x => decide (x = 32)), b = 32 := by
        intro l
        induction l with
        | nil => intro b hb; cases hb
        | cons a l ih =>
          intro b hb
          by_cases ha : a = 32
          · rw [List.takeWhile_cons_of_pos (by simpa using ha)] at hb
            rcases List.mem_cons.mp hb with rfl | hb
            · exact ha
            · exact ih b hb
          · rw [List.takeWhile_cons_of_neg (by simpa using ha)] at hb
            cases hb
      exact h5 _ b hb
    have h3 : v = (v.reverse.dropWhile fun x => decide (x = 32)).reverse ++
        (v.reverse.takeWhile fun x => decide (x = 32)).reverse := by
      rw [← List.reverse_append, h, List.reverse_reverse]
    have h4 : (v.reverse.takeWhile fun x => decide (x = 32)).reverse =
        List.replicate (v.reverse.takeWhile fun x => decide (x = 32)).length 32 := by
      conv => lhs; rw [h2]
      rw [List.reverse_replicate]
    rw [h4] at h3
    exact h3
  · unfold trimSpacesEnd
    rw [List.getLast?_reverse]
    intro hc
    have := List.head?_dropWhile_not (fun x : UInt8 => decide (x = 32)) v.reverse
    rw [hc] at this
    simp at this

theorem oneLine_id {v : Bytes} (h : ∀ c ∈ v, c ≠ 13 ∧ c ≠ 10) : oneLine v = v := by
  unfold oneLine
  conv => rhs; rw [← List.map_id v]
  refine List.map_congr_left fun c hc => ?_
  rw [if_neg (by have := h c hc; rintro (x | x); exact this.1 x; exact this.2 x)]
  rfl

theorem oneLine_inline {v : Bytes} (h : Spec.Inline v) : oneLine v = v :=
  oneLine_id fun _ hc => ⟨fun x => h.1 (x ▸ hc), fun x => h.2 (x ▸ hc)⟩

theorem trimSpacesEnd_id {v : Bytes} (h : v.getLast? ≠ some 32) : trimSpacesEnd v = v := by
  have := trimSpacesEnd_append v 0 h
  simpa using this

/-- The values of a name, computed. -/
def valuesOf (name : Bytes) (ls : List (Bytes × Bytes)) : List Bytes :=
  (ls.filter fun e => eqIgnoreCase e.1 name).map fun e => trimSpacesEnd e.2

theorem values_iff {name : Bytes} {ls : List (Bytes × Bytes)} {vs : List Bytes} :
    Values name ls vs ↔ vs = valuesOf name ls := by
  constructor
  · intro h
    induction h with
    | nil => rfl
    | @hit n v k ls vs hn hv _ ih =>
      rw [sameText_iff] at hn
      simp only [valuesOf] at *
      rw [List.filter_cons, if_pos hn, List.map_cons, trimSpacesEnd_append v k hv, ih]
    | @miss n v ls vs hn _ ih =>
      rw [sameText_iff] at hn
      simp only [valuesOf] at *
      rw [List.filter_cons, if_neg hn, ih]
  · rintro rfl
    induction ls with
    | nil => exact .nil
    | cons e ls ih =>
      obtain ⟨n, v⟩ := e
      simp only [valuesOf] at *
      rw [List.filter_cons]
      by_cases hn : eqIgnoreCase n name = true
      · rw [if_pos hn, List.map_cons]
        obtain ⟨k, h1, h2⟩ := trimSpacesEnd_spec v
        have := Values.hit (name := name) (k := k) ((sameText_iff _ _).mpr hn) h2 ih
        simp only [← h1] at this
        exact this
      · rw [if_neg hn]
        exact .miss (fun hc => hn ((sameText_iff _ _).mp hc)) ih

/-- Only raw items. -/
def Headers.AllRaw (h : Headers) : Prop := ∀ e ∈ h, ∃ ls, e.2 = .raw ls

theorem item_addRaw {h : Headers} (hr : h.AllRaw) (n v m : Bytes) :
    (Headers.addRaw n v h).AllRaw ∧
    (Headers.addRaw n v h).item m =
      if eqIgnoreCase n m then
        some (.raw ((match h.item m with | some (.raw ls) => ls | _ => []) ++ [v]))
      else h.item m := by
  induction h with
  | nil =>
    refine ⟨?_, by simp [Headers.addRaw, item_cons]⟩
    intro e he
    simp [Headers.addRaw] at he
    exact ⟨[v], by rw [he]⟩
  | cons a rest ih =>
    have ih := ih (fun e he => hr e (List.mem_cons_of_mem _ he))
    obtain ⟨k, it⟩ := a
    obtain ⟨ls, hls⟩ := hr (k, it) (by simp)
    simp only at hls
    subst hls
    unfold Headers.addRaw
    by_cases hc : eqIgnoreCase k n = true
    · rw [if_pos hc]
      constructor
      · intro e he
        rcases List.mem_cons.mp he with rfl | he
        · exact ⟨_, rfl⟩
        · exact hr e (List.mem_cons_of_mem _ he)
      · rw [item_cons, item_cons]
        simp only [eqIgnoreCase_congr hc]
        split <;> simp
    · rw [if_neg hc]
      constructor
      · intro e he
        rcases List.mem_cons.mp he with rfl | he
        · exact ⟨_, rfl⟩
        · exact ih.1 e he
      · rw [item_cons, item_cons, ih.2]
        simp only
        by_cases h1 : eqIgnoreCase k m = true
        · rw [if_pos h1, if_neg]
          · simp [h1]
          · intro h2
            exact hc (eqIgnoreCase_trans h1 (eqIgnoreCase_symm h2))
        · simp [h1]

/-- What a received header map holds under a name: all its lines in order. -/
theorem item_fromRaw (ls : List (Bytes × Bytes)) (n : Bytes) :
    (Headers.fromRaw ls).item n = if valuesOf n ls = [] then none else some (.raw (valuesOf n ls)) := by
  have key : ∀ (ls : List (Bytes × Bytes)) (h : Headers), h.AllRaw →
      (ls.foldl (fun h e => Headers.addRaw e.1 (trimSpacesEnd e.2) h) h).item n =
        if valuesOf n ls = [] then h.item n
        else some (.raw ((match h.item n with | some (.raw l) => l | _ => []) ++ valuesOf n ls)) := by
    intro ls
    induction ls with
    | nil => intro h _; simp [valuesOf]
    | cons e ls ih =>
      intro h hr
      have ha := item_addRaw hr e.1 (trimSpacesEnd e.2) n
      rw [List.foldl_cons, ih _ ha.1, ha.2]
      by_cases hc : eqIgnoreCase e.1 n = true
      · simp only [hc, if_true]
        have hv : valuesOf n (e :: ls) = trimSpacesEnd e.2 :: valuesOf n ls := by
          simp [valuesOf, hc]
        rw [hv, if_neg (List.cons_ne_nil _ _)]
        by_cases h0 : valuesOf n ls = []
        · rw [if_pos h0, h0]
        · rw [if_neg h0]; simp
      · have hv : valuesOf n (e :: ls) = valuesOf n ls := by simp [valuesOf, hc]
        simp only [hc, hv]
        rfl
  have := key ls [] (by intro e he; cases he)
  simpa [Headers.fromRaw] using this

theorem unique_addRaw {h : Headers} (hu : h.Unique) (n v : Bytes) : (Headers.addRaw n v h).Unique := by
  induction h with
  | nil => simp [Headers.addRaw, Headers.Unique]
  | cons a rest ih =>
    obtain ⟨k, it⟩ := a
    unfold Headers.Unique at hu
    rw [List.pairwise_cons] at hu
    unfold Headers.addRaw
    by_cases hc : eqIgnoreCase k n = true
    · rw [if_pos hc]
      unfold Headers.Unique
      cases it <;> exact List.pairwise_cons.mpr hu
    · rw [if_neg hc]
      unfold Headers.Unique
      refine List.pairwise_cons.mpr ⟨?_, ih hu.2⟩
      have : ∀ (l : Headers) (b : Bytes × HItem), b ∈ Headers.addRaw n v l → b.1 = n ∨ ∃ c ∈ l, c.1 = b.1 := by
        intro l
        induction l with
        | nil => intro b hb; simp [Headers.addRaw] at hb; exact Or.inl (by rw [hb])
        | cons c l ih =>
          intro b hb
          obtain ⟨k', it'⟩ := c
          unfold Headers.addRaw at hb
          split at hb
          · cases it' with
            | raw lines =>
              rcases List.mem_cons.mp hb with rfl | hb
              · exact Or.inr ⟨(k', .raw lines), List.mem_cons_self, rfl⟩
              · exact Or.inr ⟨b, List.mem_cons_of_mem _ hb, rfl⟩
            | typed x =>
              rcases List.mem_cons.mp hb with rfl | hb
              · exact Or.inr ⟨(k', .typed x), List.mem_cons_self, rfl⟩
              · exact Or.inr ⟨b, List.mem_cons_of_mem _ hb, rfl⟩
          · rcases List.mem_cons.mp hb with rfl | hb
            · exact Or.inr ⟨_, by simp, rfl⟩
            · rcases ih b hb with h1 | ⟨c, hc, h1⟩
              · exact Or.inl h1
              · exact Or.inr ⟨c, List.mem_cons_of_mem _ hc, h1⟩
      intro b hb
      rcases this rest b hb with h1 | ⟨c, hc', h1⟩
      · rw [h1]; simpa using hc
      · rw [← h1]; exact hu.1 c hc'

theorem unique_fromRaw (ls : List (Bytes × Bytes)) : (Headers.fromRaw ls).Unique := by
  have key : ∀ (ls : List (Bytes × Bytes)) (h : Headers), h.Unique →
      (ls.foldl (fun h e => Headers.addRaw e.1 (trimSpacesEnd e.2) h) h).Unique := by
    intro ls
    induction ls with
    | nil => intro h hu; exact hu
    | cons e ls ih => intro h hu; exact ih _ (unique_addRaw hu _ _)
  exact key ls [] List.Pairwise.nil

end WS
