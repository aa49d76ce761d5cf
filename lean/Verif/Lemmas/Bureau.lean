import Verif.Spec.Bureau
import Verif.Lemmas.Desk
/-!
# Lemmas for C89
-/

namespace WS
open Spec

/-- Polls inserted between the doings of a peer. -/
def acts (es : List Befalls) : List Befalls := es.filter fun e => match e with | .poll _ _ => false | _ => true

theorem acts_append (a b : List Befalls) : acts (a ++ b) = acts a ++ acts b := List.filter_append ..

theorem brought_acts (es : List Befalls) : brought (acts es) = brought es ∧ endedBy (acts es) = endedBy es := by
  induction es with
  | nil => exact ⟨rfl, rfl⟩
  | cons e es ih =>
    cases e with
    | poll n k => exact ih
    | bytes b => exact ⟨congrArg (b ++ ·) ih.1, ih.2⟩
    | finish => exact ⟨rfl, rfl⟩

theorem visitsOf_append (i : Nat) (es fs : List Occasion) : ∀ n, visitsOf i n (es ++ fs) = visitsOf i n es ++ visitsOf i (n + visitors es) fs := by
  induction es with
  | nil => intro n; rfl
  | cons e es ih =>
    intro n
    cases e with
    | connects => show visitsOf i (n + 1) (es ++ fs) = _; rw [ih]; show _ = visitsOf i (n + 1) es ++ visitsOf i (n + (visitors es + 1)) fs; congr 2; omega
    | main ps => exact ih n
    | task j m k => exact ih n
    | bytes j b =>
      show (if _ then _ else _) = (if _ then _ else _) ++ visitsOf i (n + visitors es) fs
      split
      · exact congrArg (_ :: ·) (ih n)
      · exact ih n
    | finish j =>
      show (if _ then _ else _) = (if _ then _ else _) ++ visitsOf i (n + visitors es) fs
      split
      · exact congrArg (_ :: ·) (ih n)
      · exact ih n

theorem visitors_append (es fs : List Occasion) : visitors (es ++ fs) = visitors es + visitors fs := by
  induction es with
  | nil => simp [visitors]
  | cons e es ih => cases e <;> simp only [List.cons_append, visitors, ih] <;> omega

section
variable [B64] {preq : ReqParser} {keys : Nat → Nat → Key4} {extra : Nat → Nat}

/-- Each connection is as if there were no other. -/
structure Lonely (preq : ReqParser) (keys : Nat → Nat → Key4) (extra : Nat → Nat) (es : List Occasion) (x : Bureau) : Prop where
  made : x.made = visitors es
  alone : ∀ i, ∃ ds, acts ds = visitsOf i 0 es ∧ x.conns i = (Desk.start (keys i) (extra i)).endures preq ds

theorem desk_snoc (x : Desk) (es : List Befalls) (e : Befalls) : x.endures preq (es ++ [e]) = (x.endures preq es).meets preq e := by
  unfold Desk.endures; rw [List.foldl_append]; rfl

theorem lonely_poll {es : List Occasion} {x : Bureau} (h : Lonely preq keys extra es x) (i n k : Nat) : Lonely preq keys extra es (x.put i ((x.conns i).poll preq n k)) := by
  refine ⟨h.made, fun j => ?_⟩
  show ∃ ds, _ ∧ (if j = i then _ else _) = _
  obtain ⟨ds, h1, h2⟩ := h.alone j
  split
  · next hj => subst hj; exact ⟨ds ++ [.poll n k], by rw [acts_append, h1]; exact List.append_nil _, by rw [desk_snoc, h2]; rfl⟩
  · exact ⟨ds, h1, h2⟩

theorem lonely_step {es : List Occasion} {x : Bureau} (h : Lonely preq keys extra es x) (e : Occasion) : Lonely preq keys extra (es ++ [e]) (x.meets preq e) := by
  have hd : ∀ i, visitsOf i 0 (es ++ [e]) = visitsOf i 0 es ++ visitsOf i x.made [e] := fun i => by rw [visitsOf_append, h.made, Nat.zero_add]
  have hm : visitors (es ++ [e]) = x.made + visitors [e] := by rw [visitors_append, h.made]
  have stay : ∀ y : Bureau, Lonely preq keys extra es y → visitors [e] = 0 → (∀ i, visitsOf i x.made [e] = []) → Lonely preq keys extra (es ++ [e]) y := by
    intro y hy h1 h2
    refine ⟨by rw [hm, h1, hy.made, h.made]; rfl, fun i => ?_⟩
    rw [hd, h2, List.append_nil]
    exact hy.alone i
  have met : ∀ (j : Nat) (b : Befalls), j < x.made → (∀ n k, b ≠ .poll n k) → visitors [e] = 0 → (∀ i, visitsOf i x.made [e] = if j = i ∧ j < x.made then [b] else []) →
      Lonely preq keys extra (es ++ [e]) (x.put j ((x.conns j).meets preq b)) := by
    intro j b hj hb h1 h2
    refine ⟨by rw [hm, h1]; rfl, fun i => ?_⟩
    show ∃ ds, _ ∧ (if i = j then _ else _) = _
    obtain ⟨ds, k1, k2⟩ := h.alone i
    rw [hd, h2]
    by_cases hi : i = j
    · subst hi
      rw [if_pos ⟨rfl, hj⟩, if_pos rfl]
      exact ⟨ds ++ [b], by rw [acts_append, k1]; cases b <;> first | rfl | exact absurd rfl (hb _ _), by rw [desk_snoc, k2]⟩
    · rw [if_neg fun hx => hi hx.1.symm, if_neg hi, List.append_nil]; exact ⟨ds, k1, k2⟩
  cases e with
  | connects =>
    refine ⟨by rw [hm]; rfl, fun i => ?_⟩
    obtain ⟨ds, k1, k2⟩ := h.alone i
    exact ⟨ds, by rw [hd, k1]; exact (List.append_nil _).symm, k2⟩
  | main ps =>
    refine stay _ ?_ rfl (fun _ => rfl)
    show Lonely preq keys extra es (ps.foldl (Bureau.reads preq) x)
    clear stay met hd hm
    induction ps generalizing x with
    | nil => exact h
    | cons p ps ih =>
      refine ih ?_
      unfold Bureau.reads
      split
      · exact lonely_poll h _ _ _
      · exact h
  | task j n k =>
    refine stay _ ?_ rfl (fun _ => rfl)
    show Lonely preq keys extra es (if _ then _ else x)
    split
    · exact lonely_poll h _ _ _
    · exact h
  | bytes j b =>
    show Lonely preq keys extra _ (if j < x.made then _ else x)
    split
    · next hj => exact met j (.bytes b) hj nofun rfl (fun i => rfl)
    · next hj => exact stay x h rfl (fun i => if_neg fun hx => hj hx.2)
  | finish j =>
    show Lonely preq keys extra _ (if j < x.made then _ else x)
    split
    · next hj => exact met j .finish hj nofun rfl (fun i => rfl)
    · next hj => exact stay x h rfl (fun i => if_neg fun hx => hj hx.2)

theorem lonely_more {fs es : List Occasion} {x : Bureau} (h : Lonely preq keys extra es x) : Lonely preq keys extra (es ++ fs) (x.endures preq fs) := by
  induction fs generalizing es x with
  | nil => rw [List.append_nil]; exact h
  | cons e fs ih =>
    have := ih (lonely_step h e)
    rw [List.append_assoc] at this
    exact this

theorem lonely_run (es : List Occasion) : Lonely preq keys extra es ((Bureau.start keys extra).endures preq es) :=
  lonely_more (es := []) ⟨rfl, fun _ => ⟨[], rfl, rfl⟩⟩

/-! ## It is somebody's turn -/

/-- Polls that find something and have room. -/
def pollsOf (ps : List (Nat × Nat)) : List Befalls := ps.map fun p => .poll p.1 p.2

def Fruitful (ps : List (Nat × Nat)) : Prop := ∀ p ∈ ps, 0 < p.1 ∧ 0 < p.2

theorem reading_room {x : Desk} (h : x.isReading = true) (n k k' : Nat) : x.poll preq n k = x.poll preq n k' := by
  unfold Desk.isReading at h
  unfold Desk.poll
  cases hd : x.door with
  | reading fr => rfl
  | _ => simp [hd] at h

/-- Something has been done for connection `i`: `ps` are its polls. -/
structure Tended (preq : ReqParser) (i : Nat) (x y : Bureau) (ps : List (Nat × Nat)) : Prop where
  conns : y.conns i = (x.conns i).endures preq (pollsOf ps)
  fine : Fruitful ps
  made : x.made ≤ y.made

omit [B64] in
theorem fruitful_nil : Fruitful [] := fun _ h => nomatch h

theorem tended_refl (i : Nat) (x : Bureau) : Tended preq i x x [] := ⟨rfl, fruitful_nil, Nat.le_refl _⟩

theorem tended_trans {i : Nat} {x y z : Bureau} {ps qs : List (Nat × Nat)} (h : Tended preq i x y ps) (h' : Tended preq i y z qs) : Tended preq i x z (ps ++ qs) := by
  refine ⟨?_, fun p hp => ?_, Nat.le_trans h.made h'.made⟩
  · rw [h'.conns, h.conns]
    unfold pollsOf Desk.endures
    rw [List.map_append, List.foldl_append]
  · rcases List.mem_append.mp hp with hp | hp
    · exact h.fine p hp
    · exact h'.fine p hp

theorem reads_tended (i : Nat) (x : Bureau) (p : Nat × Nat) (hp : p.1 = i → 0 < p.2) :
    ∃ ps, Tended preq i x (x.reads preq p) ps ∧ (p.1 = i → i < x.made → (x.conns i).isReading = true → ps ≠ []) := by
  unfold Bureau.reads
  split
  · next h =>
    by_cases he : p.1 = i
    · refine ⟨[(p.2, 1)], ⟨?_, fun q hq => ?_, Nat.le_refl _⟩, fun _ _ _ => by simp⟩
      · show (if i = p.1 then _ else _) = _
        rw [if_pos he.symm, he]
        exact reading_room (by rw [← he]; exact h.2) _ _ _
      · rw [List.mem_singleton.mp hq]; exact ⟨hp he, Nat.one_pos⟩
    · refine ⟨[], ⟨?_, fruitful_nil, Nat.le_refl _⟩, fun hx => absurd hx he⟩
      show (if i = p.1 then _ else _) = _
      rw [if_neg fun hx => he hx.symm]
      rfl
  · next h => exact ⟨[], tended_refl i x, fun h1 h2 h3 => absurd ⟨by rw [h1]; exact h2, by rw [h1]; exact h3⟩ h⟩

theorem main_tended (i : Nat) (qs : List (Nat × Nat)) (hq : ∀ n, (i, n) ∈ qs → 0 < n) : ∀ x : Bureau,
    ∃ ps, Tended preq i x (qs.foldl (Bureau.reads preq) x) ps ∧ ((∃ n, (i, n) ∈ qs) → i < x.made → (x.conns i).isReading = true → ps ≠ []) := by
  induction qs with
  | nil => intro x; exact ⟨[], tended_refl i x, fun ⟨_, h⟩ => nomatch h⟩
  | cons p qs ih =>
    intro x
    obtain ⟨ps, h1, h2⟩ := reads_tended (preq := preq) i x p (fun he => hq p.2 (by rw [← he]; exact List.mem_cons_self))
    obtain ⟨ps', h3, h4⟩ := ih (fun n hn => hq n (List.mem_cons_of_mem _ hn)) (x.reads preq p)
    refine ⟨ps ++ ps', tended_trans h1 h3, fun ⟨n, hn⟩ hm hr he => ?_⟩
    obtain ⟨e1, e2⟩ := List.append_eq_nil_iff.mp he
    rcases List.mem_cons.mp hn with hn | hn
    · exact h2 (by rw [← hn]) hm hr e1
    · subst e1
      have hc : (x.reads preq p).conns i = x.conns i := h1.conns
      exact h4 ⟨n, hn⟩ (Nat.lt_of_lt_of_le hm h1.made) (by rw [hc]; exact hr) e2

/-- What happens in one round comes to some polls of connection `i`. -/
theorem round_tended (i : Nat) (r : List Occasion) (hq : ∀ e ∈ r, (∀ b, e ≠ .bytes i b) ∧ e ≠ .finish i) (hf : ∀ ps n, .main ps ∈ r → (i, n) ∈ ps → 0 < n)
    (hk : ∀ n k, .task i n k ∈ r → 0 < n ∧ 0 < k) : ∀ x : Bureau, i < x.made →
    ∃ ps, Tended preq i x (x.endures preq r) ps ∧ (ps = [] → ((x.conns i).isReading = true → ∀ qs n, .main qs ∈ r → (i, n) ∉ qs) ∧ ((x.conns i).isReading = false → ∀ n k, .task i n k ∉ r)) := by
  induction r with
  | nil => intro x hm; exact ⟨[], tended_refl i x, fun _ => ⟨fun _ _ _ h => (nomatch h), fun _ _ _ h => (nomatch h)⟩⟩
  | cons e r ih =>
    intro x hm
    have one : ∃ ps, Tended preq i x (x.meets preq e) ps ∧ (ps = [] → ((x.conns i).isReading = true → ∀ qs n, e = .main qs → (i, n) ∉ qs) ∧ ((x.conns i).isReading = false → ∀ n k, e ≠ .task i n k)) := by
      cases e with
      | connects => exact ⟨[], ⟨rfl, fruitful_nil, Nat.le_succ _⟩, fun _ => ⟨fun _ _ _ => nofun, fun _ _ _ => nofun⟩⟩
      | main qs =>
        obtain ⟨ps, h1, h2⟩ := main_tended (preq := preq) i qs (fun n hn => hf qs n List.mem_cons_self hn) x
        exact ⟨ps, h1, fun he => ⟨fun hr qs' n hqs hn => h2 ⟨n, by cases hqs; exact hn⟩ hm hr he, fun _ _ _ => nofun⟩⟩
      | task j n k =>
        unfold Bureau.meets
        simp only
        split
        · next h =>
          by_cases he : j = i
          · subst he
            refine ⟨[(n, k)], ⟨?_, fun q hq => ?_, Nat.le_refl _⟩, fun hx => nomatch hx⟩
            · show (if j = j then _ else _) = _
              rw [if_pos rfl]
              rfl
            · rw [List.mem_singleton.mp hq]; exact hk n k List.mem_cons_self
          · refine ⟨[], ⟨?_, fruitful_nil, Nat.le_refl _⟩, fun _ => ⟨fun _ _ _ => nofun, fun _ _ _ hx => by cases hx; exact he rfl⟩⟩
            show (if i = j then _ else _) = _
            rw [if_neg fun hx => he hx.symm]
            rfl
        · next h => exact ⟨[], tended_refl i x, fun _ => ⟨fun _ _ _ => nofun, fun hr _ _ hx => by cases hx; exact h ⟨hm, hr⟩⟩⟩
      | bytes j b =>
        have hj : j ≠ i := fun he => (hq _ List.mem_cons_self).1 b (by rw [he])
        refine ⟨[], ?_, fun _ => ⟨fun _ _ _ => nofun, fun _ _ _ => nofun⟩⟩
        show Tended preq i x (if _ then _ else x) []
        split
        · refine ⟨?_, fruitful_nil, Nat.le_refl _⟩
          show (if i = j then _ else _) = _
          rw [if_neg fun hx => hj hx.symm]
          rfl
        · exact tended_refl i x
      | finish j =>
        have hj : j ≠ i := fun he => (hq _ List.mem_cons_self).2 (by rw [he])
        refine ⟨[], ?_, fun _ => ⟨fun _ _ _ => nofun, fun _ _ _ => nofun⟩⟩
        show Tended preq i x (if _ then _ else x) []
        split
        · refine ⟨?_, fruitful_nil, Nat.le_refl _⟩
          show (if i = j then _ else _) = _
          rw [if_neg fun hx => hj hx.symm]
          rfl
        · exact tended_refl i x
    obtain ⟨ps, h1, h2⟩ := one
    obtain ⟨ps', h3, h4⟩ := ih (fun e he => hq e (List.mem_cons_of_mem _ he)) (fun ps n h => hf ps n (List.mem_cons_of_mem _ h)) (fun n k h => hk n k (List.mem_cons_of_mem _ h)) (x.meets preq e)
      (Nat.lt_of_lt_of_le hm h1.made)
    refine ⟨ps ++ ps', tended_trans h1 h3, fun he => ?_⟩
    obtain ⟨e1, e2⟩ := List.append_eq_nil_iff.mp he
    subst e1
    have hc : (x.meets preq e).conns i = x.conns i := h1.conns
    obtain ⟨a1, a2⟩ := h2 rfl
    obtain ⟨b1, b2⟩ := h4 e2
    rw [hc] at b1 b2
    refine ⟨fun hr qs n hmem => ?_, fun hr n k hmem => ?_⟩
    · rcases List.mem_cons.mp hmem with hx | hx
      · exact a1 hr qs n hx.symm
      · exact b1 hr qs n hx
    · rcases List.mem_cons.mp hmem with hx | hx
      · exact a2 hr n k hx.symm
      · exact b2 hr n k hx

theorem attention_tended {i : Nat} {r : List Occasion} (hr : Attention i r) (x : Bureau) (hm : i < x.made) : ∃ ps, Tended preq i x (x.endures preq r) ps ∧ ps ≠ [] := by
  obtain ⟨ps, h1, h2⟩ := round_tended (preq := preq) i r hr.quiet hr.found hr.room x hm
  refine ⟨ps, h1, fun he => ?_⟩
  obtain ⟨a, b⟩ := h2 he
  rcases Bool.eq_false_or_eq_true (x.conns i).isReading with h | h
  · obtain ⟨qs, h3, n, h4⟩ := hr.main
    exact a h qs n h3 h4
  · obtain ⟨n, k, h3⟩ := hr.task
    exact b h n k h3

/-! ## It gets there -/

theorem rest_polls {x : Desk} (h : DeskRest x) (ps : List (Nat × Nat)) : x.endures preq (pollsOf ps) = x := by
  induction ps with
  | nil => rfl
  | cons p ps ih =>
    show Desk.endures preq (x.poll preq p.1 p.2) (pollsOf ps) = x
    rw [rest_poll h]
    exact ih

theorem polls_inv {B : Bytes} (hB : Unmistakable preq B) (ps : List (Nat × Nat)) : ∀ {x : Desk}, DeskInv preq B [] x → DeskInv preq B [] (x.endures preq (pollsOf ps)) := by
  induction ps with
  | nil => intro x h; exact h
  | cons p ps ih => intro x h; exact ih (desk_poll hB h (fun _ => rfl) p.1 p.2)

theorem polls_lower {B : Bytes} (hB : Unmistakable preq B) (ps : List (Nat × Nat)) : ∀ {x : Desk}, DeskInv preq B [] x → Fruitful ps →
    DeskRest x ∨ ps = [] ∨ Relation.TransGen Below (x.endures preq (pollsOf ps)) x := by
  induction ps with
  | nil => intro x _ _; exact .inr (.inl rfl)
  | cons p ps ih =>
    intro x h hf
    obtain ⟨hp1, hp2⟩ := hf p List.mem_cons_self
    rcases desk_progress hB h hp1 hp2 with hr | hlt
    · exact .inl hr
    · refine .inr (.inr ?_)
      show Relation.TransGen Below (Desk.endures preq (x.poll preq p.1 p.2) (pollsOf ps)) x
      rcases ih (desk_poll hB h (fun _ => rfl) p.1 p.2) (fun q hq => hf q (List.mem_cons_of_mem _ hq)) with hr | rfl | hlt'
      · rw [rest_polls hr]; exact .single hlt
      · exact .single hlt
      · exact hlt'.tail hlt

theorem bureau_append (x : Bureau) (a b : List Occasion) : x.endures preq (a ++ b) = (x.endures preq a).endures preq b := List.foldl_append

theorem bureau_settles {B : Bytes} (hB : Unmistakable preq B) (i : Nat) : ∀ (d : Desk) (x : Bureau), x.conns i = d → DeskInv preq B [] d → i < x.made → ∀ rs : Nat → List Occasion, (∀ j, Attention i (rs j)) →
    ∃ N y, DeskRest y ∧ ∀ j, N ≤ j → (x.endures preq (roundsOf rs j)).conns i = y := by
  have still : ∀ (y : Desk) (rs : Nat → List Occasion), DeskRest y → (∀ j, Attention i (rs j)) → ∀ j (x : Bureau), i < x.made → x.conns i = y →
      i < (x.endures preq (roundsOf rs j)).made ∧ (x.endures preq (roundsOf rs j)).conns i = y := by
    intro y rs hy ha j
    induction j with
    | zero => intro x hm hx; exact ⟨hm, hx⟩
    | succ j ih =>
      intro x hm hx
      obtain ⟨h1, h2⟩ := ih x hm hx
      have : roundsOf rs (j + 1) = roundsOf rs j ++ rs j := by simp [roundsOf, List.range_succ]
      rw [this, bureau_append]
      obtain ⟨ps, k1, -⟩ := attention_tended (preq := preq) (ha j) _ h1
      exact ⟨Nat.lt_of_lt_of_le h1 k1.made, by rw [k1.conns, h2, rest_polls hy]⟩
  intro d
  induction d using (WellFounded.transGen below_wf).induction with
  | _ d ih =>
    intro x hx h hm rs ha
    obtain ⟨ps, k1, k2⟩ := attention_tended (preq := preq) (ha 0) x hm
    rcases polls_lower hB ps h k1.fine with hr | he | hlt
    · exact ⟨0, d, hr, fun j _ => (still d rs hr ha j x hm hx).2⟩
    · exact absurd he k2
    · obtain ⟨N, y, h1, h2⟩ := ih _ hlt (x.endures preq (rs 0)) (by rw [k1.conns, hx]) (polls_inv hB ps h) (Nat.lt_of_lt_of_le hm k1.made) (fun j => rs (j + 1)) (fun j => ha (j + 1))
      refine ⟨N + 1, y, h1, fun j hj => ?_⟩
      obtain ⟨j, rfl⟩ : ∃ j', j = j' + 1 := ⟨j - 1, by omega⟩
      have : roundsOf rs (j + 1) = rs 0 ++ roundsOf (fun j => rs (j + 1)) j := by
        unfold roundsOf
        rw [List.range_succ_eq_map, List.map_cons, List.map_map, List.flatten_cons]
        rfl
      rw [this, bureau_append]
      exact h2 j (by omega)

end

/-- A peer that does nothing has done what it had done. -/
theorem quiet_visits (i : Nat) {r : List Occasion} (h : ∀ e ∈ r, (∀ b, e ≠ .bytes i b) ∧ e ≠ .finish i) : ∀ n, visitsOf i n r = [] := by
  induction r with
  | nil => intro n; rfl
  | cons e r ih =>
    intro n
    have ih := ih fun e he => h e (List.mem_cons_of_mem _ he)
    have he := h e List.mem_cons_self
    cases e with
    | connects => exact ih _
    | main ps => exact ih _
    | task j m k => exact ih _
    | bytes j b =>
      show (if _ then _ else _) = _
      rw [if_neg fun hx => he.1 b (by rw [hx.1])]
      exact ih _
    | finish j =>
      show (if _ then _ else _) = _
      rw [if_neg fun hx => he.2 (by rw [hx.1])]
      exact ih _

theorem rounds_quiet {i : Nat} {rs : Nat → List Occasion} (ha : ∀ j, Attention i (rs j)) (es : List Occasion) (j : Nat) :
    broughtBy i (es ++ roundsOf rs j) = broughtBy i es ∧ leftBy i (es ++ roundsOf rs j) = leftBy i es := by
  have hq : ∀ e ∈ roundsOf rs j, (∀ b, e ≠ .bytes i b) ∧ e ≠ .finish i := by
    intro e he
    obtain ⟨r, h1, h2⟩ := List.mem_flatten.mp he
    obtain ⟨n, -, rfl⟩ := List.mem_map.mp h1
    exact (ha n).quiet e h2
  unfold broughtBy leftBy
  rw [visitsOf_append, quiet_visits i hq, List.append_nil]
  exact ⟨rfl, rfl⟩

end WS
