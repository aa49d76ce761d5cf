import Verif.Spec.Crowd
import Verif.Lemmas.Reception
/-!
# Lemmas for C86
-/

namespace WS
open Spec

section
variable [B64] {preq : ReqParser} {g : Nat → Given}

/-- Turns inserted between the doings of a peer. -/
def deeds (es : List Brings) : List Brings := es.filter fun e => match e with | .turn => false | _ => true

omit [B64] in
theorem deeds_append (a b : List Brings) : deeds (a ++ b) = deeds a ++ deeds b := List.filter_append ..

omit [B64] in
theorem came_deeds (es : List Brings) : came (deeds es) = came es ∧ finished (deeds es) = finished es := by
  induction es with
  | nil => exact ⟨rfl, rfl⟩
  | cons e es ih =>
    cases e with
    | turn => exact ih
    | bytes b => exact ⟨congrArg (b ++ ·) ih.1, ih.2⟩
    | finish => exact ⟨rfl, rfl⟩

omit [B64] in
theorem doings_append (i : Nat) (es fs : List Occurs) : ∀ n, doings i n (es ++ fs) = doings i n es ++ doings i (n + connected es) fs := by
  induction es with
  | nil => intro n; rfl
  | cons e es ih =>
    intro n
    cases e with
    | connects => show doings i (n + 1) (es ++ fs) = _; rw [ih]; show _ = doings i (n + 1) es ++ doings i (n + (connected es + 1)) fs; congr 2; omega
    | main => exact ih n
    | thread j => exact ih n
    | bytes j b =>
      show (if _ then _ else _) = (if _ then _ else _) ++ doings i (n + connected es) fs
      split
      · exact congrArg (_ :: ·) (ih n)
      · exact ih n
    | finish j =>
      show (if _ then _ else _) = (if _ then _ else _) ++ doings i (n + connected es) fs
      split
      · exact congrArg (_ :: ·) (ih n)
      · exact ih n

omit [B64] in
theorem connected_append (es fs : List Occurs) : connected (es ++ fs) = connected es + connected fs := by
  induction es with
  | nil => simp [connected]
  | cons e es ih => cases e <;> simp only [List.cons_append, connected, ih] <;> omega

/-- The connections that the main thread has left are those it has heads of. -/
structure Apart (preq : ReqParser) (g : Nat → Given) (es : List Occurs) (x : Crowd) : Prop where
  made : x.made = connected es
  front : x.front ≤ x.made
  /-- each connection is as if there were no other -/
  alone : ∀ i, ∃ ds, deeds ds = doings i 0 es ∧ x.conns i = (Host.start (g i)).endures preq (g i) ds
  done : ∀ i, i < x.front → (x.conns i).isReading = false
  reads : ∀ i, x.front ≤ i → (x.conns i).isReading = true

theorem endures_snoc (h : Host) (gg : Given) (es : List Brings) (e : Brings) : h.endures preq gg (es ++ [e]) = (h.endures preq gg es).meets preq gg e := by
  unfold Host.endures; rw [List.foldl_append]; rfl

theorem reading_meets (h : Host) (gg : Given) (e : Brings) (he : e ≠ .turn) : (h.meets preq gg e).isReading = h.isReading := by
  cases e with
  | turn => exact absurd rfl he
  | bytes b =>
    rw [host_bytes]
    split
    · rfl
    · cases h <;> rfl
  | finish => cases h <;> rfl

theorem reading_turn (h : Host) (gg : Given) (hh : h.isReading = false) : (h.turn preq gg).isReading = false := by
  cases h with
  | reading => cases hh
  | asked u ended =>
    show (Host.answer gg u ended).isReading = false
    unfold Host.answer
    split
    · split <;> rfl
    · split; rfl
  | serving t => rfl
  | dropped w => rfl

omit [B64] in
theorem put_conns (x : Crowd) (i : Nat) (h : Host) (j : Nat) : (x.put i h).conns j = if j = i then h else x.conns j := rfl

theorem apart_step {es : List Occurs} {x : Crowd} (h : Apart preq g es x) (e : Occurs) : Apart preq g (es ++ [e]) (x.meets preq g e) := by
  obtain ⟨h1, h2, h3, h4, h5⟩ := h
  have hd : ∀ i, doings i 0 (es ++ [e]) = doings i 0 es ++ doings i x.made [e] := fun i => by rw [doings_append, h1, Nat.zero_add]
  have hm : connected (es ++ [e]) = x.made + connected [e] := by rw [connected_append, h1]
  have same : ∀ i, doings i x.made [e] = [] → ∃ ds, deeds ds = doings i 0 (es ++ [e]) ∧ x.conns i = (Host.start (g i)).endures preq (g i) ds := by
    intro i hi
    obtain ⟨ds, k1, k2⟩ := h3 i
    exact ⟨ds, by rw [hd, hi, List.append_nil, k1], k2⟩
  have turned : ∀ i, doings i x.made [e] = [] → ∃ ds, deeds ds = doings i 0 (es ++ [e]) ∧ (x.conns i).turn preq (g i) = (Host.start (g i)).endures preq (g i) ds := by
    intro i hi
    obtain ⟨ds, k1, k2⟩ := h3 i
    exact ⟨ds ++ [.turn], by rw [hd, hi, deeds_append, k1]; rfl, by rw [endures_snoc, k2]; rfl⟩
  have met : ∀ i b, b ≠ .turn → doings i x.made [e] = [b] → ∃ ds, deeds ds = doings i 0 (es ++ [e]) ∧ (x.conns i).meets preq (g i) b = (Host.start (g i)).endures preq (g i) ds := by
    intro i b hb hi
    obtain ⟨ds, k1, k2⟩ := h3 i
    exact ⟨ds ++ [b], by rw [hd, hi, deeds_append, k1]; cases b <;> first | rfl | exact absurd rfl hb, by rw [endures_snoc, k2]⟩
  cases e with
  | connects =>
    exact ⟨by rw [hm]; rfl, Nat.le_succ_of_le h2, fun i => same i rfl, h4, h5⟩
  | main =>
    show Apart preq g (es ++ [.main]) (if x.front < x.made then _ else x)
    split
    · next hlt =>
      refine ⟨by rw [hm]; rfl, ?_, fun i => ?_, fun i hi => ?_, fun i hi => ?_⟩
      · show (if ((x.conns x.front).turn preq (g x.front)).isReading = true then x.front else x.front + 1) ≤ x.made
        split <;> omega
      · show ∃ ds, _ ∧ (if i = x.front then _ else _) = _
        split
        · next he => subst he; exact turned _ rfl
        · exact same i rfl
      · show Host.isReading (if i = x.front then _ else _) = false
        change i < (if ((x.conns x.front).turn preq (g x.front)).isReading = true then x.front else x.front + 1) at hi
        split
        · next he =>
          subst he
          split at hi
          · omega
          · next hx => exact Bool.eq_false_iff.mpr hx
        · refine h4 i ?_
          split at hi <;> omega
      · show Host.isReading (if i = x.front then _ else _) = true
        change (if ((x.conns x.front).turn preq (g x.front)).isReading = true then x.front else x.front + 1) ≤ i at hi
        split
        · next he =>
          subst he
          split at hi
          · next hx => exact hx
          · omega
        · refine h5 i ?_
          split at hi <;> omega
    · exact ⟨by rw [hm]; rfl, h2, fun i => same i rfl, h4, h5⟩
  | thread j =>
    show Apart preq g (es ++ [.thread j]) (if j < x.front then _ else x)
    split
    · next hlt =>
      refine ⟨by rw [hm]; rfl, h2, fun i => ?_, fun i hi => ?_, fun i hi => ?_⟩
      · show ∃ ds, _ ∧ (if i = j then _ else _) = _
        split
        · next he => subst he; exact turned _ rfl
        · exact same i rfl
      · show Host.isReading (if i = j then _ else _) = false
        split
        · exact reading_turn _ _ (h4 j hlt)
        · exact h4 i hi
      · show Host.isReading (if i = j then _ else _) = true
        change x.front ≤ i at hi
        rw [if_neg (by omega)]
        exact h5 i hi
    · exact ⟨by rw [hm]; rfl, h2, fun i => same i rfl, h4, h5⟩
  | bytes j b =>
    show Apart preq g (es ++ [.bytes j b]) (if j < x.made then _ else x)
    split
    · next hlt =>
      refine ⟨by rw [hm]; rfl, h2, fun i => ?_, fun i hi => ?_, fun i hi => ?_⟩
      · show ∃ ds, _ ∧ (if i = j then _ else _) = _
        split
        · next he => subst he; exact met i (.bytes b) nofun (if_pos ⟨rfl, hlt⟩)
        · next he => exact same i (if_neg fun hx => he hx.1.symm)
      · show Host.isReading (if i = j then _ else _) = false
        split
        · next he => subst he; rw [reading_meets _ _ _ Brings.noConfusion]; exact h4 i hi
        · exact h4 i hi
      · show Host.isReading (if i = j then _ else _) = true
        split
        · next he => subst he; rw [reading_meets _ _ _ Brings.noConfusion]; exact h5 i hi
        · exact h5 i hi
    · next hlt => exact ⟨by rw [hm]; rfl, h2, fun i => same i (if_neg fun hx => hlt hx.2), h4, h5⟩
  | finish j =>
    show Apart preq g (es ++ [.finish j]) (if j < x.made then _ else x)
    split
    · next hlt =>
      refine ⟨by rw [hm]; rfl, h2, fun i => ?_, fun i hi => ?_, fun i hi => ?_⟩
      · show ∃ ds, _ ∧ (if i = j then _ else _) = _
        split
        · next he => subst he; exact met i .finish nofun (if_pos ⟨rfl, hlt⟩)
        · next he => exact same i (if_neg fun hx => he hx.1.symm)
      · show Host.isReading (if i = j then _ else _) = false
        split
        · next he => subst he; rw [reading_meets _ _ _ Brings.noConfusion]; exact h4 i hi
        · exact h4 i hi
      · show Host.isReading (if i = j then _ else _) = true
        split
        · next he => subst he; rw [reading_meets _ _ _ Brings.noConfusion]; exact h5 i hi
        · exact h5 i hi
    · next hlt => exact ⟨by rw [hm]; rfl, h2, fun i => same i (if_neg fun hx => hlt hx.2), h4, h5⟩

theorem apart_run (es : List Occurs) : Apart preq g es ((Crowd.start g).endures preq g es) := by
  have key : ∀ (fs es : List Occurs) (x : Crowd), Apart preq g es x → Apart preq g (es ++ fs) (x.endures preq g fs) := by
    intro fs
    induction fs with
    | nil => intro es x h; rw [List.append_nil]; exact h
    | cons e fs ih =>
      intro es x h
      have := ih (es ++ [e]) _ (apart_step h e)
      rw [List.append_assoc] at this
      exact this
  exact key es [] _ ⟨rfl, Nat.le_refl _, fun i => ⟨[], rfl, rfl⟩, fun i hi => absurd hi (Nat.not_lt_zero i), fun i _ => rfl⟩

/-! ## The one in front -/

/-- Where each connection stands. -/
theorem apart_stage (hg : ∀ i, (g i).server.wire = [] ∧ (g i).server.Willing) {es : List Occurs} {x : Crowd} (h : Apart preq g es x) (i : Nat) :
    HStage preq (g i) (sentBy i es) (x.conns i) [] (hungUp i es) := by
  obtain ⟨ds, h1, h2⟩ := h.alone i
  obtain ⟨h3, h4⟩ := came_deeds ds
  rw [h1] at h3 h4
  rw [h2]
  unfold sentBy hungUp
  rw [h3, h4]
  exact host_run (hg i).1 (hg i).2 ds

theorem dawdles_reading {B : Bytes} {gg : Given} {h : Host} (hs : HStage preq gg B h [] false) (hr : reception preq B = .waits) : h.isReading = true := by
  cases hs with
  | reading => rfl
  | asked u R fin key rest hh ho hk hr' =>
    rw [hr] at hr'
    unfold received at hr'
    split at hr' <;> cases hr'
  | serving t R fin written rest hr' => rw [hr] at hr'; cases hr'
  | dropped w R fin hl h =>
    rcases h with ⟨-, h, -⟩ | ⟨h, -⟩ | ⟨_, h, -⟩
    · cases h
    · rw [hr] at h; cases h
    · rw [hr] at h; cases h

theorem reading_silent {B : Bytes} {gg : Given} {h : Host} {fin : Bool} (hs : HStage preq gg B h [] fin) (hr : h.isReading = true) : h.wire = [] ∧ h.gone = false := by
  cases hs with
  | reading s w R fin hc hf hl hw => exact ⟨hw, rfl⟩
  | asked => cases hr
  | serving => cases hr
  | dropped => cases hr

theorem reading_settled {B : Bytes} {gg : Given} {h : Host} {fin : Bool} (hg : gg.server.wire = []) (hs : HStage preq gg B h [] fin) (hd : reception preq B ≠ .waits ∨ fin = true) :
    (h.turn preq gg).isReading = false := by
  cases hs with
  | reading s w R fin hc hf hl hw =>
    rcases (host_reads hg hc hf hl hw).2 with ⟨-, h1, h2⟩ | h
    · rw [List.append_nil] at hf
      rw [hf] at h2
      rcases hd with hd | hd
      · exact absurd h2 hd
      · rw [h1] at hd; cases hd
    · cases hx : (Host.reading s fin w).turn preq gg with
      | reading s' f' w' => exact absurd hx (h s' f' w')
      | _ => rfl
  | asked => exact reading_turn _ _ rfl
  | serving => exact reading_turn _ _ rfl
  | dropped => exact reading_turn _ _ rfl

/-- The main thread does not get past somebody who dawdles. -/
theorem dawdler_front (hg : ∀ i, (g i).server.wire = [] ∧ (g i).server.Willing) {es : List Occurs} {x : Crowd} (h : Apart preq g es x) {j : Nat} (hj : Dawdles preq j es) : x.front ≤ j := by
  rcases Nat.lt_or_ge j x.front with hlt | hle
  · have h1 := h.done j hlt
    have h2 := apart_stage hg h j
    rw [hj.2] at h2
    rw [dawdles_reading h2 hj.1] at h1
    cases h1
  · exact hle

/-- An event of the server. -/
def Own (e : Occurs) : Prop := e = .main ∨ ∃ j, e = .thread j

omit [B64] in
theorem own_doings (i n : Nat) {r : List Occurs} (h : ∀ e ∈ r, Own e) : doings i n r = [] ∧ connected r = 0 := by
  induction r with
  | nil => exact ⟨rfl, rfl⟩
  | cons e r ih =>
    have := ih fun e he => h e (List.mem_cons_of_mem _ he)
    rcases h e List.mem_cons_self with rfl | ⟨j, rfl⟩ <;> exact this

omit [B64] in
theorem own_after (i : Nat) (es : List Occurs) {r : List Occurs} (h : ∀ e ∈ r, Own e) : sentBy i (es ++ r) = sentBy i es ∧ hungUp i (es ++ r) = hungUp i es ∧ connected (es ++ r) = connected es := by
  have h1 := own_doings i (0 + connected es) h
  unfold sentBy hungUp
  rw [doings_append, h1.1, List.append_nil, connected_append, h1.2]
  exact ⟨rfl, rfl, rfl⟩

/-- One event of the server: the main thread does not go back, and connection `i` has had a turn or not. -/
theorem own_step (x : Crowd) {e : Occurs} (he : Own e) (i : Nat) : x.front ≤ (x.meets preq g e).front ∧
    ∃ k, (x.meets preq g e).conns i = Host.turns preq (g i) k (x.conns i) ∧ (e = .thread i → i < x.front → 1 ≤ k) := by
  rcases he with rfl | ⟨j, rfl⟩
  · show x.front ≤ Crowd.front (if x.front < x.made then _ else x) ∧ ∃ k, Crowd.conns (if x.front < x.made then _ else x) i = _ ∧ _
    split
    · refine ⟨?_, ?_⟩
      · show x.front ≤ (if ((x.conns x.front).turn preq (g x.front)).isReading = true then x.front else x.front + 1)
        split <;> omega
      · show ∃ k, (if i = x.front then _ else _) = _ ∧ _
        split
        · next h => subst h; exact ⟨1, rfl, nofun⟩
        · exact ⟨0, rfl, nofun⟩
    · exact ⟨Nat.le_refl _, 0, rfl, nofun⟩
  · show x.front ≤ Crowd.front (if j < x.front then _ else x) ∧ ∃ k, Crowd.conns (if j < x.front then _ else x) i = _ ∧ _
    split
    · refine ⟨Nat.le_refl _, ?_⟩
      show ∃ k, (if i = j then _ else _) = _ ∧ _
      split
      · next h => subst h; exact ⟨1, rfl, fun _ _ => Nat.le_refl _⟩
      · next h => exact ⟨0, rfl, fun hx => by cases hx; exact absurd rfl h⟩
    · next h => exact ⟨Nat.le_refl _, 0, rfl, fun hx hi => by cases hx; exact absurd hi h⟩

theorem own_run {r : List Occurs} (hr : ∀ e ∈ r, Own e) (i : Nat) : ∀ x : Crowd, x.front ≤ (x.endures preq g r).front ∧
    ∃ k, (x.endures preq g r).conns i = Host.turns preq (g i) k (x.conns i) ∧ (.thread i ∈ r → i < x.front → 1 ≤ k) := by
  induction r with
  | nil => intro x; exact ⟨Nat.le_refl _, 0, rfl, fun h => absurd h List.not_mem_nil⟩
  | cons e r ih =>
    intro x
    obtain ⟨h1, k, h2, h2'⟩ := own_step (preq := preq) (g := g) x (hr e List.mem_cons_self) i
    obtain ⟨h3, k', h4, h5⟩ := ih (fun e he => hr e (List.mem_cons_of_mem _ he)) (x.meets preq g e)
    refine ⟨Nat.le_trans h1 h3, k + k', ?_, fun hm hi => ?_⟩
    · show (Crowd.endures preq g (x.meets preq g e) r).conns i = _
      rw [h4, h2, turns_add]
    · rcases List.mem_cons.mp hm with hm | hm
      · have := h2' hm.symm hi
        omega
      · have := h5 hm (by omega)
        omega

/-- If the one in front does not dawdle, the main thread goes on. -/
theorem main_goes (hg : ∀ i, (g i).server.wire = [] ∧ (g i).server.Willing) {r : List Occurs} (hr : ∀ e ∈ r, Own e) (hm : .main ∈ r) : ∀ {es : List Occurs} {x : Crowd}, Apart preq g es x → x.front < x.made →
    ¬ Dawdles preq x.front es → x.front + 1 ≤ (x.endures preq g r).front := by
  induction r with
  | nil => exact absurd hm List.not_mem_nil
  | cons e r ih =>
    intro es x h hlt hd
    have hr' := fun e he => hr e (List.mem_cons_of_mem _ he)
    show x.front + 1 ≤ (Crowd.endures preq g (x.meets preq g e) r).front
    rcases hr e List.mem_cons_self with rfl | ⟨j, rfl⟩
    · refine Nat.le_trans ?_ (own_run hr' 0 _).1
      show x.front + 1 ≤ Crowd.front (if x.front < x.made then _ else x)
      rw [if_pos hlt]
      show x.front + 1 ≤ (if ((x.conns x.front).turn preq (g x.front)).isReading = true then x.front else x.front + 1)
      rw [if_neg ?_]
      · exact Nat.le_refl _
      · rw [reading_settled (hg _).1 (apart_stage hg h x.front) ?_]
        · exact Bool.false_ne_true
        · by_cases hw : reception preq (sentBy x.front es) = .waits
          · right
            cases hx : hungUp x.front es with
            | true => rfl
            | false => exact absurd ⟨hw, hx⟩ hd
          · exact .inl hw
    · have hm' : Occurs.main ∈ r := (List.mem_cons.mp hm).resolve_left nofun
      have e1 : (x.meets preq g (.thread j)).front = x.front ∧ (x.meets preq g (.thread j)).made = x.made := by
        show Crowd.front (if j < x.front then _ else x) = _ ∧ Crowd.made (if j < x.front then _ else x) = _
        split <;> exact ⟨rfl, rfl⟩
      have hone : ∀ e ∈ [Occurs.thread j], Own e := fun e he => by rw [List.mem_singleton.mp he]; exact .inr ⟨j, rfl⟩
      have := ih hr' hm' (apart_step h (.thread j)) (by rw [e1.1, e1.2]; exact hlt) (by
        rw [e1.1]
        intro ⟨a, b⟩
        obtain ⟨k1, k2, -⟩ := own_after x.front es hone
        rw [k1] at a
        rw [k2] at b
        exact hd ⟨a, b⟩)
      rw [e1.1] at this
      exact this

theorem apart_more {fs es : List Occurs} {x : Crowd} (h : Apart preq g es x) : Apart preq g (es ++ fs) (x.endures preq g fs) := by
  induction fs generalizing es x with
  | nil => rw [List.append_nil]; exact h
  | cons e fs ih =>
    have := ih (apart_step h e)
    rw [List.append_assoc] at this
    exact this

/-- In each round the main thread goes on, or has passed connection `i` and that has a turn. -/
theorem rounds_go (hg : ∀ i, (g i).server.wire = [] ∧ (g i).server.Willing) (i : Nat) (fs : List (List Occurs)) (hf : ∀ r ∈ fs, Round i r) : ∀ {es : List Occurs} {x : Crowd}, Apart preq g es x → i < x.made →
    (∀ j, j ≤ i → ¬ Dawdles preq j es) →
    ∃ k, (x.endures preq g fs.flatten).conns i = Host.turns preq (g i) k (x.conns i) ∧ fs.length + min x.front (i + 1) ≤ min (x.endures preq g fs.flatten).front (i + 1) + k := by
  induction fs with
  | nil => intro es x h hi hd; exact ⟨0, rfl, by simp [Crowd.endures]⟩
  | cons r fs ih =>
    intro es x h hi hd
    obtain ⟨hr1, hr2, hr3⟩ := hf r List.mem_cons_self
    obtain ⟨o1, k, o2, o3⟩ := own_run (preq := preq) (g := g) hr1 i x
    have h' := apart_more (fs := r) h
    have hmade : (x.endures preq g r).made = x.made := by rw [h'.made, h.made, (own_after 0 es hr1).2.2]
    obtain ⟨k', p1, p2⟩ := ih (fun r hr => hf r (List.mem_cons_of_mem _ hr)) h' (by rw [hmade]; exact hi) (by
      intro j hj ⟨a, b⟩
      obtain ⟨q1, q2, -⟩ := own_after j es hr1
      rw [q1] at a
      rw [q2] at b
      exact hd j hj ⟨a, b⟩)
    have split : x.endures preq g (r :: fs).flatten = (x.endures preq g r).endures preq g fs.flatten := by
      unfold Crowd.endures
      rw [List.flatten_cons, List.foldl_append]
    rw [split]
    refine ⟨k + k', by rw [p1, o2, turns_add], ?_⟩
    rw [List.length_cons]
    rcases Nat.lt_or_ge i x.front with hlt | hle
    · have := o3 hr3 hlt
      omega
    · have := main_goes hg hr1 hr2 h (by omega) (hd _ hle)
      omega

theorem ease_paid {B : Bytes} {fin : Bool} {h : Host} (h3 : AtEase preq B fin h) : Paid h.wire h.gone fin (reception preq B) := by
  cases h3 with
  | waits s w hr hf hw => rw [hr]; exact ⟨hw, hf.symm⟩
  | dropped w h =>
    rcases h with ⟨hr, hf, hw⟩ | ⟨hr, hw⟩ | ⟨x, hr, hw⟩
    · rw [hr, hf]; exact ⟨hw, rfl⟩
    · rw [hr]; exact ⟨hw, rfl⟩
    · rw [hr]; exact ⟨hw, rfl⟩
  | serving t written rest hr h he =>
    rw [hr]
    rcases he with he | ⟨h0, h4, h5, h6⟩
    · rcases h.says with ⟨-, -, h0, -⟩ | ⟨-, out, k1, k2⟩
      · rw [h0] at he; cases he
      · obtain ⟨e, hx⟩ := Option.isSome_iff_exists.mp he
        refine ⟨_, out, h.course, ?_, k1, k2, ?_⟩
        · by_cases hn : e = .returned
          · exact .inl (h.returned (hn ▸ hx))
          · right
            rcases (h.panicked e hx hn).2 with hy | ⟨hy, -⟩ <;> rw [hy] <;> nofun
        · show t.ending.isSome = false ↔ _
          rw [he]
          refine ⟨nofun, fun ⟨a, b, c⟩ => ?_⟩
          exfalso
          by_cases hn : e = .returned
          · exact a (h.returned (hn ▸ hx))
          · rcases (h.panicked e hx hn).2 with hy | ⟨-, hy⟩
            · rw [hy] at b; cases b
            · rw [hy] at c; cases c
    · rcases h.says with ⟨hx, -⟩ | ⟨-, out, k1, k2⟩
      · rw [h4] at hx; cases hx
      · refine ⟨_, out, h.course, .inr (by rw [h6]; nofun), k1, k2, ?_⟩
        show t.ending.isSome = false ↔ _
        rw [h0]
        exact ⟨fun _ => ⟨(h.goes h0).2.2, h6, h.ended ▸ h5⟩, fun _ => rfl⟩

end

theorem paid_once {r : Reception} {a b : Bytes} {p q fin : Bool} (h : Paid a p fin r) (h' : Paid b q fin r) : a = b ∧ p = q := by
  cases r with
  | waits => exact ⟨h.1.trans h'.1.symm, h.2.trans h'.2.symm⟩
  | drops => exact ⟨h.1.trans h'.1.symm, h.2.trans h'.2.symm⟩
  | rejects x => exact ⟨h.1.trans h'.1.symm, h.2.trans h'.2.symm⟩
  | serves written rest =>
    obtain ⟨ms, out, h1, h2, h3, h4, h5⟩ := h
    obtain ⟨ms', out', k1, k2, k3, k4, k5⟩ := h'
    obtain rfl := course_once h1 k1 h2 k2
    obtain rfl := says_once h4 k4
    refine ⟨h3.trans k3.symm, ?_⟩
    rw [← k5] at h5
    cases p <;> cases q <;> simp_all

end WS
