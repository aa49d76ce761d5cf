import Verif.Lemmas.Parallel
/-! examples/parallel-server.rs in the long run. -/

namespace WS

/-- The state after the first `n` turns of a schedule without end. -/
def Parallel.after [B64] (f : Nat → Turn) : Nat → Parallel
  | 0 => .new
  | n + 1 => (Parallel.after f n).step (f n)

theorem after_run [B64] (f : Nat → Turn) (n : Nat) : Parallel.after f n = Parallel.new.run ((List.range n).map f) := by
  induction n with
  | zero => rfl
  | succ n ih =>
    rw [List.range_succ, List.map_append, run_app, ← ih]
    rfl

theorem after_ids [B64] (f : Nat → Turn) (n : Nat) : (Parallel.after f n).Ids := by
  rw [after_run]; exact Parallel.Ids.new.run _

/-- Something that holds at `n` and is kept by every turn holds from then on. -/
theorem after_keeps [B64] (f : Nat → Turn) (P : Parallel → Prop) (hP : ∀ st t, P st → P (st.step t)) {n m : Nat} (hm : n ≤ m)
    (h : P (Parallel.after f n)) : P (Parallel.after f m) := by
  induction hm with
  | refl => exact h
  | step _ ih => exact hP _ _ ih

theorem step_opened [B64] (st : Parallel) (t : Turn) : ∀ p ∈ st.opened, p ∈ (st.step t).opened := by
  intro p h
  unfold Parallel.step
  repeat' split
  all_goals first | exact h | exact List.mem_append_left _ h

theorem step_lost [B64] (st : Parallel) (t : Turn) : ∀ p ∈ st.lost, p ∈ (st.step t).lost := by
  intro p h
  unfold Parallel.step
  repeat' split
  all_goals first | exact h | exact List.mem_append_left _ h

/-! ## Hearing -/

/-- What turns other than a poll of the receiving handler do to the streams. -/
theorem step_streams [B64] (st : Parallel) (t : Turn) (ht : t ≠ .receive) :
    (st.step t).current = st.current ∧ ∃ more, (st.step t).streams = st.streams ++ more := by
  have same : ∀ s : List (Nat × Inlet), ∃ more, s = s ++ more := fun s => ⟨[], by simp⟩
  unfold Parallel.step
  repeat' split
  all_goals first | exact absurd rfl ht | exact ⟨rfl, same _⟩ | exact ⟨rfl, _, rfl⟩

/-- Until the next poll. -/
theorem until_receive [B64] (f : Nat → Turn) (often : ∀ k, ∃ j, k ≤ j ∧ f j = .receive) (n : Nat) :
    ∃ j, n ≤ j ∧ f j = .receive ∧ (Parallel.after f j).current = (Parallel.after f n).current ∧
      ∃ more, (Parallel.after f j).streams = (Parallel.after f n).streams ++ more := by
  obtain ⟨j, hj, hr⟩ := often n
  obtain ⟨d, rfl⟩ := Nat.exists_eq_add_of_le hj
  clear hj
  induction d generalizing n with
  | zero => exact ⟨n, Nat.le_refl _, hr, rfl, [], by simp⟩
  | succ d ih =>
    by_cases h : f n = .receive
    · exact ⟨n, Nat.le_refl _, h, rfl, [], by simp⟩
    · obtain ⟨j, h1, h2, h3, more, h4⟩ := ih (n + 1) (by rw [← hr]; congr 1; omega)
      obtain ⟨g1, more', g2⟩ := step_streams (Parallel.after f n) (f n) h
      exact ⟨j, by omega, h2, h3.trans g1, more' ++ more, by rw [h4]; show ((Parallel.after f n).step (f n)).streams ++ _ = _; rw [g2, List.append_assoc]⟩

/-- The stream being read comes to its end, and those behind it are still in line. -/
theorem current_ends [B64] (f : Nat → Turn) (alive : ∀ k, (Parallel.after f k).over = none) (often : ∀ k, ∃ j, k ≤ j ∧ f j = .receive)
    (w n id : Nat) (i : Inlet) (hw : i.read.measure i.input = w) (h : (Parallel.after f n).current = some (id, i)) :
    ∃ m i', n ≤ m ∧ (id, i') ∈ (Parallel.after f m).closed ∧ (Parallel.after f m).current = none ∧
      ∃ more, (Parallel.after f m).streams = (Parallel.after f n).streams ++ more := by
  induction w using Nat.strongRecOn generalizing n i with
  | _ w ih =>
    obtain ⟨j, h1, h2, h3, more, h4⟩ := until_receive f often n
    rw [h] at h3
    have hs : Parallel.after f (j + 1) = (Parallel.after f j).step .receive := by rw [← h2]; rfl
    have ha := alive (j + 1)
    have hj := alive j
    rw [hs] at ha
    have hcases : (∃ i', i'.read.measure i'.input < w ∧ ((Parallel.after f j).step .receive).current = some (id, i') ∧
          ((Parallel.after f j).step .receive).streams = (Parallel.after f j).streams) ∨
        ∃ i', (id, i') ∈ ((Parallel.after f j).step .receive).closed ∧ ((Parallel.after f j).step .receive).current = none ∧
          ((Parallel.after f j).step .receive).streams = (Parallel.after f j).streams := by
      revert ha
      unfold Parallel.step
      rw [if_neg (by simp [hj])]
      simp only [h3]
      split
      · next fr s hp => exact fun _ => .inl ⟨⟨fr, s⟩, by rw [← hw]; exact Framed.poll_wait_lt hp, rfl, rfl⟩
      · next m fr s hp => exact fun _ => .inl ⟨⟨fr, s⟩, by rw [← hw]; exact Framed.poll_item_lt hp, rfl, rfl⟩
      · next fr s hp => exact fun _ => .inr ⟨⟨fr, s⟩, List.mem_append_right _ List.mem_cons_self, rfl, rfl⟩
      · intro hh; cases hh
    rw [← hs] at hcases
    rcases hcases with ⟨i', g1, g2, g3⟩ | ⟨i', g1, g2, g3⟩
    · obtain ⟨m, i'', k1, k2, k3, more', k4⟩ := ih _ g1 (j + 1) i' rfl g2
      exact ⟨m, i'', by omega, k2, k3, more ++ more', by rw [k4, g3, h4, List.append_assoc]⟩
    · exact ⟨j + 1, i', by omega, g1, g2, more, by rw [g3, h4]⟩

/-- Every stream in line comes to its end. -/
theorem waiting_ends [B64] (f : Nat → Turn) (alive : ∀ k, (Parallel.after f k).over = none) (often : ∀ k, ∃ j, k ≤ j ∧ f j = .receive)
    (pre : List (Nat × Inlet)) (n id : Nat) (i : Inlet) (post : List (Nat × Inlet)) (hn : (Parallel.after f n).current = none)
    (h : (Parallel.after f n).streams = pre ++ (id, i) :: post) : ∃ m i', n ≤ m ∧ (id, i') ∈ (Parallel.after f m).closed := by
  induction pre generalizing n post with
  | nil =>
    obtain ⟨j, h1, h2, h3, more, h4⟩ := until_receive f often n
    have hs : Parallel.after f (j + 1) = (Parallel.after f j).step .receive := by rw [← h2]; rfl
    have hc : (Parallel.after f (j + 1)).current = some (id, i) := by
      rw [hs]
      unfold Parallel.step
      rw [if_neg (by simp [alive j])]
      simp only [h3, hn, h4, h, List.nil_append, List.cons_append]
    obtain ⟨m, i', k1, k2, -, -⟩ := current_ends f alive often _ (j + 1) id i rfl hc
    exact ⟨m, i', by omega, k2⟩
  | cons x pre ih =>
    obtain ⟨j, h1, h2, h3, more, h4⟩ := until_receive f often n
    have hs : Parallel.after f (j + 1) = (Parallel.after f j).step .receive := by rw [← h2]; rfl
    have hc : (Parallel.after f (j + 1)).current = some x ∧ (Parallel.after f (j + 1)).streams = pre ++ (id, i) :: (post ++ more) := by
      rw [hs]
      unfold Parallel.step
      rw [if_neg (by simp [alive j])]
      simp only [h3, hn, h4, h, List.cons_append, List.append_assoc, and_self]
    obtain ⟨m, i', k1, -, k3, more', k4⟩ := current_ends f alive often _ (j + 1) x.1 x.2 rfl hc.1
    rw [hc.2, List.append_assoc, List.cons_append] at k4
    obtain ⟨m', i'', q1, q2⟩ := ih m _ k3 k4
    exact ⟨m', i'', by omega, q2⟩

/-- Every client's stream comes to its end. -/
theorem opened_ends [B64] (f : Nat → Turn) (alive : ∀ k, (Parallel.after f k).over = none) (often : ∀ k, ∃ j, k ≤ j ∧ f j = .receive)
    (hands : ∀ k id, id ∈ (Parallel.after f k).handing.map Prod.fst → ∃ j, k ≤ j ∧ id ∉ (Parallel.after f j).handing.map Prod.fst)
    (n id : Nat) (c : AsyncClient) (h : (id, c) ∈ (Parallel.after f n).opened) :
    ∃ m i, n ≤ m ∧ (id, i) ∈ (Parallel.after f m).closed := by
  obtain ⟨k, hk, hh⟩ : ∃ k, n ≤ k ∧ id ∉ (Parallel.after f k).handing.map Prod.fst := by
    by_cases hm : id ∈ (Parallel.after f n).handing.map Prod.fst
    · exact hands n id hm
    · exact ⟨n, Nat.le_refl _, hm⟩
  have ho : (id, c) ∈ (Parallel.after f k).opened := after_keeps f (fun st => (id, c) ∈ st.opened) (fun st t h => step_opened st t _ h) hk h
  have hin : id ∈ ((Parallel.after f k).handing ++ (Parallel.after f k).streams ++ (Parallel.after f k).current.toList ++ (Parallel.after f k).closed).map Prod.fst := by
    refine (after_ids f k).inn.mem_iff.mpr ?_
    rw [← (after_ids f k).opened]
    exact List.mem_map_of_mem (f := Prod.fst) ho
  simp only [List.map_append, List.mem_append, List.mem_map] at hin
  rcases hin with ((hin | ⟨p, hp, e⟩) | ⟨p, hp, e⟩) | ⟨p, hp, e⟩
  · exact absurd (List.mem_map.mpr hin) hh
  · obtain ⟨pre, post, hps⟩ := List.append_of_mem hp
    have hpe : p = (id, p.2) := by rw [← e]
    rw [hpe] at hps
    cases hc : (Parallel.after f k).current with
    | none =>
      obtain ⟨m, i, g1, g2⟩ := waiting_ends f alive often pre k id p.2 post hc hps
      exact ⟨m, i, by omega, g2⟩
    | some x =>
      obtain ⟨m, i', g1, -, g3, more, g4⟩ := current_ends f alive often _ k x.1 x.2 rfl hc
      rw [hps, List.append_assoc, List.cons_append] at g4
      obtain ⟨m', i, q1, q2⟩ := waiting_ends f alive often pre m id p.2 _ g3 g4
      exact ⟨m', i, by omega, q2⟩
  · cases hc : (Parallel.after f k).current with
    | none => rw [hc] at hp; simp at hp
    | some x =>
      rw [hc] at hp
      simp only [Option.toList, List.mem_singleton] at hp
      subst hp
      obtain ⟨m, i', g1, g2, -⟩ := current_ends f alive often _ k p.1 p.2 rfl hc
      exact ⟨m, i', by omega, by rw [← e]; exact g2⟩
  · exact ⟨k, p.2, hk, by rw [← e]; exact hp⟩

/-! ## Greeting -/

theorem step_sending [B64] (st : Parallel) (t : Turn) (id : Nat) : st.sending.count id ≤ (st.step t).sending.count id := by
  unfold Parallel.step
  repeat' split
  all_goals first | exact Nat.le_refl _ | exact List.Sublist.count_le _ (List.sublist_append_left _ _)

/-- A client stays in the table until its greeting is announced. -/
theorem step_pool [B64] (st : Parallel) (t : Turn) (id : Nat) (h : id ∈ st.pool.map Prod.fst) :
    id ∈ (st.step t).pool.map Prod.fst ∨ st.sending.count id < (st.step t).sending.count id := by
  have ins : ∀ {j : Nat} {a : Outlet}, id ∈ (Table.insert st.pool j a).map Prod.fst := by
    intro j a
    obtain ⟨p, hp, e⟩ := List.mem_map.mp h
    by_cases e' : p.1 = j
    · rw [← e, e']; exact List.mem_map_of_mem (Table.mem_insert.mpr (.inl rfl))
    · rw [← e]; exact List.mem_map_of_mem (Table.mem_insert.mpr (.inr ⟨hp, e'⟩))
  unfold Parallel.step
  repeat' split
  all_goals first | exact .inl h | exact .inl ins | skip
  next j _ _ _ _ _ =>
    by_cases e : j = id
    · subst e; right; simp
    · left
      obtain ⟨p, hp, e'⟩ := List.mem_map.mp h
      exact List.mem_map.mpr ⟨p, Table.mem_remove.mpr ⟨hp, by rw [e']; exact Ne.symm e⟩, e'⟩

/-- A request that is not in the channel yet stays, or is in the channel. -/
theorem step_asking [B64] (st : Parallel) (t : Turn) (id : Nat) (h : id ∈ st.asking) : id ∈ (st.step t).asking ∨ id ∈ (st.step t).asked := by
  unfold Parallel.step
  repeat' split
  all_goals first | exact .inl h | exact .inl (List.mem_append_left _ h) | skip
  next i j hj =>
    rcases List.mem_cons.mp ((perm_eraseIdx hj).mem_iff.mp h) with e | e
    · right; rw [e]; simp
    · exact .inl e

/-- What turns other than one of the sending handler do to its channel. -/
theorem step_asked [B64] (st : Parallel) (t : Turn) (ht : t ≠ .send) : ∃ more, (st.step t).asked = st.asked ++ more := by
  have same : ∀ s : List Nat, ∃ more, s = s ++ more := fun s => ⟨[], by simp⟩
  unfold Parallel.step
  repeat' split
  all_goals first | exact absurd rfl ht | exact same _ | exact ⟨_, rfl⟩

theorem until_send [B64] (f : Nat → Turn) (often : ∀ k, ∃ j, k ≤ j ∧ f j = .send) (n : Nat) :
    ∃ j, n ≤ j ∧ f j = .send ∧ ∃ more, (Parallel.after f j).asked = (Parallel.after f n).asked ++ more := by
  obtain ⟨j, hj, hr⟩ := often n
  obtain ⟨d, rfl⟩ := Nat.exists_eq_add_of_le hj
  clear hj
  induction d generalizing n with
  | zero => exact ⟨n, Nat.le_refl _, hr, [], by simp⟩
  | succ d ih =>
    by_cases h : f n = .send
    · exact ⟨n, Nat.le_refl _, h, [], by simp⟩
    · obtain ⟨j, h1, h2, more, h4⟩ := ih (n + 1) (by rw [← hr]; congr 1; omega)
      obtain ⟨more', g2⟩ := step_asked (Parallel.after f n) (f n) h
      exact ⟨j, by omega, h2, more' ++ more, by rw [h4]; show ((Parallel.after f n).step (f n)).asked ++ _ = _; rw [g2, List.append_assoc]⟩

theorem after_sending [B64] (f : Nat → Turn) (id : Nat) {n m : Nat} (h : n ≤ m) :
    (Parallel.after f n).sending.count id ≤ (Parallel.after f m).sending.count id := by
  induction h with
  | refl => exact Nat.le_refl _
  | step _ ih => exact Nat.le_trans ih (step_sending _ _ id)

/-- A request in the channel is taken, and the greeting announced. -/
theorem asked_sends [B64] (f : Nat → Turn) (alive : ∀ k, (Parallel.after f k).over = none) (often : ∀ k, ∃ j, k ≤ j ∧ f j = .send)
    (pre post : List Nat) (n id : Nat) (h : (Parallel.after f n).asked = pre ++ id :: post) :
    ∃ m, n ≤ m ∧ (Parallel.after f n).sending.count id < (Parallel.after f m).sending.count id := by
  induction pre generalizing n post with
  | nil =>
    obtain ⟨j, h1, h2, more, h4⟩ := until_send f often n
    have hs : Parallel.after f (j + 1) = (Parallel.after f j).step .send := by rw [← h2]; rfl
    refine ⟨j + 1, by omega, Nat.lt_of_le_of_lt (after_sending f id h1) ?_⟩
    have ha := alive (j + 1)
    rw [hs] at ha ⊢
    revert ha
    unfold Parallel.step
    rw [if_neg (by simp [alive j])]
    simp only [h4, h, List.nil_append, List.cons_append]
    split
    · intro hh; cases hh
    · intro _; simp
  | cons x pre ih =>
    obtain ⟨j, h1, h2, more, h4⟩ := until_send f often n
    have hs : Parallel.after f (j + 1) = (Parallel.after f j).step .send := by rw [← h2]; rfl
    have hq : (Parallel.after f (j + 1)).asked = pre ++ id :: (post ++ more) := by
      have ha := alive (j + 1)
      rw [hs] at ha ⊢
      revert ha
      unfold Parallel.step
      rw [if_neg (by simp [alive j])]
      simp only [h4, h, List.cons_append]
      split
      · intro hh; cases hh
      · intro _; simp
    obtain ⟨m, k1, k2⟩ := ih (post ++ more) (j + 1) hq
    exact ⟨m, by omega, Nat.lt_of_le_of_lt (after_sending f id (by omega)) k2⟩

/-- A client in the table stays there until its greeting is announced. -/
theorem after_pool [B64] (f : Nat → Turn) (id : Nat) {n m : Nat} (h : n ≤ m) (hp : id ∈ (Parallel.after f n).pool.map Prod.fst) :
    id ∈ (Parallel.after f m).pool.map Prod.fst ∨ (Parallel.after f n).sending.count id < (Parallel.after f m).sending.count id := by
  induction h with
  | refl => exact .inl hp
  | @step m _ ih =>
    rcases ih with ih | ih
    · rcases step_pool (Parallel.after f m) (f m) id ih with h' | h'
      · exact .inl h'
      · exact .inr (Nat.lt_of_le_of_lt (after_sending f id ‹n ≤ m›) h')
    · exact .inr (Nat.lt_of_lt_of_le ih (step_sending _ _ id))

/-- A client whose sends do not fail is greeted again. -/
theorem greeted_again [B64] (f : Nat → Turn) (alive : ∀ k, (Parallel.after f k).over = none)
    (ticks : ∀ k, ∃ j, k ≤ j ∧ f j = .tick) (sends : ∀ k, ∃ j, k ≤ j ∧ f j = .send)
    (asks : ∀ k id, id ∈ (Parallel.after f k).asking → ∃ j, k ≤ j ∧ id ∉ (Parallel.after f j).asking)
    (lands : ∀ k id, id ∈ (Parallel.after f k).flying.map Prod.fst → ∃ j, k ≤ j ∧ id ∉ (Parallel.after f j).flying.map Prod.fst)
    (n id : Nat) (c : AsyncClient) (h : (id, c) ∈ (Parallel.after f n).opened) (hl : ∀ k, id ∉ (Parallel.after f k).lost.map Prod.fst) :
    ∃ m, n ≤ m ∧ (Parallel.after f n).sending.count id < (Parallel.after f m).sending.count id := by
  -- in the table
  obtain ⟨k, hk, hf⟩ : ∃ k, n ≤ k ∧ id ∉ (Parallel.after f k).flying.map Prod.fst := by
    by_cases hm : id ∈ (Parallel.after f n).flying.map Prod.fst
    · exact lands n id hm
    · exact ⟨n, Nat.le_refl _, hm⟩
  have ho : (id, c) ∈ (Parallel.after f k).opened := after_keeps f (fun st => (id, c) ∈ st.opened) (fun st t h => step_opened st t _ h) hk h
  have hin : id ∈ ((Parallel.after f k).pool ++ (Parallel.after f k).flying ++ (Parallel.after f k).lost).map Prod.fst := by
    refine (after_ids f k).out.mem_iff.mpr ?_
    rw [← (after_ids f k).opened]
    exact List.mem_map_of_mem (f := Prod.fst) ho
  have hp : id ∈ (Parallel.after f k).pool.map Prod.fst := by
    rw [List.map_append, List.map_append, List.mem_append, List.mem_append] at hin
    rcases hin with (hin | hin) | hin
    · exact hin
    · exact absurd hin hf
    · exact absurd hin (hl k)
  have hnk := after_sending f id hk
  -- asked for
  obtain ⟨j, hj, hjt⟩ := ticks k
  by_cases hpj : id ∈ (Parallel.after f j).pool.map Prod.fst
  case neg =>
    rcases after_pool f id hj hp with h' | h'
    · exact absurd h' hpj
    · exact ⟨j, by omega, by omega⟩
  have hs : Parallel.after f (j + 1) = (Parallel.after f j).step .tick := by rw [← hjt]; rfl
  have hq : id ∈ (Parallel.after f (j + 1)).asking := by
    rw [hs]
    unfold Parallel.step
    rw [if_neg (by simp [alive j])]
    exact List.mem_append_right _ hpj
  have hnj := after_sending f id (show n ≤ j + 1 by omega)
  -- in the channel
  obtain ⟨q, hq1, hq2⟩ : ∃ q, j + 1 ≤ q ∧ id ∈ (Parallel.after f q).asked := by
    obtain ⟨q, g1, g2⟩ := asks (j + 1) id hq
    obtain ⟨d, rfl⟩ := Nat.exists_eq_add_of_le g1
    clear g1
    revert g2 hq
    generalize j + 1 = a
    induction d generalizing a with
    | zero => intro hq g2; exact absurd hq g2
    | succ d ih =>
      intro hq g2
      rcases step_asking (Parallel.after f a) (f a) id hq with h' | h'
      · obtain ⟨q, k1, k2⟩ := ih (a + 1) h' (by rw [show a + 1 + d = a + (d + 1) by omega]; exact g2)
        exact ⟨q, by omega, k2⟩
      · exact ⟨a + 1, by omega, h'⟩
  obtain ⟨pre, post, he⟩ := List.append_of_mem hq2
  obtain ⟨m, k1, k2⟩ := asked_sends f alive sends pre post q id he
  exact ⟨m, by omega, by have := after_sending f id (show n ≤ q by omega); omega⟩

end WS
