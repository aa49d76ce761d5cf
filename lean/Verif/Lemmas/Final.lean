import Verif.Lemmas.Upgraded
/-!
# Lemmas for C89 and C90: what has been written stays written, and nothing is written to a peer that has been let go of
-/

namespace WS

/-- Only who has been through the handshake, or has failed in it, is let go of. -/
def Desk.Sound (x : Desk) : Prop := x.task.phase.isOver = true → x.door = .through ∨ x.door = .dropped

/-- `y` comes after `x`. -/
structure Succeeds (x y : Desk) : Prop where
  keeps : x.task.out.wire <+: y.task.out.wire
  sound : x.Sound → y.Sound
  final : x.Sound → x.gone = true → y.gone = true ∧ y.task.out.wire = x.task.out.wire

theorem Succeeds.refl (x : Desk) : Succeeds x x := ⟨List.prefix_refl _, id, fun _ h => ⟨h, rfl⟩⟩

theorem Succeeds.trans {x y z : Desk} (h : Succeeds x y) (h' : Succeeds y z) : Succeeds x z :=
  ⟨h.keeps.trans h'.keeps, h'.sound ∘ h.sound, fun a b => by
    obtain ⟨c, d⟩ := h.final a b
    obtain ⟨e, f⟩ := h'.final (h.sound a) c
    exact ⟨e, f.trans d⟩⟩

theorem pollComplete_keeps (fw : FramedWrite) (w : Sink) : w.wire <+: (fw.pollComplete w).2.2.wire := by
  fun_induction FramedWrite.pollComplete fw w with
  | case1 => exact List.prefix_refl _
  | case2 => exact List.prefix_append _ _
  | case3 => exact List.prefix_refl _
  | case4 => exact List.prefix_refl _
  | case5 => exact List.prefix_refl _
  | case6 fw wire n s h1 h2 ih => exact (List.prefix_append _ _).trans ih

theorem flush_keeps (o : Outbox) (script : List WEv) : o.wire <+: (o.flush script).2.wire := pollComplete_keeps o.sink ⟨o.wire, script⟩

theorem startSend_keeps (fw : FramedWrite) (v : FrameView) (key : Key4) (extra : Nat) (w : Sink) : w.wire <+: (fw.startSend v key extra w).2.2.wire := by
  have h := pollComplete_keeps fw w
  unfold FramedWrite.startSend
  simp only
  split
  · split
    · next hq => rw [hq] at h; exact h
    · next hq => rw [hq] at h; exact h
    · next hq =>
      rw [hq] at h
      split
      · exact h
      · split <;> exact h
  · split <;> exact List.prefix_refl _

theorem push_keeps (o : Outbox) (m : OwnedMsg) (script : List WEv) : o.wire <+: (o.push m script).2.wire := by
  have := startSend_keeps o.sink m.view (o.keys 0) o.extra ⟨o.wire, script⟩
  unfold Outbox.push
  split
  · next h => rw [h] at this; exact this
  · next h => rw [h] at this; exact this

theorem after_out (t : ServeTask) (p : ServePhase) (q : SendRes × Outbox) : (t.after p q).out = q.2 := by
  obtain ⟨r, o⟩ := q
  cases r <;> rfl

theorem serveTurn_keeps (t : ServeTask) (s : Src) (script : List WEv) : t.out.wire <+: (t.turn s script).1.out.wire := by
  unfold ServeTask.turn
  split
  · exact List.prefix_refl _
  · simp only [after_out]; exact push_keeps _ _ _
  · simp only [after_out]; exact flush_keeps _ _
  · simp only [after_out]; exact push_keeps _ _ _
  · split
    · simp only [after_out]; exact flush_keeps _ _
    all_goals exact List.prefix_refl _
  · simp only [after_out]; exact flush_keeps _ _
  · simp only [after_out]; exact push_keeps _ _ _
  · simp only [after_out]; exact flush_keeps _ _

theorem serveTurn_over (t : ServeTask) (s : Src) (script : List WEv) (h : t.phase.isOver = true) : (t.turn s script).1 = t := by
  unfold ServeTask.turn
  split
  · rfl
  all_goals
    next hp => rw [hp] at h; cases h

/-- A task that is through has had a turn. -/
theorem through_later {x : Desk} (hd : x.door = .through) (n k : Nat) (w : Bytes) :
    Succeeds x { x with door := .through, task := (x.task.turn (offered x.waiting n x.ended) (granted k k)).1, waiting := w } where
  keeps := serveTurn_keeps _ _ _
  sound := fun _ _ => .inl rfl
  final := fun _ h => by
    have := serveTurn_over x.task (offered x.waiting n x.ended) (granted k k) h
    refine ⟨?_, ?_⟩
    · show (x.task.turn (offered x.waiting n x.ended) (granted k k)).1.phase.isOver = true
      rw [this]; exact h
    · show (x.task.turn (offered x.waiting n x.ended) (granted k k)).1.out.wire = _
      rw [this]

/-- Still in the handshake, so not let go of. -/
theorem Desk.Sound.busy {x : Desk} (h : x.Sound) (h1 : x.door ≠ .through) (h2 : x.door ≠ .dropped) : x.task.phase.isOver = false := by
  cases hp : x.task.phase.isOver with
  | false => rfl
  | true => rcases h hp with h | h; exact absurd h h1; exact absurd h h2

theorem early_later {x y : Desk} (h1 : x.door ≠ .through) (h2 : x.door ≠ .dropped) (hk : x.task.out.wire <+: y.task.out.wire) (hs : x.task.phase.isOver = false → y.Sound) : Succeeds x y :=
  ⟨hk, fun h => hs (h.busy h1 h2), fun h hg => by rw [Desk.gone, h.busy h1 h2] at hg; cases hg⟩

section
variable [B64] {preq : ReqParser}

omit [B64] in
theorem drops_sound (x : Desk) : x.drops.Sound := fun _ => .inr rfl

theorem asked_later (x y : Desk) (hy : y.task = x.task) (h1 : x.door ≠ .through) (h2 : x.door ≠ .dropped) (m : Request) (b : Bytes) : Succeeds x (y.asked m b) := by
  refine early_later h1 h2 ?_ fun h => ?_
  · rw [← hy]
    unfold Desk.asked
    split
    · exact List.prefix_refl _
    · simp only
      split
      · split
        · split <;> exact List.prefix_refl _
        · exact List.prefix_refl _
      · exact List.prefix_refl _
  · rw [← hy] at h
    unfold Desk.asked
    split
    · exact drops_sound _
    · simp only
      split
      · split
        · split
          · exact drops_sound _
          · intro hx; exact absurd (h.symm.trans hx) nofun
        · exact drops_sound _
      · intro hx; exact absurd (h.symm.trans hx) nofun

theorem admitted_later (x y : Desk) (hy : y.task = x.task) (h1 : x.door ≠ .through) (h2 : x.door ≠ .dropped) (m : Request) (b : Bytes) : Succeeds x (y.admitted m b) := by
  refine early_later h1 h2 ?_ fun h => ?_
  · rw [← hy]
    unfold Desk.admitted
    split
    · exact List.prefix_refl _
    · simp only
      split
      · split <;> exact List.prefix_refl _
      · exact List.prefix_refl _
  · rw [← hy] at h
    unfold Desk.admitted
    split
    · exact drops_sound _
    · simp only
      split
      · split
        · exact fun _ => .inl rfl
        · intro hx; exact absurd (h.symm.trans hx) nofun
      · exact fun _ => .inl rfl

theorem poll_later (x : Desk) (n k : Nat) : Succeeds x (x.poll preq n k) := by
  unfold Desk.poll
  cases hd : x.door with
  | reading fr =>
    simp only
    split
    · refine early_later (by rw [hd]; nofun) (by rw [hd]; nofun) (List.prefix_refl _) fun h hx => absurd (h.symm.trans hx) nofun
    · refine asked_later x _ ?_ (by rw [hd]; nofun) (by rw [hd]; nofun) _ _
      rfl
    · exact early_later (by rw [hd]; nofun) (by rw [hd]; nofun) (List.prefix_refl _) fun _ => drops_sound _
  | answering a =>
    simp only
    have hf := flush_keeps x.task.out (granted k k)
    split
    · next o ho =>
      rw [ho] at hf
      refine early_later (by rw [hd]; nofun) (by rw [hd]; nofun) ?_ fun h => ?_
      · split <;> exact hf
      · split
        · exact fun _ => .inl rfl
        · exact drops_sound _
    · next o ho =>
      rw [ho] at hf
      exact early_later (by rw [hd]; nofun) (by rw [hd]; nofun) hf fun h hx => absurd (h.symm.trans hx) nofun
    · next o _ _ ho =>
      rw [ho] at hf
      exact early_later (by rw [hd]; nofun) (by rw [hd]; nofun) hf fun _ => drops_sound _
  | through => exact through_later hd n k _
  | dropped => exact Succeeds.refl x

theorem tick_later (x : Desk) (n k : Nat) : Succeeds x (x.tick preq n k) := by
  unfold Desk.tick
  cases hd : x.door with
  | reading fr =>
    simp only
    split
    · refine early_later (by rw [hd]; nofun) (by rw [hd]; nofun) (List.prefix_refl _) fun h hx => absurd (h.symm.trans hx) nofun
    · refine admitted_later x _ ?_ (by rw [hd]; nofun) (by rw [hd]; nofun) _ _
      rfl
    · exact early_later (by rw [hd]; nofun) (by rw [hd]; nofun) (List.prefix_refl _) fun _ => drops_sound _
  | answering a =>
    simp only
    have hf := flush_keeps x.task.out (granted k k)
    split
    · next o ho =>
      rw [ho] at hf
      exact early_later (by rw [hd]; nofun) (by rw [hd]; nofun) hf fun h _ => .inl rfl
    · next o ho =>
      rw [ho] at hf
      exact early_later (by rw [hd]; nofun) (by rw [hd]; nofun) hf fun h hx => absurd (h.symm.trans hx) nofun
    · next o _ _ ho =>
      rw [ho] at hf
      exact early_later (by rw [hd]; nofun) (by rw [hd]; nofun) hf fun _ _ => .inl rfl
  | through => exact through_later hd n k _
  | dropped => exact Succeeds.refl x

omit [B64] in
theorem same_later {x y : Desk} (ht : y.task = x.task) (hd : y.door = x.door) : Succeeds x y :=
  ⟨by rw [ht]; exact List.prefix_refl _, fun h hx => by rw [hd]; exact h (by rw [← ht]; exact hx), fun _ h => by unfold Desk.gone at h ⊢; rw [ht]; exact ⟨h, rfl⟩⟩

theorem meets_later (x : Desk) (e : Befalls) : Succeeds x (x.meets preq e) := by
  cases e with
  | poll n k => exact poll_later x n k
  | bytes b => unfold Desk.meets; simp only; split; exact Succeeds.refl x; exact same_later rfl rfl
  | finish => exact same_later rfl rfl

theorem takes_later (x : Desk) (e : Befalls) : Succeeds x (x.takes preq e) := by
  cases e with
  | poll n k => exact tick_later x n k
  | bytes b => unfold Desk.takes; simp only; split; exact Succeeds.refl x; exact same_later rfl rfl
  | finish => exact same_later rfl rfl

/-! ## All connections -/

theorem bureau_put_later (x : Bureau) (j : Nat) {d : Desk} (h : Succeeds (x.conns j) d) (i : Nat) : Succeeds (x.conns i) ((x.put j d).conns i) := by
  show Succeeds (x.conns i) (if i = j then d else x.conns i)
  split
  · next h' => rw [h']; exact h
  · exact Succeeds.refl _

theorem bureau_later (es : List Occasion) : ∀ (x : Bureau) (i : Nat), Succeeds (x.conns i) ((x.endures preq es).conns i) := by
  induction es with
  | nil => exact fun x i => Succeeds.refl _
  | cons e es ih =>
    intro x i
    refine Succeeds.trans ?_ (ih (x.meets preq e) i)
    cases e with
    | connects => exact Succeeds.refl _
    | main ps =>
      show Succeeds (x.conns i) ((ps.foldl (Bureau.reads preq) x).conns i)
      induction ps generalizing x with
      | nil => exact Succeeds.refl _
      | cons p ps ih' =>
        refine Succeeds.trans ?_ (ih' (x.reads preq p))
        unfold Bureau.reads
        split
        · exact bureau_put_later x _ (poll_later _ _ _) i
        · exact Succeeds.refl _
    | task j n k => unfold Bureau.meets; simp only; split; exact bureau_put_later x _ (poll_later _ _ _) i; exact Succeeds.refl _
    | bytes j b => unfold Bureau.meets; simp only; split; exact bureau_put_later x _ (meets_later _ _) i; exact Succeeds.refl _
    | finish j => unfold Bureau.meets; simp only; split; exact bureau_put_later x _ (meets_later _ _) i; exact Succeeds.refl _

theorem hall_put_later (x : Hall) (j : Nat) {d : Desk} (h : Succeeds (x.conns j) d) (i : Nat) : Succeeds (x.conns i) ((x.put j d).conns i) := by
  show Succeeds (x.conns i) (if i = j then d else x.conns i)
  split
  · next h' => rw [h']; exact h
  · exact Succeeds.refl _

theorem hall_later (es : List Occasion) : ∀ (x : Hall) (i : Nat), Succeeds (x.conns i) ((x.endures preq es).conns i) := by
  induction es with
  | nil => exact fun x i => Succeeds.refl _
  | cons e es ih =>
    intro x i
    refine Succeeds.trans ?_ (ih (x.meets preq e) i)
    cases e with
    | connects => exact Succeeds.refl _
    | main ps =>
      show Succeeds (x.conns i) ((ps.foldl (Hall.reads preq) x).conns i)
      induction ps generalizing x with
      | nil => exact Succeeds.refl _
      | cons p ps ih' =>
        refine Succeeds.trans ?_ (ih' (x.reads preq p))
        unfold Hall.reads
        split
        · exact hall_put_later x _ (tick_later _ _ _) i
        · exact Succeeds.refl _
    | task j n k => unfold Hall.meets; simp only; split; exact hall_put_later x _ (tick_later _ _ _) i; exact Succeeds.refl _
    | bytes j b => unfold Hall.meets; simp only; split; exact hall_put_later x _ (takes_later _ _) i; exact Succeeds.refl _
    | finish j => unfold Hall.meets; simp only; split; exact hall_put_later x _ (takes_later _ _) i; exact Succeeds.refl _

end

end WS
