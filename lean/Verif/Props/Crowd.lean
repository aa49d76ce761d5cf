import Verif.Lemmas.Crowd
import Verif.Props.Reception
/-!
# C86: examples/server.rs, and everybody who calls

What a peer gets does not depend on the others; when it gets it does.
-/

namespace WS
open Spec

section
variable [B64] {preq : ReqParser} {g : Nat → Given}

/-- C86: each connection is as if there were no other: what has become of it is what becomes of it alone (Model/Reception) when its own peer does what it has done. -/
theorem C86_alone (es : List Occurs) (i : Nat) : ∃ ds, came ds = sentBy i es ∧ finished ds = hungUp i es ∧
    ((Crowd.start g).endures preq g es).conns i = (Host.start (g i)).endures preq (g i) ds := by
  obtain ⟨ds, h1, h2⟩ := (apart_run (preq := preq) (g := g) es).alone i
  obtain ⟨h3, h4⟩ := came_deeds ds
  rw [h1] at h3 h4
  exact ⟨ds, h3.symm, h4.symm, h2⟩

/-- C86: whatever all the others do, at any time a peer has been written no more than it is owed for its own bytes. -/
theorem C86_written (hg : ∀ i, (g i).server.wire = [] ∧ (g i).server.Willing) (es : List Occurs) (i : Nat) :
    MayBeWritten (((Crowd.start g).endures preq g es).conns i).wire (reception preq (sentBy i es)) := by
  obtain ⟨ds, h1, -, h3⟩ := C86_alone (preq := preq) (g := g) es i
  rw [h3, ← h1]
  exact C85_written (hg i).1 (hg i).2 ds

/-- C86: and nobody is hung up on because of somebody else. -/
theorem C86_gone (hg : ∀ i, (g i).server.wire = [] ∧ (g i).server.Willing) (es : List Occurs) (i : Nat) (h : (((Crowd.start g).endures preq g es).conns i).gone = true) :
    HungUpOn (((Crowd.start g).endures preq g es).conns i).wire (hungUp i es) (reception preq (sentBy i es)) := by
  obtain ⟨ds, h1, h2, h3⟩ := C86_alone (preq := preq) (g := g) es i
  rw [h3] at h ⊢
  rw [← h1, ← h2]
  exact C85_gone (hg i).1 (hg i).2 ds h

/-- C86: but while one peer has sent neither a whole head nor anything that cannot become one, and has not hung up, nobody who has connected after it is answered, whatever they send and whatever happens. -/
theorem C86_blocked (hg : ∀ i, (g i).server.wire = [] ∧ (g i).server.Willing) (es : List Occurs) (j i : Nat) (hd : Dawdles preq j es) (hi : j < i) :
    (((Crowd.start g).endures preq g es).conns i).wire = [] ∧ (((Crowd.start g).endures preq g es).conns i).gone = false := by
  have h := apart_run (preq := preq) (g := g) es
  have hf := dawdler_front hg h hd
  exact reading_silent (apart_stage hg h i) (h.reads i (by omega))

/-- C86, the part that holds: if nobody who has connected before it dawdles, a peer is paid in full as soon as the main thread and the thread of its connection have had turns enough, whatever else is done by
the server's other threads in between.
Missing: the same without the condition on the others (see `C86_blocked`, `C86_refuted_everybody`). -/
theorem C86_served_partial (hg : ∀ i, (g i).server.wire = [] ∧ (g i).server.Willing) (es : List Occurs) (i : Nat) (hi : i < connected es) (hd : ∀ j, j < i → ¬ Dawdles preq j es) :
    ∃ N, ∀ fs : List (List Occurs), (∀ r ∈ fs, Round i r) → N ≤ fs.length →
      let h := ((Crowd.start g).endures preq g (es ++ fs.flatten)).conns i
      Paid h.wire h.gone (hungUp i es) (reception preq (sentBy i es)) := by
  have h := apart_run (preq := preq) (g := g) es
  have hs := apart_stage hg h i
  have own : ∀ fs : List (List Occurs), (∀ r ∈ fs, Round i r) → ∀ e ∈ fs.flatten, Own e := by
    intro fs hf e he
    obtain ⟨r, h1, h2⟩ := List.mem_flatten.mp he
    exact (hf r h1).1 e h2
  have split : ∀ fs, (Crowd.start g).endures preq g (es ++ fs) = ((Crowd.start g).endures preq g es).endures preq g fs := by
    intro fs; unfold Crowd.endures; rw [List.foldl_append]
  by_cases hdi : Dawdles preq i es
  · refine ⟨0, fun fs hf _ => ?_⟩
    intro h'
    have h2 := apart_run (preq := preq) (g := g) (es ++ fs.flatten)
    obtain ⟨k1, k2, -⟩ := own_after i es (own fs hf)
    have hd2 : Dawdles preq i (es ++ fs.flatten) := by unfold Dawdles; rw [k1, k2]; exact hdi
    have := reading_silent (apart_stage hg h2 i) (h2.reads i (dawdler_front hg h2 hd2))
    rw [hdi.1, hdi.2]
    exact this
  · obtain ⟨N, h', h1, h2, h3⟩ := host_rests (hg i).1 (hg i).2 hs
    refine ⟨N + (i + 1), fun fs hf hn => ?_⟩
    obtain ⟨k, k1, k2⟩ := rounds_go hg i fs hf h (by rw [h.made]; exact hi) (fun j hj => by
      rcases Nat.lt_or_eq_of_le hj with hj | rfl
      · exact hd j hj
      · exact hdi)
    intro x
    have hx : x = h' := by
      show ((Crowd.start g).endures preq g (es ++ fs.flatten)).conns i = h'
      rw [split, k1, show k = N + (k - N) by omega, turns_add, h1, turns_fixed h2]
    rw [hx]
    exact ease_paid h3

/-- C86: so what a peer gets in the end depends on nothing but its own bytes and whether it hung up: not on what the others send, how everything is cut and timed, in what order the threads run, and what the transports do. -/
theorem C86_deterministic {g' : Nat → Given} (hg : ∀ i, (g i).server.wire = [] ∧ (g i).server.Willing) (hg' : ∀ i, (g' i).server.wire = [] ∧ (g' i).server.Willing) (es es' : List Occurs) (i i' : Nat)
    (hi : i < connected es) (hi' : i' < connected es') (hd : ∀ j, j < i → ¬ Dawdles preq j es) (hd' : ∀ j, j < i' → ¬ Dawdles preq j es') (hb : sentBy i es = sentBy i' es') (hf : hungUp i es = hungUp i' es') :
    ∃ N, ∀ fs fs' : List (List Occurs), (∀ r ∈ fs, Round i r) → (∀ r ∈ fs', Round i' r) → N ≤ fs.length → N ≤ fs'.length →
      let h := ((Crowd.start g).endures preq g (es ++ fs.flatten)).conns i
      let h' := ((Crowd.start g').endures preq g' (es' ++ fs'.flatten)).conns i'
      h.wire = h'.wire ∧ h.gone = h'.gone := by
  obtain ⟨N, h⟩ := C86_served_partial hg es i hi hd
  obtain ⟨N', h'⟩ := C86_served_partial hg' es' i' hi' hd'
  refine ⟨N + N', fun fs fs' h1 h2 h3 h4 => ?_⟩
  have a := h fs h1 (by omega)
  have b := h' fs' h2 (by omega)
  rw [← hb, ← hf] at b
  exact paid_once a b

end

/-! ## Concrete cases -/

/-- Transports that take what is written in pieces of various sizes. -/
def crowdGiven (i : Nat) : Given := { wholeGiven with server := ⟨[], [.accept (i + 1), .error .interrupted]⟩ }

theorem crowd_given (i : Nat) : (crowdGiven i).server.wire = [] ∧ (crowdGiven i).server.Willing := ⟨rfl, by
  unfold Sink.Willing
  intro e he
  simp only [crowdGiven, List.mem_cons, List.not_mem_nil, or_false] at he
  rcases he with rfl | rfl
  · exact .inr ⟨i + 1, by omega, rfl⟩
  · exact .inl rfl⟩

/-- Three connect; the first sends something else, the second hangs up within its head, and the third is served. -/
def queue : List Occurs := [.connects, .connects, .bytes 1 caller1, .main, .thread 1, .bytes 0 rudeBytes, .connects, .bytes 2 caller1, .main, .bytes 2 caller2, .finish 1, .main, .bytes 2 caller3]

theorem queue_sent : sentBy 2 queue = caller1 ++ caller2 ++ caller3 ∧ sentBy 0 queue = rudeBytes ∧ sentBy 1 queue = caller1 ∧ hungUp 1 queue = true ∧ hungUp 2 queue = false := by
  refine ⟨?_, ?_, ?_, ?_, ?_⟩ <;> simp [sentBy, hungUp, doings, queue, came, finished]

theorem queue_patient (j : Nat) (hj : j < 2) : ¬ @Dawdles B64.strict reqParser j queue := by
  intro ⟨h1, h2⟩
  rcases (by omega : j = 0 ∨ j = 1) with rfl | rfl
  · rw [queue_sent.2.1] at h1
    have : @reception B64.strict reqParser rudeBytes = .drops := by decide +kernel
    rw [this] at h1; cases h1
  · rw [queue_sent.2.2.2.1] at h2; cases h2

example := @C86_served_partial B64.strict reqParser crowdGiven crowd_given queue 2 (by decide) queue_patient
example := @C86_alone B64.strict reqParser crowdGiven queue 2
set_option maxRecDepth 8000 in
example := @C86_written B64.strict reqParser crowdGiven crowd_given queue 2

/-- The hypothesis of a round: the main thread, the thread of the third connection, and some others. -/
theorem queue_round : Round 2 [.thread 7, .main, .thread 2, .main, .thread 0] := by
  refine ⟨fun e he => ?_, by simp, by simp⟩
  simp only [List.mem_cons, List.not_mem_nil, or_false] at he
  rcases he with rfl | rfl | rfl | rfl | rfl
  · exact .inr ⟨7, rfl⟩
  · exact .inl rfl
  · exact .inr ⟨2, rfl⟩
  · exact .inl rfl
  · exact .inr ⟨0, rfl⟩

/-- The queue, and five rounds. -/
def queueLater : List Occurs := queue ++ (List.replicate 5 [.thread 7, .main, .thread 2, .main, .thread 0]).flatten

theorem queue_end : (let x := @Crowd.endures B64.strict reqParser crowdGiven (Crowd.start crowdGiven) queueLater
      ((x.conns 0).wire, (x.conns 0).gone, (x.conns 1).wire, (x.conns 1).gone, (x.conns 2).wire, (x.conns 2).gone)) =
    ([], true, [], true, callerAnswer ++ [0x81, 5] ++ ascii "Hello" ++ [0x8a, 1, 7], false) := by decide +kernel

theorem queue_gone : ((@Crowd.endures B64.strict reqParser crowdGiven (Crowd.start crowdGiven) queueLater).conns 0).gone = true := by decide +kernel

/-- The same caller alone, with another transport: it gets the same. -/
example := @C86_deterministic B64.strict reqParser crowdGiven crowdGiven crowd_given crowd_given queue [.connects, .bytes 0 (caller1 ++ caller2 ++ caller3)] 2 0 (by decide) (by decide) queue_patient
  (fun j hj => absurd hj (Nat.not_lt_zero j)) (by rw [queue_sent.1]; simp [sentBy, doings, came]) (by rw [queue_sent.2.2.2.2]; simp [hungUp, doings, finished])

/-- `C86_gone`: the one that sent something else. -/
example := @C86_gone B64.strict reqParser crowdGiven crowd_given queueLater 0 queue_gone

/-- The first has sent half a head, and the second all of a good request. -/
def stuck : List Occurs := [.connects, .connects, .bytes 1 (caller1 ++ caller2), .main, .bytes 0 caller1, .main]

theorem stuck_dawdles {fs : List Occurs} (hf : ∀ e ∈ fs, Own e) : @Dawdles B64.strict reqParser 0 (stuck ++ fs) := by
  obtain ⟨h1, h2, -⟩ := own_after 0 stuck hf
  have h3 : sentBy 0 stuck = caller1 := by simp [sentBy, doings, stuck, came]
  have h4 : hungUp 0 stuck = false := by simp [hungUp, doings, stuck, finished]
  refine ⟨?_, by rw [h2, h4]⟩
  rw [h1, h3]
  decide +kernel

example := @C86_blocked B64.strict reqParser crowdGiven crowd_given stuck 0 1 (by have := stuck_dawdles (fs := []) nofun; rwa [List.append_nil] at this) (by decide)

set_option maxRecDepth 4000 in
/-- C86 does not hold for everybody: one peer that connects and sends half a head keeps the server from answering the good request of the next, however often all threads have their turns. -/
theorem C86_refuted_everybody : ∃ (preq : ReqParser) (g : Nat → Given) (es : List Occurs) (i : Nat), (∀ i, (g i).server.wire = [] ∧ (g i).server.Willing) ∧ i < connected es ∧
    ∀ fs : List (List Occurs), (∀ r ∈ fs, Round i r) →
      let h := (@Crowd.endures B64.strict preq g (Crowd.start g) (es ++ fs.flatten)).conns i
      ¬ Paid h.wire h.gone (hungUp i es) (@reception B64.strict preq (sentBy i es)) := by
  refine ⟨reqParser, crowdGiven, stuck, 1, crowd_given, by decide, fun fs hf => ?_⟩
  intro h hp
  have hown : ∀ e ∈ fs.flatten, Own e := by
    intro e he
    obtain ⟨r, h1, h2⟩ := List.mem_flatten.mp he
    exact (hf r h1).1 e h2
  have hb := (@C86_blocked B64.strict reqParser crowdGiven crowd_given (stuck ++ fs.flatten) 0 1 (stuck_dawdles hown) (by decide)).1
  have hs : sentBy 1 stuck = caller1 ++ caller2 := by simp [sentBy, doings, stuck, came]
  have hr : @reception B64.strict reqParser (caller1 ++ caller2) = .serves callerAnswer [] := by decide +kernel
  rw [hs, hr] at hp
  obtain ⟨ms, out, -, -, h3, -⟩ := hp
  have hb : h.wire = [] := hb
  rw [hb] at h3
  have : callerAnswer = [] := (List.append_eq_nil_iff.mp h3.symm).1
  have hne : callerAnswer ≠ [] := by decide +kernel
  exact hne this

end WS
