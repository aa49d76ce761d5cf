import Verif.Lemmas.Dialogue
/-!
# C54: two programs talking to each other do not get stuck

Two programs, blocking or async, with the connection open, run side by side; an arbitrary scheduler gives them turns and lets the network
carry any number of bytes at a time.
-/

namespace WS
open Spec

/-- A program on a new client: `mask` says whether what it hears is masked (it is, for a server), `lim` the largest
frame it takes, `w` how the transport takes its bytes. -/
inductive Starts : (mask : Bool) → (lim : Nat) → List Talk → Party → Prop
  | blocking (isServer : Bool) (maxDf maxMsg : Nat) (ts : List Talk) (w : Sink) (hw : w.Willing) (h0 : w.wire = []) :
    Starts isServer (min maxDf u32Max) ts (Party.blocking isServer maxDf maxMsg ts w)
  | async (ctx : Context) (maxDf maxMsg : Nat) (ts : List Talk) (w : Sink) (hw : w.Patient) (h0 : w.wire = []) :
    Starts (decide (ctx = .server)) (min maxDf u32Max) ts (Party.async ctx maxDf maxMsg ts w)

theorem Starts.lim_lt {mask lim ts p} (h : Starts mask lim ts p) : lim < 2 ^ 63 := by
  cases h <;> exact Nat.lt_of_le_of_lt (Nat.min_le_right _ _) (by decide)

theorem Starts.flow {mask lim lim' mine theirs p q} (h : Starts mask lim mine p) (g : Starts (!mask) lim' theirs q)
    (hs : ∀ x ∈ said theirs, x.1.spec.Sendable lim) : Flow mask lim mine theirs 0 0 [] p q := by
  have hp : p.heard = [] ∧ p.ended = false ∧ p.ear.Good mask lim p.arrived ∧ p.ear.deaf = false ∧ p.pending = [] := by
    cases h with
    | blocking maxDf maxMsg w hw h0 => exact ⟨rfl, rfl, ⟨⟨_, _, rfl, rfl⟩, trivial⟩, rfl, rfl⟩
    | async ctx maxDf maxMsg w hw h0 =>
      refine ⟨rfl, rfl, ⟨⟨ctx, maxDf, maxMsg, rfl, rfl, rfl⟩, (fun e he => by cases he), fun _ => ?_, (fun x => by cases x)⟩, rfl, rfl⟩
      exact decode_truncated ctx maxDf maxMsg (truncated_nil _ _)
  have hq : q.output.wire = [] ∧ q.carried = 0 ∧ q.todo = theirs ∧ q.sent = [] ∧ q.voice.Good mask q.output := by
    generalize hm : (!mask) = mask' at g
    cases g with
    | blocking _ maxDf maxMsg _ w hw h0 =>
      refine ⟨h0, rfl, rfl, rfl, ?_, hw⟩
      show (!(mask')) = mask
      rw [← hm]; simp
    | async ctx maxDf maxMsg _ w hw h0 =>
      refine ⟨h0, rfl, rfl, rfl, ?_, hw, Nat.zero_le _, rfl⟩
      show decide (ctx = .server) = _
      rw [← hm]
  obtain ⟨h1, h2, h3, h4, h5⟩ := hp
  obtain ⟨g1, g2, g3, g4, g5⟩ := hq
  have ht : q.transit = [] := by unfold Party.transit; rw [g1]; simp
  refine ⟨rfl, by simp, by rw [g1]; rfl, by omega, ?_, ?_, .inl (Nat.le_refl _), by simp [h2], h3, by simp [h4], by rw [g3]; rfl, Nat.zero_le _, g5, by rw [g4]; rfl, hs⟩
  · rw [h5, ht]; rfl
  · rw [h1]; simp [expected, hears]

/-- The start of a dialogue: the client masks what it sends, and each program sends what the other can take. -/
structure Opened (lc ls : Nat) (cts sts : List Talk) (d : Dialogue) : Prop where
  client : Starts false lc cts d.client
  server : Starts true ls sts d.server
  client_says : ∀ x ∈ said cts, x.1.spec.Sendable ls
  server_says : ∀ x ∈ said sts, x.1.spec.Sendable lc

theorem Opened.together {lc ls cts sts d} (h : Opened lc ls cts sts d) : Together false true lc ls cts sts d 0 0 [] [] :=
  ⟨h.client.flow h.server h.server_says, h.server.flow h.client h.client_says⟩

/-- Whatever the schedule: at any time each program has done the first so many calls of its list, all its sends have succeeded, and
its receiving calls have told it exactly what the other's list says, in order; they have come no further than the two
lists allow. -/
theorem C54_safe {lc ls : Nat} {cts sts : List Talk} {d : Dialogue} (h : Opened lc ls cts sts d) (es : List Happens) :
    ∃ i j, Reach cts sts i j ∧ (d.run es).client.todo = cts.drop i ∧ (d.run es).server.todo = sts.drop j ∧
      (d.run es).client.sent = (said (cts.take i)).map (fun _ => true) ∧ (d.run es).server.sent = (said (sts.take j)).map (fun _ => true) ∧
      (d.run es).client.heard = expected ((said sts).map Prod.fst) (hears (cts.take i)) ∧
      (d.run es).server.heard = expected ((said cts).map Prod.fst) (hears (sts.take j)) := by
  obtain ⟨i, j, bc, bs, h1, h2⟩ := run_together h.client.lim_lt h.server.lim_lt es h.together
  exact ⟨i, j, h2.reach .start, h1.server.todo, h1.client.todo, h1.server.sent, h1.client.sent, h1.client.heard, h1.server.heard⟩

/-- If the two lists can be carried out at all, then under every fair schedule, however the network cuts the bytes, both programs come to their ends, and
each has heard everything it listened for. -/
theorem C54_no_deadlock {lc ls : Nat} {cts sts : List Talk} {d : Dialogue} (h : Opened lc ls cts sts d) (hm : Matched cts sts) (f : Nat → Happens)
    (hf : FairNet f) :
    ∃ n, ∀ k, n ≤ k → (d.run ((List.range k).map f)).client.todo = [] ∧ (d.run ((List.range k).map f)).server.todo = [] ∧
      (d.run ((List.range k).map f)).client.sent = (said cts).map (fun _ => true) ∧
      (d.run ((List.range k).map f)).server.sent = (said sts).map (fun _ => true) ∧
      (d.run ((List.range k).map f)).client.heard = expected ((said sts).map Prod.fst) (hears cts) ∧
      (d.run ((List.range k).map f)).server.heard = expected ((said cts).map Prod.fst) (hears sts) := by
  have h0 : Together false true lc ls cts sts (d.at f 0) 0 0 [] [] := h.together
  obtain ⟨n, bc, bs, -, h1⟩ := matched_ends h.client.lim_lt h.server.lim_lt hf hm (cts.length + sts.length) h0 (by omega)
  refine ⟨n, fun k hk => ?_⟩
  obtain ⟨i, j, bc', bs', h2, h3⟩ := at_together h.client.lim_lt h.server.lim_lt h1 k hk
  have ei : i = cts.length := by have := h3.hi; have := h2.server.le; omega
  have ej : j = sts.length := by have := h3.hj; have := h2.client.le; omega
  subst ei ej
  have k1 := h2.server.todo
  have k2 := h2.client.todo
  have k3 := h2.server.sent
  have k4 := h2.client.sent
  have k5 := h2.client.heard
  have k6 := h2.server.heard
  rw [List.drop_length] at k1 k2
  rw [List.take_length] at k3 k4 k5 k6
  exact ⟨k1, k2, k3, k4, k5, k6⟩

/-- Conversely, if programs come to their ends under some schedule, their lists allow it: the library never lets a receiving call return
with a message that has not been sent. -/
theorem C54_deadlock_is_the_programs {lc ls : Nat} {cts sts : List Talk} {d : Dialogue} (h : Opened lc ls cts sts d) (es : List Happens)
    (hc : (d.run es).client.todo = []) (hs : (d.run es).server.todo = []) : Matched cts sts := by
  obtain ⟨i, j, bc, bs, h1, h2⟩ := run_together h.client.lim_lt h.server.lim_lt es h.together
  have e1 := h1.server.todo
  have e2 := h1.client.todo
  rw [hc] at e1
  rw [hs] at e2
  have e1 := List.drop_eq_nil_iff.mp e1.symm
  have e2 := List.drop_eq_nil_iff.mp e2.symm
  have ei : i = cts.length := by have := h1.server.le; omega
  have ej : j = sts.length := by have := h1.client.le; omega
  subst ei ej
  exact h2.reach .start

/-- From any point of any schedule, programs that fit together can still be brought to their ends: no schedule spoils it. -/
theorem C54_never_too_late {lc ls : Nat} {cts sts : List Talk} {d : Dialogue} (h : Opened lc ls cts sts d) (hm : Matched cts sts) (es : List Happens) :
    ∃ fs, (d.run (es ++ fs)).client.todo = [] ∧ (d.run (es ++ fs)).server.todo = [] := by
  let rest : Nat → Happens := fun n => if n % 4 = 0 then .act .client else if n % 4 = 1 then .carry .client 0 else if n % 4 = 2 then .act .server else .carry .server 0
  have hfair : FairNet rest := by
    intro who n
    cases who
    · exact ⟨⟨4 * n, by omega, by simp [rest]⟩, 4 * n + 1, 0, by omega, by simp [rest, Nat.add_mod]⟩
    · exact ⟨⟨4 * n + 2, by omega, by simp [rest, Nat.add_mod]⟩, 4 * n + 3, 0, by omega, by simp [rest, Nat.add_mod]⟩
  obtain ⟨i, j, bc, bs, h1, -⟩ := run_together h.client.lim_lt h.server.lim_lt es h.together
  have h0 : Together false true lc ls cts sts ((d.run es).at rest 0) i j bc bs := h1
  obtain ⟨n, bc', bs', -, h2⟩ := matched_ends h.client.lim_lt h.server.lim_lt hfair hm (cts.length + sts.length) h0 (by omega)
  refine ⟨(List.range n).map rest, ?_⟩
  have e : d.run (es ++ (List.range n).map rest) = (d.run es).at rest n := by
    unfold Dialogue.at Dialogue.run
    rw [List.foldl_append]
  rw [e]
  refine ⟨?_, ?_⟩
  · rw [h2.server.todo, List.drop_length]
  · rw [h2.client.todo, List.drop_length]

/-! ## Pairs that fit together, and pairs that do not -/

/-- Question and answer, any number of times. -/
def questions (m : OwnedMsg) (key : Key4) : Nat → List Talk
  | 0 => []
  | n + 1 => questions m key n ++ [.say m key 0, .hear]

def answers (m : OwnedMsg) (key : Key4) : Nat → List Talk
  | 0 => []
  | n + 1 => answers m key n ++ [.hear, .say m key 0]

theorem talk_lengths (m : OwnedMsg) (key : Key4) (n : Nat) :
    (questions m key n).length = 2 * n ∧ (answers m key n).length = 2 * n ∧ hears (questions m key n) = n ∧ hears (answers m key n) = n ∧
      (said (questions m key n)).length = n ∧ (said (answers m key n)).length = n := by
  induction n with
  | zero => exact ⟨rfl, rfl, rfl, rfl, rfl, rfl⟩
  | succ n ih =>
    obtain ⟨h1, h2, h3, h4, h5, h6⟩ := ih
    simp only [questions, answers, List.length_append, hears_append, said_append, hears, said, List.length_cons, List.length_nil]
    omega

theorem talk_split (m m' : OwnedMsg) (key key' : Key4) {k n : Nat} (h : k < n) :
    (∃ r, questions m key n = questions m key k ++ .say m key 0 :: .hear :: r) ∧ ∃ r, answers m' key' n = answers m' key' k ++ .hear :: .say m' key' 0 :: r := by
  induction n with
  | zero => omega
  | succ n ih =>
    by_cases hk : k = n
    · subst hk; exact ⟨⟨[], rfl⟩, [], rfl⟩
    · obtain ⟨⟨r, h1⟩, r', h2⟩ := ih (by omega)
      refine ⟨⟨r ++ [.say m key 0, .hear], ?_⟩, r' ++ [.hear, .say m' key' 0], ?_⟩
      · simp only [questions, h1, List.append_assoc, List.cons_append]
      · simp only [answers, h2, List.append_assoc, List.cons_append]

/-- Question and answer can go on for ever. -/
theorem questions_answers (m m' : OwnedMsg) (key key' : Key4) (n : Nat) : Matched (questions m key n) (answers m' key' n) := by
  have all : ∀ k, k ≤ n → Reach (questions m key n) (answers m' key' n) (2 * k) (2 * k) := by
    intro k hk
    induction k with
    | zero => exact .start
    | succ k ih =>
      obtain ⟨⟨r, h1⟩, r', h2⟩ := talk_split m m' key key' (show k < n by omega)
      obtain ⟨l1, -, l3, -, l5, -⟩ := talk_lengths m key k
      obtain ⟨-, l2', -, l4', -, l6'⟩ := talk_lengths m' key' k
      have ih := ih (by omega)
      rw [h1, h2] at ih ⊢
      generalize questions m key k = a at *
      generalize answers m' key' k = b at *
      have a1 : (a ++ Talk.say m key 0 :: .hear :: r).take (2 * k + 1) = a ++ [.say m key 0] := by
        rw [List.take_append, List.take_of_length_le (by omega), show 2 * k + 1 - a.length = 1 by omega]; rfl
      have b1 : (b ++ Talk.hear :: .say m' key' 0 :: r').take (2 * k) = b := by
        rw [List.take_append, List.take_of_length_le (by omega), show 2 * k - b.length = 0 by omega]; simp
      have b2 : (b ++ Talk.hear :: .say m' key' 0 :: r').take (2 * k + 2) = b ++ [.hear, .say m' key' 0] := by
        rw [List.take_append, List.take_of_length_le (by omega), show 2 * k + 2 - b.length = 2 by omega]; rfl
      have s1 := Reach.client ih (.inl ⟨m, key, 0, by rw [List.getElem?_append_right (by omega), show 2 * k - a.length = 0 by omega]; rfl⟩)
      have s2 := Reach.server s1 (.inr ⟨by rw [List.getElem?_append_right (by omega), show 2 * k - b.length = 0 by omega]; rfl, .inl (by
        rw [b1, a1, said_append, List.length_append]; simp only [said, List.length_cons, List.length_nil]; omega)⟩)
      have s3 := Reach.server s2 (.inl ⟨m', key', 0, by rw [List.getElem?_append_right (by omega), show 2 * k + 1 - b.length = 1 by omega]; rfl⟩)
      show Reach _ _ (2 * k + 1 + 1) (2 * k + 1 + 1)
      exact Reach.client s3 (.inr ⟨by rw [List.getElem?_append_right (by omega), show 2 * k + 1 - a.length = 1 by omega]; rfl, .inl (by
        rw [show 2 * k + 1 + 1 = 2 * k + 2 from rfl, b2, a1, said_append, hears_append, List.length_append]; simp only [said, hears, List.length_cons, List.length_nil]; omega)⟩)
  have := all n (Nat.le_refl _)
  have e := (talk_lengths m key n).1
  have e' := (talk_lengths m' key' n).2.1
  unfold Matched
  rw [e, e']
  exact this

/-- Two programs that both begin by listening wait for each other; nothing else can be expected. -/
example : ¬ Matched [.hear] [.hear] := by
  have key : ∀ {i j}, Reach [.hear] [.hear] i j → i = 0 ∧ j = 0 := by
    intro i j h
    induction h with
    | start => exact ⟨rfl, rfl⟩
    | client _ hg ih =>
      obtain ⟨rfl, rfl⟩ := ih
      rcases hg with ⟨_, _, _, h⟩ | ⟨-, h | h⟩
      · cases h
      · cases h
      · cases h
    | server _ hg ih =>
      obtain ⟨rfl, rfl⟩ := ih
      rcases hg with ⟨_, _, _, h⟩ | ⟨-, h | h⟩
      · cases h
      · cases h
      · cases h
  intro h
  have := (key h).1
  cases this

/-- A blocking client and an async server, one question. -/
def sampleDialogue : Dialogue :=
  ⟨Party.blocking false 100 100 (questions (.text (ascii "hi")) ⟨1, 2, 3, 4⟩ 1 ++ [.hear]) ⟨[], []⟩,
    Party.async .server 100 100 (answers (.binary [7]) ⟨0, 0, 0, 0⟩ 1) ⟨[], [.error .wouldBlock, .accept 2]⟩⟩

/-- They start as required. -/
theorem sampleDialogue_opened : Opened (min 100 u32Max) (min 100 u32Max) (questions (.text (ascii "hi")) ⟨1, 2, 3, 4⟩ 1 ++ [.hear]) (answers (.binary [7]) ⟨0, 0, 0, 0⟩ 1)
    sampleDialogue := by
  refine ⟨.blocking false 100 100 _ ⟨[], []⟩ (by intro e he; cases he) rfl, .async .server 100 100 _ ⟨[], [.error .wouldBlock, .accept 2]⟩ ?_ rfl, ?_, ?_⟩
  · intro e he
    simp only [List.mem_cons, List.not_mem_nil, or_false] at he
    rcases he with rfl | rfl
    · exact .inl rfl
    · exact .inr ⟨2, by decide, rfl⟩
  · intro x hx
    simp only [questions, said, List.nil_append, List.cons_append, List.mem_cons, List.not_mem_nil, or_false] at hx
    subst hx
    exact ⟨(utf8Valid_iff _).mp (by decide +kernel), by decide⟩
  · intro x hx
    simp only [answers, said, List.nil_append, List.mem_cons, List.not_mem_nil, or_false] at hx
    subst hx
    show ([7] : List UInt8).length ≤ min 100 u32Max
    decide

def Dialogue.view (d : Dialogue) : List Heard × List Heard × Bool × Bool :=
  (d.client.heard, d.server.heard, d.client.todo.isEmpty, d.server.todo.isEmpty)

/-- Everybody acts and the network carries three bytes at a time, in turn. -/
example : (sampleDialogue.run (List.replicate 6 [.act .client, .carry .client 2, .act .server, .carry .server 2]).flatten).view =
    ([.message (.binary [7]), .ended], [.message (.text (ascii "hi"))], true, true) := by
  decide +kernel

/-- Such a schedule, continued, is fair. -/
theorem sampleFair : FairNet fun n => if n % 4 = 0 then .act .client else if n % 4 = 1 then .carry .client 2 else if n % 4 = 2 then .act .server else .carry .server 2 := by
  intro who n
  cases who
  · exact ⟨⟨4 * n, by omega, by simp⟩, 4 * n + 1, 2, by omega, by simp [Nat.add_mod]⟩
  · exact ⟨⟨4 * n + 2, by omega, by simp [Nat.add_mod]⟩, 4 * n + 3, 2, by omega, by simp [Nat.add_mod]⟩

/-- One question and its answer. -/
theorem oneQuestion : Opened (min 100 u32Max) (min 100 u32Max) (questions (.text (ascii "hi")) ⟨1, 2, 3, 4⟩ 1) (answers (.binary [7]) ⟨0, 0, 0, 0⟩ 1)
    ⟨Party.blocking false 100 100 (questions (.text (ascii "hi")) ⟨1, 2, 3, 4⟩ 1) ⟨[], []⟩,
      Party.async .server 100 100 (answers (.binary [7]) ⟨0, 0, 0, 0⟩ 1) ⟨[], [.error .wouldBlock, .accept 2]⟩⟩ := by
  have h := sampleDialogue_opened
  refine ⟨.blocking false 100 100 _ ⟨[], []⟩ (by intro e he; cases he) rfl, h.2, ?_, h.4⟩
  intro x hx
  simp only [questions, said, List.nil_append, List.mem_cons, List.not_mem_nil, or_false] at hx
  subst hx
  exact ⟨(utf8Valid_iff _).mp (by decide +kernel), by decide⟩
example := C54_safe sampleDialogue_opened
example := C54_no_deadlock oneQuestion (questions_answers _ _ _ _ 1) _ sampleFair
example := C54_never_too_late oneQuestion (questions_answers _ _ _ _ 1)
example := C54_deadlock_is_the_programs sampleDialogue_opened (List.replicate 6 [.act .client, .carry .client 2, .act .server, .carry .server 2]).flatten
  (by
    have : (sampleDialogue.run (List.replicate 6 [.act .client, .carry .client 2, .act .server, .carry .server 2]).flatten).client.todo.isEmpty = true := by decide +kernel
    exact List.isEmpty_iff.mp this)
  (by
    have : (sampleDialogue.run (List.replicate 6 [.act .client, .carry .client 2, .act .server, .carry .server 2]).flatten).server.todo.isEmpty = true := by decide +kernel
    exact List.isEmpty_iff.mp this)

end WS
