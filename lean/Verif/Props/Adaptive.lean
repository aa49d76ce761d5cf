import Verif.Lemmas.Adaptive
import Verif.Props.Dialogue
/-!
# C81: what two programs tell each other does not depend on the schedule, the network, the masking keys or the kind of client

Two programs that choose their next call by what has happened to them so far, blocking or async, with the connection open. An arbitrary scheduler
gives them turns and lets the network carry any number of bytes at a time.
-/

namespace WS
open Spec

/-- The start: two new clients, with whatever masking keys, limits and transports, and a program for each. -/
structure Begins (lc ls : Nat) (cp sp : Plan) (x : Duet) : Prop where
  cplan : x.client.plan = cp
  splan : x.server.plan = sp
  cpast : x.client.past = []
  spast : x.server.past = []
  client : Starts false lc x.client.call x.client.party
  server : Starts true ls x.server.call x.server.party
  says : Speakable cp sp lc ls

theorem Begins.both {lc ls cp sp x} (h : Begins lc ls cp sp x) : Both cp sp false true lc ls x [] [] := by
  have hu : Unfold cp sp x.client.past x.server.past := by rw [h.cpast, h.spast]; exact .start
  have ec : x.client.list = x.client.call := by unfold Actor.list Actor.calls; rw [h.cpast]; rfl
  have es : x.server.list = x.server.call := by unfold Actor.list Actor.calls; rw [h.spast]; rfl
  have sc : ∀ y ∈ said x.client.call, y.1.spec.Sendable ls := by
    intro y hy
    unfold Actor.call at hy
    split at hy
    · cases hy
    · next m hm =>
      simp only [said, List.mem_singleton] at hy
      subst hy
      exact h.says.client hu (h.cplan ▸ hm)
    · cases hy
  have ss : ∀ y ∈ said x.server.call, y.1.spec.Sendable lc := by
    intro y hy
    unfold Actor.call at hy
    split at hy
    · cases hy
    · next m hm =>
      simp only [said, List.mem_singleton] at hy
      subst hy
      exact h.says.server hu (h.splan ▸ hm)
    · cases hy
  refine ⟨h.cplan, h.splan, ?_, ?_, hu⟩
  · rw [ec, es, h.cpast, h.spast]
    exact h.client.flow h.server ss
  · rw [ec, es, h.cpast, h.spast]
    exact h.server.flow h.client sc

/-- Whatever the schedule, at any time what has happened to the two programs is something that can happen: every send has succeeded, every receiving call that
returned gave the next message the other had sent, or the end when the other had ended and all was heard; and after that each program did
what it does after that. -/
theorem C81_safe {lc ls cp sp x} (h : Begins lc ls cp sp x) (es : List Happens) : Unfold cp sp (x.run es).client.past (x.run es).server.past := by
  obtain ⟨bc, bs, h1, -⟩ := run_both h.says h.client.lim_lt h.server.lim_lt es h.both
  exact h1.unfold

/-- Run the same two programs twice, with other schedules, other cuts of the byte stream, other masking keys, other limits, other transports, blocking the one time and
async the other: what has happened to a program in one run is the beginning of what has happened to it in the other, or the other way
round. -/
theorem C81_deterministic {lc ls lc' ls' cp sp x x'} (h : Begins lc ls cp sp x) (h' : Begins lc' ls' cp sp x') (es es' : List Happens) :
    Agree (x.run es).client.past (x'.run es').client.past ∧ Agree (x.run es).server.past (x'.run es').server.past :=
  unfold_agree (C81_safe h es) (C81_safe h' es')

/-- Under a fair schedule everything that can happen to the two programs happens. -/
theorem C81_everything_happens {lc ls cp sp x} (h : Begins lc ls cp sp x) (f : Nat → Happens) (hf : FairNet f) {a b : List Event} (hu : Unfold cp sp a b) :
    ∃ n, ∀ k, n ≤ k → a <+: (x.run ((List.range k).map f)).client.past ∧ b <+: (x.run ((List.range k).map f)).server.past := by
  obtain ⟨n, h1, h2⟩ := unfold_happens h.says h.client.lim_lt h.server.lim_lt hf h.both hu
  refine ⟨n, fun k hk => ?_⟩
  obtain ⟨bc, bs, g1, -⟩ := at_both (n := 0) (f := f) h.says h.client.lim_lt h.server.lim_lt h.both n (by omega)
  obtain ⟨bc', bs', -, g2⟩ := at_both h.says h.client.lim_lt h.server.lim_lt g1 k hk
  exact ⟨h1.trans g2.client, h2.trans g2.server⟩

/-- If the two programs have come to rest in one run, they come to rest in every fair run, and the same has happened to them. -/
theorem C81_same_end {lc ls lc' ls' cp sp x x'} (h : Begins lc ls cp sp x) (h' : Begins lc' ls' cp sp x') (es' : List Happens)
    (hc : Rests cp sp (x'.run es').client.past (x'.run es').server.past) (hs : Rests sp cp (x'.run es').server.past (x'.run es').client.past)
    (f : Nat → Happens) (hf : FairNet f) :
    ∃ n, ∀ k, n ≤ k → (x.run ((List.range k).map f)).client.past = (x'.run es').client.past ∧
      (x.run ((List.range k).map f)).server.past = (x'.run es').server.past := by
  have hu := C81_safe h' es'
  obtain ⟨n, hn⟩ := C81_everything_happens h f hf hu
  refine ⟨n, fun k hk => ?_⟩
  obtain ⟨h1, h2⟩ := hn k hk
  have hk := C81_safe h ((List.range k).map f)
  exact settled hu hk h1 h2 ((rests_iff _ _ _ _).mp hc) ((rests_iff _ _ _ _).mp hs)

/-- Under a fair schedule the programs go on for ever, or come to rest and stay there: both have ended, or both listen and everything that was said has been heard, so that they wait
for each other by their own choice. -/
theorem C81_rests_or_goes_on {lc ls cp sp x} (h : Begins lc ls cp sp x) (f : Nat → Happens) (hf : FairNet f) :
    (∃ a b, ((cp a = none ∧ sp b = none) ∨
        (cp a = some .hear ∧ sp b = some .hear ∧ (saidIn b).length ≤ hearsIn a ∧ (saidIn a).length ≤ hearsIn b)) ∧
      ∃ n, ∀ k, n ≤ k → (x.run ((List.range k).map f)).client.past = a ∧ (x.run ((List.range k).map f)).server.past = b) ∨
    ∀ N, ∃ n, N ≤ (x.run ((List.range n).map f)).client.past.length + (x.run ((List.range n).map f)).server.past.length := by
  by_cases hr : ∃ a b, Unfold cp sp a b ∧ Rests cp sp a b ∧ Rests sp cp b a
  · obtain ⟨a, b, hu, hc, hs⟩ := hr
    refine .inl ⟨a, b, ?_, ?_⟩
    · rcases hc with hc | ⟨c1, c2, c3⟩
      · rcases hs with hs | ⟨-, -, s3⟩
        · exact .inl ⟨hc, hs⟩
        · exact absurd hc s3
      · rcases hs with hs | ⟨s1, s2, s3⟩
        · exact absurd hs c3
        · exact .inr ⟨c1, s1, c2, s2⟩
    · obtain ⟨n, hn⟩ := C81_everything_happens h f hf hu
      refine ⟨n, fun k hk => ?_⟩
      obtain ⟨h1, h2⟩ := hn k hk
      exact settled hu (C81_safe h ((List.range k).map f)) h1 h2 ((rests_iff _ _ _ _).mp hc) ((rests_iff _ _ _ _).mp hs)
  · refine .inr fun N => ?_
    have key : ∃ a b, Unfold cp sp a b ∧ N ≤ a.length + b.length := by
      induction N with
      | zero => exact ⟨[], [], .start, Nat.zero_le _⟩
      | succ N ih =>
        obtain ⟨a, b, hu, hl⟩ := ih
        by_cases hc : Rests cp sp a b
        · have hs : ¬ Rests sp cp b a := fun hs => hr ⟨a, b, hu, hc, hs⟩
          rw [rests_iff] at hs
          obtain ⟨e, he⟩ := Classical.not_forall.mp hs
          have he := Classical.not_not.mp he
          exact ⟨a, b ++ [e], .server hu he, by simp only [List.length_append, List.length_singleton]; omega⟩
        · rw [rests_iff] at hc
          obtain ⟨e, he⟩ := Classical.not_forall.mp hc
          have he := Classical.not_not.mp he
          exact ⟨a ++ [e], b, .client hu he, by simp only [List.length_append, List.length_singleton]; omega⟩
    obtain ⟨a, b, hu, hl⟩ := key
    obtain ⟨n, hn⟩ := C81_everything_happens h f hf hu
    obtain ⟨h1, h2⟩ := hn n (Nat.le_refl _)
    exact ⟨n, by have := h1.length_le; have := h2.length_le; omega⟩

/-! ## A client of examples/server.rs that does what it likes -/

/-- Whatever a client of examples/server.rs does, the messages it has been given are, in order, the greeting and the answers to the
messages it has sent, up to the first close. -/
theorem C81_server_says {lc ls cp x} (h : Begins lc ls cp serverPlan x) (es : List Happens) :
    gotIn (x.run es).client.past <+: greetedReplies (saidIn (x.run es).client.past) := by
  have hu := C81_safe h es
  rw [(got_said hu).1]
  exact (List.take_prefix _ _).trans (server_said hu)

/-- And under a fair schedule, a client that listens when it has been given fewer than that gets the next one. -/
theorem C81_server_answers {lc ls cp x} (h : Begins lc ls cp serverPlan x) (f : Nat → Happens) (hf : FairNet f) (n : Nat)
    (hh : cp (x.run ((List.range n).map f)).client.past = some .hear) {m : OwnedMsg}
    (hm : (greetedReplies (saidIn (x.run ((List.range n).map f)).client.past))[hearsIn (x.run ((List.range n).map f)).client.past]? = some m) :
    ∃ k, n ≤ k ∧ (x.run ((List.range n).map f)).client.past ++ [.heard (.message m)] <+: (x.run ((List.range k).map f)).client.past := by
  have hu := C81_safe h ((List.range n).map f)
  generalize ha : (x.run ((List.range n).map f)).client.past = a at *
  obtain ⟨b', h1, h2⟩ := server_alone hu (by rw [hh]; simp)
  have hn : Next cp serverPlan a b' (.heard (.message m)) := .inr ⟨hh, .inl ⟨m, by rw [h2]; exact hm, rfl⟩⟩
  obtain ⟨k, hk⟩ := C81_everything_happens h f hf (.client h1 hn)
  exact ⟨max n k, Nat.le_max_left _ _, (hk _ (Nat.le_max_right _ _)).1⟩

/-! ## The theorems speak about something -/

/-- A client that chooses: it answers the greeting with a ping, the pong with a close, and the close by waiting for the end. -/
def nosyPlan : Plan := fun past =>
  match past.getLast? with
  | none => some .hear
  | some (.said _ _) => some .hear
  | some (.heard (.message (.pong _))) => some (.say (.close none))
  | some (.heard (.message (.close _))) => some .hear
  | some (.heard (.message _)) => some (.say (.ping [1]))
  | some (.heard _) => none

theorem nosy_says {a : List Event} {m : OwnedMsg} (h : nosyPlan a = some (.say m)) : m = .ping [1] ∨ m = .close none := by
  unfold nosyPlan at h
  split at h
  · cases h
  · cases h
  · simp only [Option.some.injEq, Deed.say.injEq] at h; exact .inr h.symm
  · cases h
  · simp only [Option.some.injEq, Deed.say.injEq] at h; exact .inl h.symm
  · cases h

theorem nosy_speakable {lim : Nat} (h5 : 5 ≤ lim) : Speakable nosyPlan serverPlan lim lim := by
  refine speakable_server h5 fun _ hm => ?_
  rcases nosy_says hm with rfl | rfl
  · exact ⟨by decide, Nat.le_trans (by decide) h5⟩
  · exact trivial

/-- A blocking client and an async server. -/
def sampleDuet : Duet :=
  ⟨Actor.start nosyPlan (fun n => ⟨UInt8.ofNat n, 2, 3, 4⟩) (fun _ => 0) (Party.blocking false 100 100 [] ⟨[], []⟩),
    Actor.start serverPlan (fun _ => ⟨0, 0, 0, 0⟩) (fun _ => 0) (Party.async .server 100 100 [] ⟨[], [.error .wouldBlock, .accept 2]⟩)⟩

theorem sampleDuet_begins : Begins (min 100 u32Max) (min 100 u32Max) nosyPlan serverPlan sampleDuet := by
  refine ⟨rfl, rfl, rfl, rfl, .blocking false 100 100 _ ⟨[], []⟩ (by intro e he; cases he) rfl, .async .server 100 100 _ ⟨[], [.error .wouldBlock, .accept 2]⟩ ?_ rfl,
    nosy_speakable (by decide)⟩
  intro e he
  simp only [List.mem_cons, List.not_mem_nil, or_false] at he
  rcases he with rfl | rfl
  · exact .inl rfl
  · exact .inr ⟨2, by decide, rfl⟩

/-- An async client and a blocking server with other keys and other limits. -/
def sampleDuet' : Duet :=
  ⟨Actor.start nosyPlan (fun _ => ⟨9, 9, 9, 9⟩) (fun _ => 7) (Party.async .client 5000 20 [] ⟨[], []⟩),
    Actor.start serverPlan (fun _ => ⟨1, 1, 1, 1⟩) (fun _ => 7) (Party.blocking true 5000 20 [] ⟨[], []⟩)⟩

theorem sampleDuet'_begins : Begins (min 5000 u32Max) (min 5000 u32Max) nosyPlan serverPlan sampleDuet' :=
  ⟨rfl, rfl, rfl, rfl, .async .client 5000 20 _ ⟨[], []⟩ (by intro e he; cases he) rfl, .blocking true 5000 20 _ ⟨[], []⟩ (by intro e he; cases he) rfl,
    nosy_speakable (by decide)⟩

/-- One schedule, byte by byte, … -/
def slowTurns : List Happens := (List.replicate 60 [.act .client, .carry .server 0, .act .server, .carry .client 0]).flatten

/-- … and another. -/
def quickTurns : List Happens := (List.replicate 12 [.act .server, .carry .server 99, .act .client, .carry .client 99]).flatten

def nosyPast : List Event :=
  [.heard (.message (.text (ascii "Hello"))), .said (.ping [1]) true, .heard (.message (.pong [1])), .said (.close none) true, .heard (.message (.close none)),
    .heard .ended]

def servedPast : List Event :=
  [.said (.text (ascii "Hello")) true, .heard (.message (.ping [1])), .said (.pong [1]) true, .heard (.message (.close none)), .said (.close none) true]

example : (sampleDuet.run slowTurns).client.past = nosyPast ∧ (sampleDuet.run slowTurns).server.past = servedPast := by decide +kernel

theorem sampleDuet'_past : (sampleDuet'.run quickTurns).client.past = nosyPast ∧ (sampleDuet'.run quickTurns).server.past = servedPast := by decide +kernel

/-- The hypotheses of `C81_safe` and `C81_deterministic`, and what they say of an unfinished run. -/
example : Agree (sampleDuet.run (slowTurns.take 50)).client.past (sampleDuet'.run quickTurns).client.past :=
  (C81_deterministic sampleDuet_begins sampleDuet'_begins (slowTurns.take 50) quickTurns).1

example : (sampleDuet.run (slowTurns.take 50)).client.past = [.heard (.message (.text (ascii "Hello"))), .said (.ping [1]) true] := by decide +kernel

/-- `C81_same_end`: both have ended in the one run, so they end in the other, under any fair schedule. -/
example (f : Nat → Happens) (hf : FairNet f) :
    ∃ n, ∀ k, n ≤ k → (sampleDuet.run ((List.range k).map f)).client.past = nosyPast ∧ (sampleDuet.run ((List.range k).map f)).server.past = servedPast := by
  have h := C81_same_end sampleDuet_begins sampleDuet'_begins quickTurns (by rw [sampleDuet'_past.1, sampleDuet'_past.2]; exact .inl rfl)
    (by rw [sampleDuet'_past.1, sampleDuet'_past.2]; exact .inl rfl) f hf
  rw [sampleDuet'_past.1, sampleDuet'_past.2] at h
  exact h

/-- `C81_everything_happens`, with a fair schedule and something that can happen. -/
example := C81_everything_happens sampleDuet_begins _ sampleFair (C81_safe sampleDuet'_begins quickTurns)

/-- `C81_rests_or_goes_on`: these rest; two programs that say the same thing again and again go on. -/
example := C81_rests_or_goes_on sampleDuet_begins _ sampleFair

def chatterPlan : Plan := fun _ => some (.say (.text (ascii "la")))

theorem chatter_speakable : Speakable chatterPlan chatterPlan (min 100 u32Max) (min 100 u32Max) := by
  have : (OwnedMsg.text (ascii "la")).spec.Sendable (min 100 u32Max) := ⟨(utf8Valid_iff _).mp (by decide +kernel), by decide⟩
  exact ⟨fun _ hm => by cases hm; exact this, fun _ hm => by cases hm; exact this⟩

/-- `C81_server_says` and `C81_server_answers`: after the ping the client listens, and has been given less than it will be. -/
example : gotIn (sampleDuet.run slowTurns).client.past <+: greetedReplies (saidIn (sampleDuet.run slowTurns).client.past) := C81_server_says sampleDuet_begins slowTurns

example : gotIn nosyPast = greetedReplies (saidIn nosyPast) := by decide +kernel

example (f : Nat → Happens) (hf : FairNet f) : ∃ k, [.heard (.message (.text (ascii "Hello")))] <+: (sampleDuet.run ((List.range k).map f)).client.past := by
  obtain ⟨k, -, h⟩ := C81_server_answers sampleDuet_begins f hf 0 (by rfl) (m := .text (ascii "Hello")) (by rfl)
  exact ⟨k, h⟩

end WS
