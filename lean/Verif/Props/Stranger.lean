import Verif.Lemmas.Stranger
import Verif.Props.Adaptive
/-!
# C83: a program and a peer that does as it likes

Whatever the peer sends, well formed or not, in whatever pieces and at whatever times, and whatever program there is on our side: what happens to the program is decided by the bytes that came.
-/

namespace WS
open Spec

/-- C83: at any time, what has happened to the program is what it does when its receiving calls return, one after the other, what they would return if all bytes `B` that will have come were there from the
beginning; its sends succeed if and only if the message may be sent. The bytes that have come so far are a beginning of `B`; if the end of the stream has come, they are all of it. -/
theorem C83_heeds {B : Bytes} {p : Party} {mask : Bool} {hearing : Nat → Heard} (h : Stands B p mask hearing) (plan : Plan) (keys : Nat → Key4) (extra : Nat → Nat)
    (es : List Brings) (hp : came es <+: B) (hf : finished es = true → came es = B) : Heeds plan hearing ((Actor.start plan keys extra p).endures es).past := by
  obtain ⟨h1, h2⟩ := stands_enduring h plan keys extra
  obtain ⟨R, -, h3, -⟩ := endures_enduring es h1 h2 hp hf
  exact h3.heeds

/-- C83: so two runs of a program against peers that send the same bytes agree as far as both have come: it does not matter how the bytes were cut, when they came, when the program had its turns,
which masking keys it drew, what the allocator did or how the transport took what it wrote. -/
theorem C83_deterministic {B : Bytes} {p p' : Party} {mask mask' : Bool} {hearing : Nat → Heard} (h : Stands B p mask hearing) (h' : Stands B p' mask' hearing) (plan : Plan)
    (keys keys' : Nat → Key4) (extra extra' : Nat → Nat) (es es' : List Brings) (hp : came es <+: B) (hf : finished es = true → came es = B) (hp' : came es' <+: B)
    (hf' : finished es' = true → came es' = B) :
    Agree ((Actor.start plan keys extra p).endures es).past ((Actor.start plan keys' extra' p').endures es').past :=
  heeds_agree (C83_heeds h plan keys extra es hp hf) (C83_heeds h' plan keys' extra' es' hp' hf')

/-- C83: and the program has written, behind what was on the wire already, exactly the frames of the messages it sent with success, in order. A send that failed has written nothing. -/
theorem C83_writes {B : Bytes} {p : Party} {mask : Bool} {hearing : Nat → Heard} (h : Stands B p mask hearing) (plan : Plan) (keys : Nat → Key4) (extra : Nat → Nat)
    (ht : plan.Typed hearing) (es : List Brings) (hp : came es <+: B) (hf : finished es = true → came es = B) :
    ∃ b, ((Actor.start plan keys extra p).endures es).party.output.wire = p.output.wire ++ b ∧
      Says mask ((sentIn ((Actor.start plan keys extra p).endures es).past).map OwnedMsg.spec) b := by
  obtain ⟨h1, h2⟩ := stands_enduring h plan keys extra
  obtain ⟨R, -, h3, -⟩ := endures_enduring es h1 h2 hp hf
  obtain ⟨b, h4, h5⟩ := h3.wire
  exact ⟨b, h4, h5 ht⟩

/-- C83: when the end of the stream has come, no call waits any more: after `j` turns the program has ended or `j` calls have returned. -/
theorem C83_goes_on {B : Bytes} {p : Party} {mask : Bool} {hearing : Nat → Heard} (h : Stands B p mask hearing) (plan : Plan) (keys : Nat → Key4) (extra : Nat → Nat)
    (es : List Brings) (hf : finished es = true) (hc : came es = B) (j : Nat) :
    let a := (Actor.start plan keys extra p).endures (es ++ List.replicate j .turn)
    plan a.past = none ∨ j ≤ a.past.length := by
  obtain ⟨h1, h2⟩ := stands_enduring h plan keys extra
  obtain ⟨R, e, h3, h4⟩ := endures_enduring es h1 h2 (by rw [hc]; exact List.prefix_refl _) (fun _ => hc)
  obtain rfl : R = [] := by
    have := congrArg List.length e
    rw [hc, List.length_append] at this
    exact List.length_eq_zero_iff.mp (by omega)
  rw [hf] at h4
  have := (ended_turns j h3 h4).2
  rw [endures_append]
  exact this.imp id fun g => by omega

/-- C83: so everything that can happen does: whatever the program does when its receiving calls return these things, it does within as many turns as that has calls. -/
theorem C83_everything_happens {B : Bytes} {p : Party} {mask : Bool} {hearing : Nat → Heard} (h : Stands B p mask hearing) (plan : Plan) (keys : Nat → Key4) (extra : Nat → Nat)
    (es : List Brings) (hf : finished es = true) (hc : came es = B) (past : List Event) (hpast : Heeds plan hearing past) (j : Nat) (hj : past.length ≤ j) :
    past <+: ((Actor.start plan keys extra p).endures (es ++ List.replicate j .turn)).past := by
  obtain ⟨e1, e2⟩ := came_after es (List.replicate j .turn) hf
  have h1 := C83_heeds h plan keys extra (es ++ List.replicate j .turn) (by rw [e1, hc]; exact List.prefix_refl _) (fun _ => by rw [e1, hc])
  rcases heeds_agree hpast h1 with h2 | h2
  · exact h2
  · rcases C83_goes_on h plan keys extra es hf hc j with h3 | h3
    · rw [hpast.over h2 h3]; exact List.prefix_refl _
    · rw [h2.eq_of_length (by have := h2.length_le; omega)]; exact List.prefix_refl _

/-- C83: the async client does not report its message limit if not much comes: a frame counts for at most 32 times its length. So all of the above holds for it then. -/
theorem C83_short_streams (B : Bytes) (ctx : Context) (maxDf maxMsg : Nat) (h : 32 * B.length ≤ min maxMsg u32Max) (w : Sink) (hw : w.Patient) :
    Stands B (.async ctx maxDf maxMsg [] w) (!decide (ctx = .server)) (asyncHears ctx maxDf maxMsg B) :=
  .async ctx maxDf maxMsg w hw (nextMany_calm h)

/-! ## The server of the example against anybody -/

/-- C83: examples/server.rs:24-45 against anybody: it has said "Hello" and answers, one each, to the messages that the bytes contain, in order, and at most the last of them is not answered yet. Nothing after a Close is
read. All its sends succeed. -/
theorem C83_server_says {B : Bytes} {p : Party} {mask : Bool} {hearing : Nat → Heard} (h : Stands B p mask hearing) (keys : Nat → Key4) (extra : Nat → Nat)
    (es : List Brings) (hp : came es <+: B) (hf : finished es = true → came es = B) :
    let past := ((Actor.start serverPlan keys extra p).endures es).past
    ∃ ms : List OwnedMsg, (∀ i, (hi : i < ms.length) → hearing i = .message ms[i]) ∧ (∀ m ∈ ms.dropLast, m.isClose = false) ∧
      saidIn past <+: .text (ascii "Hello") :: ms.map answerTo ∧ ms.length ≤ (saidIn past).length ∧ sentIn past = saidIn past := by
  intro past
  have hh := C83_heeds h serverPlan keys extra es hp hf
  have ha := attends_of (told_fit h) hh
  obtain ⟨h1, h2, h3, -, -⟩ := attends_got ha
  exact ⟨gotIn past, h1, h2, h3, attends_count ha, attends_sent (told_fit h) hh⟩

/-- C83: and what it has written are the frames of those, not masked. -/
theorem C83_server_writes {B : Bytes} {p : Party} {mask : Bool} {hearing : Nat → Heard} (h : Stands B p mask hearing) (keys : Nat → Key4) (extra : Nat → Nat)
    (es : List Brings) (hp : came es <+: B) (hf : finished es = true → came es = B) :
    ∃ b, ((Actor.start serverPlan keys extra p).endures es).party.output.wire = p.output.wire ++ b ∧
      Says mask ((saidIn ((Actor.start serverPlan keys extra p).endures es).past).map OwnedMsg.spec) b := by
  have := C83_writes h serverPlan keys extra (attends_typed h) es hp hf
  rwa [attends_sent (told_fit h) (C83_heeds h serverPlan keys extra es hp hf)] at this

/-- C83: once the end of the stream has come, the server is done within twice as many turns as bytes came, and four: it has answered every message that came up to the first Close, or up to the place
where its receiving call failed or found the end. -/
theorem C83_server_ends {B : Bytes} {p : Party} {mask : Bool} {hearing : Nat → Heard} (h : Stands B p mask hearing) (keys : Nat → Key4) (extra : Nat → Nat)
    (es : List Brings) (hf : finished es = true) (hc : came es = B) (j : Nat) (hj : 2 * B.length + 4 ≤ j) :
    let past := ((Actor.start serverPlan keys extra p).endures (es ++ List.replicate j .turn)).past
    serverPlan past = none ∧ ∃ ms : List OwnedMsg, (∀ i, (hi : i < ms.length) → hearing i = .message ms[i]) ∧ (∀ m ∈ ms.dropLast, m.isClose = false) ∧
      ((∃ g c, ms = g ++ [.close c]) ∨ ∀ m, hearing ms.length ≠ .message m) ∧ saidIn past = .text (ascii "Hello") :: ms.map answerTo := by
  intro past
  obtain ⟨e1, e2⟩ := came_after es (List.replicate j .turn) hf
  have hh := C83_heeds h serverPlan keys extra (es ++ List.replicate j .turn) (by rw [e1, hc]; exact List.prefix_refl _) (fun _ => by rw [e1, hc])
  obtain ⟨h1, h2, h3, h4, h5⟩ := attends_got (attends_of (told_fit h) hh)
  have hnone : serverPlan past = none := by
    rcases C83_goes_on h serverPlan keys extra es hf hc j with h6 | h6
    · exact h6
    · exfalso
      obtain ⟨n, hn, hs⟩ := stands_stop h
      have h7 : 2 * B.length + 4 ≤ 2 * (gotIn past).length + 2 := Nat.le_trans hj (Nat.le_trans h6 h4)
      exact hs _ (h1 n (by show n < (gotIn past).length; omega))
  obtain ⟨h6, h7⟩ := h5 hnone
  exact ⟨hnone, gotIn past, h1, h2, h7, h6⟩

/-! ## The theorems speak about something -/

/-- A program that answers messages with a Ping that is too long, asks back when it does not understand, and gives up at the end of the stream. -/
def stubbornPlan : Plan := fun past =>
  match past.getLast? with
  | none => some .hear
  | some (.said _ _) => some .hear
  | some (.heard (.message _)) => some (.say (.ping (List.replicate 126 7)))
  | some (.heard .failed) => some (.say (.text (ascii "what?")))
  | some (.heard .ended) => none

/-- A Ping, masked; a frame with a reserved opcode; and half of a Pong. -/
def oddBytes : Bytes := [0x89, 0x81, 1, 2, 3, 4, 6] ++ [0x83, 0x80, 0, 0, 0, 0] ++ [0x8a, 0x85, 9]

/-- They come in three pieces, then the end; the program has its turns in between, … -/
def oddly : List Brings := [.turn, .bytes (oddBytes.take 3), .turn, .turn, .bytes (oddBytes.drop 3 |>.take 5), .turn, .bytes (oddBytes.drop 8), .turn, .finish]

/-- … or all at once, before its first turn. -/
def atOnce : List Brings := [.bytes oddBytes, .finish]

def oddHost : Party := .blocking true 100 100 [] ⟨[], [.accept 3, .error .interrupted]⟩

theorem oddHost_stands : Stands oddBytes oddHost false (blockingHears true 100 100 oddBytes) :=
  .blocking true 100 100 ⟨[], [.accept 3, .error .interrupted]⟩ (by
    intro e he
    simp only [List.mem_cons, List.not_mem_nil, or_false] at he
    rcases he with rfl | rfl
    · exact .inr ⟨3, by decide, rfl⟩
    · exact .inl rfl)

/-- The hypotheses of `C83_heeds`, `C83_deterministic`, `C83_goes_on`, … -/
example : came oddly = oddBytes ∧ came atOnce = oddBytes ∧ finished oddly = true ∧ finished atOnce = true ∧ came (oddly.take 3) <+: oddBytes ∧ finished (oddly.take 3) = false := by decide +kernel

/-- … and what they say: the Ping is heard although it came in two pieces, the answer to it is refused because it is too long, the reserved opcode is an error that the program is told of and outlives. -/
def oddPast : List Event :=
  [.heard (.message (.ping [7])), .said (.ping (List.replicate 126 7)) false, .heard .failed, .said (.text (ascii "what?")) true, .heard .ended]

theorem odd_past : ((Actor.start stubbornPlan (fun _ => ⟨1, 2, 3, 4⟩) (fun _ => 0) oddHost).endures (oddly ++ List.replicate 3 .turn)).past = oddPast := by decide +kernel

example (keys : Nat → Key4) (extra : Nat → Nat) : Agree ((Actor.start stubbornPlan keys extra oddHost).endures atOnce).past oddPast := by
  rw [← odd_past]
  exact C83_deterministic oddHost_stands oddHost_stands stubbornPlan _ _ _ _ atOnce _ (by decide +kernel) (by decide +kernel) (by decide +kernel) (by decide +kernel)

example (keys : Nat → Key4) (extra : Nat → Nat) (j : Nat) (hj : 5 ≤ j) :
    oddPast <+: ((Actor.start stubbornPlan keys extra oddHost).endures (atOnce ++ List.replicate j .turn)).past := by
  refine C83_everything_happens oddHost_stands stubbornPlan keys extra atOnce rfl (by decide +kernel) oddPast ?_ j hj
  rw [← odd_past]
  exact C83_heeds oddHost_stands stubbornPlan _ _ _ (by decide +kernel) (by decide +kernel)

theorem stubborn_typed (hearing : Nat → Heard) : stubbornPlan.Typed hearing := by
  intro past m _ hm
  unfold stubbornPlan at hm
  split at hm
  · cases hm
  · cases hm
  · cases hm; exact ⟨trivial, fun b hb => by rcases hb with hb | hb <;> cases hb⟩
  · cases hm
    refine ⟨(utf8Valid_iff _).mp (by decide +kernel), fun b hb => ?_⟩
    rcases hb with hb | hb
    · cases hb; decide
    · cases hb
  · cases hm

/-- `C83_writes`: only "what?" is on the wire. -/
example : ∃ b, ((Actor.start stubbornPlan (fun _ => ⟨1, 2, 3, 4⟩) (fun _ => 0) oddHost).endures (oddly ++ List.replicate 3 .turn)).party.output.wire = b ∧ Says false [.text (ascii "what?")] b := by
  have := C83_writes oddHost_stands stubbornPlan (fun _ => ⟨1, 2, 3, 4⟩) (fun _ => 0) (stubborn_typed _) (oddly ++ List.replicate 3 .turn) (by decide +kernel) (by decide +kernel)
  rw [odd_past] at this
  exact this

example : ((Actor.start stubbornPlan (fun _ => ⟨1, 2, 3, 4⟩) (fun _ => 0) oddHost).endures (oddly ++ List.replicate 3 .turn)).party.output.wire = [0x81, 5] ++ ascii "what?" := by decide +kernel

/-- The async client is told of the reserved opcode again and again, and goes on asking back. -/
def oddGuest : Party := .async .server 100 1000 [] ⟨[], [.error .wouldBlock, .accept 2]⟩

theorem oddGuest_stands : Stands oddBytes oddGuest false (asyncHears .server 100 1000 oddBytes) :=
  C83_short_streams oddBytes .server 100 1000 (by decide) ⟨[], [.error .wouldBlock, .accept 2]⟩ (by
    intro e he
    simp only [List.mem_cons, List.not_mem_nil, or_false] at he
    rcases he with rfl | rfl
    · exact .inl rfl
    · exact .inr ⟨2, by decide, rfl⟩)

theorem oddGuest_past : ((Actor.start stubbornPlan (fun _ => ⟨1, 2, 3, 4⟩) (fun _ => 0) oddGuest).endures (oddly ++ List.replicate 4 .turn)).past =
    [.heard (.message (.ping [7])), .said (.ping (List.replicate 126 7)) false, .heard .failed, .said (.text (ascii "what?")) true, .heard .failed, .said (.text (ascii "what?")) true] := by
  decide +kernel

example : Heeds stubbornPlan (asyncHears .server 100 1000 oddBytes)
    [.heard (.message (.ping [7])), .said (.ping (List.replicate 126 7)) false, .heard .failed, .said (.text (ascii "what?")) true, .heard .failed, .said (.text (ascii "what?")) true] := by
  rw [← oddGuest_past]
  exact C83_heeds oddGuest_stands stubbornPlan _ _ _ (by decide +kernel) (by decide +kernel)

/-- The server of the example, with either kind of client, answers the Ping, and is done. -/
example (keys : Nat → Key4) (extra : Nat → Nat) := C83_server_says oddHost_stands keys extra (oddly.take 3) (by decide +kernel) (by decide +kernel)

example (keys : Nat → Key4) (extra : Nat → Nat) := C83_server_writes oddGuest_stands keys extra oddly (by decide +kernel) (by decide +kernel)

example (keys : Nat → Key4) (extra : Nat → Nat) := C83_server_ends oddGuest_stands keys extra oddly rfl (by decide +kernel) 40 (by decide)

example : ((Actor.start serverPlan (fun _ => ⟨1, 2, 3, 4⟩) (fun _ => 0) oddHost).endures (oddly ++ List.replicate 3 .turn)).past =
    [.said (.text (ascii "Hello")) true, .heard (.message (.ping [7])), .said (.pong [7]) true, .heard .failed] := by decide +kernel

end WS
