import Verif.Lemmas.Lasting
import Verif.Lemmas.AsyncChat
import Verif.Props.Parallel
/-!
# C62: examples/parallel-server.rs in the long run

What the program owes its clients under schedules without end: as long as the send handler keeps up and no client breaks the
protocol it goes on; then, if every task gets its turn, every client is heard to its end and greeted again and again.
-/

namespace WS

open Spec

/-- What the client of this upgrade sends is whole messages up to the end of its stream. -/
def AsyncUpgrade.Behaves (u : AsyncUpgrade) : Prop :=
  ∃ ms, Drained (Framed.fromParts (MsgCodec.newWithLimits .server defaultMaxDataframe defaultMaxMessage) u.buffer) u.stream.input ms .done

/-- What is left of a stream is whole messages. -/
def Inlet.Behaves (i : Inlet) : Prop := ∃ ms, Drained i.read i.input ms .done

theorem Inlet.Behaves.wait {i : Inlet} (h : i.Behaves) {fr : Framed MsgCodec} {s : Src} (hp : i.read.poll msgDecoder i.input = (.notReady, fr, s)) :
    Inlet.Behaves ⟨fr, s⟩ := by
  obtain ⟨ms, h⟩ := h
  refine ⟨ms, ?_, h.stop⟩
  have := h.calls
  simp only [Framed.nextMany, next_of_wait hp] at this ⊢
  exact this

theorem Inlet.Behaves.item {i : Inlet} (h : i.Behaves) {m : OwnedMsg} {fr : Framed MsgCodec} {s : Src}
    (hp : i.read.poll msgDecoder i.input = (.ready (.item m), fr, s)) : Inlet.Behaves ⟨fr, s⟩ := by
  obtain ⟨ms, h⟩ := h
  have h1 := h.calls
  simp only [Framed.nextMany, next_of_ready hp] at h1
  cases ms with
  | nil => simp at h1
  | cons n ms =>
    refine ⟨ms, ?_, h.stop⟩
    simp only [List.length_cons, List.map_cons, List.cons_append, List.cons.injEq] at h1
    exact h1.2

theorem Inlet.Behaves.last {i : Inlet} (h : i.Behaves) {x : Item OwnedMsg} {fr : Framed MsgCodec} {s : Src}
    (hp : i.read.poll msgDecoder i.input = (.ready x, fr, s)) (hx : ∀ m, x ≠ .item m) : x = .done := by
  obtain ⟨ms, h⟩ := h
  exact (drained_unique (Drained.last hp hx) h).2

/-- Nobody who is connected breaks the protocol. -/
structure Parallel.Behaved (st : Parallel) : Prop where
  opening : ∀ u ∈ st.opening, u.Behaves
  streams : ∀ p ∈ st.handing ++ st.streams ++ st.current.toList, p.2.Behaves

theorem Parallel.Behaved.step [B64] {st : Parallel} (h : st.Behaved) (t : Turn) (ht : ∀ u, t = .incoming (.ok u) → u.Behaves) :
    (st.step t).Behaved := by
  have hs := h.streams
  simp only [List.mem_append] at hs
  unfold Parallel.step
  split
  · exact h
  split
  · exact ⟨h.opening, h.streams⟩
  · next u =>
    refine ⟨fun v hv => ?_, h.streams⟩
    rcases List.mem_append.mp hv with hv | hv
    · exact h.opening v hv
    · rw [List.mem_singleton] at hv; subst hv; exact ht _ rfl
  · next i extra =>
    split
    · exact h
    next u hu =>
    have hmem : u ∈ st.opening := List.mem_of_getElem? hu
    have hsub : ∀ v ∈ st.opening.eraseIdx i, v.Behaves := fun v hv => h.opening v (List.mem_of_mem_eraseIdx hv)
    split
    · next c hc =>
      split
      · exact ⟨hsub, h.streams⟩
      · refine ⟨hsub, fun p hp => ?_⟩
        simp only [List.mem_append, List.mem_singleton] at hp
        rcases hp with ((hp | hp) | hp) | hp
        · exact hs p (.inl (.inl hp))
        · subst hp
          obtain ⟨-, -, -, e1, e2⟩ := accept_leaves u extra c hc
          obtain ⟨ms, hd⟩ := h.opening u hmem
          exact ⟨ms, by show Drained c.read c.stream.input ms .done; rw [e1, e2]; exact hd⟩
        · exact hs p (.inl (.inr hp))
        · exact hs p (.inr hp)
    · exact ⟨hsub, h.streams⟩
  · next i =>
    split
    · exact h
    next x hx =>
    refine ⟨h.opening, fun p hp => ?_⟩
    simp only [List.mem_append, List.mem_singleton] at hp
    rcases hp with (hp | hp | hp) | hp
    · exact hs p (.inl (.inl (List.mem_of_mem_eraseIdx hp)))
    · exact hs p (.inl (.inr hp))
    · subst hp; exact hs _ (.inl (.inl (List.mem_of_getElem? hx)))
    · exact hs p (.inr hp)
  · exact ⟨h.opening, h.streams⟩
  · split <;> exact ⟨h.opening, h.streams⟩
  · split
    · exact h
    · split <;> exact ⟨h.opening, h.streams⟩
  · split
    · exact h
    · split <;> exact ⟨h.opening, h.streams⟩
  · split
    · next hc =>
      split
      · exact h
      · next x rest hst =>
        refine ⟨h.opening, fun p hp => ?_⟩
        simp only [List.mem_append, Option.toList, List.mem_singleton] at hp
        rcases hp with (hp | hp) | hp
        · exact hs p (.inl (.inl hp))
        · exact hs p (.inl (.inr (by rw [hst]; exact List.mem_cons_of_mem _ hp)))
        · subst hp; exact hs _ (.inl (.inr (by rw [hst]; exact List.mem_cons_self)))
    · next id inl hc =>
      have hb : inl.Behaves := hs (id, inl) (.inr (by rw [hc]; simp))
      have rest : ∀ i' : Inlet, i'.Behaves → ∀ p ∈ st.handing ++ st.streams ++ (some (id, i')).toList, p.2.Behaves := by
        intro i' hi' p hp
        simp only [List.mem_append, Option.toList, List.mem_singleton] at hp
        rcases hp with hp | hp
        · exact hs p (.inl hp)
        · subst hp; exact hi'
      split
      · next hp => exact ⟨h.opening, rest _ (hb.wait hp)⟩
      · next hp => exact ⟨h.opening, rest _ (hb.item hp)⟩
      · refine ⟨h.opening, fun p hp => ?_⟩
        simp only [List.mem_append, Option.toList, List.not_mem_nil, or_false] at hp
        exact hs p (.inl hp)
      · exact ⟨h.opening, h.streams⟩

theorem Parallel.Behaved.run [B64] {st : Parallel} (h : st.Behaved) (ts : List Turn) (ht : ∀ u, .incoming (.ok u) ∈ ts → u.Behaves) :
    (st.run ts).Behaved := by
  induction ts generalizing st with
  | nil => exact h
  | cons t ts ih =>
    exact ih (h.step t fun u e => ht u (by rw [e]; exact List.mem_cons_self)) fun u hu => ht u (List.mem_cons_of_mem _ hu)

theorem Parallel.Behaved.new : Parallel.new.Behaved := ⟨by simp [Parallel.new], by simp [Parallel.new]⟩

/-- C62, the part that holds: with a send handler that keeps up, handshakes that are all handshakes and clients that all send whole
messages, the program does not end. What is missing: that one client cannot end it for the others, see the refutations. -/
theorem C62_stays_partial [B64] (ts : List Turn) (st : Parallel) (h : RunsTo ts st) (hk : Parallel.new.KeepsUp ts)
    (hh : ∀ e, .incoming (.error e) ∉ ts) (hb : ∀ u, .incoming (.ok u) ∈ ts → u.Behaves) : st.over = none := by
  have h1 := C62_ends_only_for_cause_partial ts st h hk
  have h2 : st.Behaved := h ▸ Parallel.Behaved.new.run ts hb
  cases ho : st.over with
  | none => rfl
  | some w =>
    rw [ho] at h1
    cases w with
    | badHandshake => exact h1.elim fun e he => absurd he (hh e)
    | invalidId => exact h1.elim
    | badMessage =>
      obtain ⟨id, i, x, fr, s, hc, hp, hx, hd⟩ := h1
      exact absurd (Inlet.Behaves.last (h2.streams (id, i) (by rw [hc]; simp)) hp hx) hd

/-- A schedule without end in which the send handler keeps up, every handshake is one, and every client sends whole messages. -/
structure Steady [B64] (f : Nat → Turn) : Prop where
  keepsUp : ∀ k, f k = .tick → (Parallel.after f k).asking = [] ∧ (Parallel.after f k).asked = []
  handshakes : ∀ k e, f k ≠ .incoming (.error e)
  clients : ∀ k u, f k = .incoming (.ok u) → u.Behaves

/-- Every task gets its turn: the timer fires and the handlers are polled again and again, and what was spawned finishes. -/
structure Executed [B64] (f : Nat → Turn) : Prop where
  ticks : ∀ k, ∃ j, k ≤ j ∧ f j = .tick
  sends : ∀ k, ∃ j, k ≤ j ∧ f j = .send
  receives : ∀ k, ∃ j, k ≤ j ∧ f j = .receive
  hands : ∀ k id, id ∈ (Parallel.after f k).handing.map Prod.fst → ∃ j, k ≤ j ∧ id ∉ (Parallel.after f j).handing.map Prod.fst
  asks : ∀ k id, id ∈ (Parallel.after f k).asking → ∃ j, k ≤ j ∧ id ∉ (Parallel.after f j).asking
  lands : ∀ k id, id ∈ (Parallel.after f k).flying.map Prod.fst → ∃ j, k ≤ j ∧ id ∉ (Parallel.after f j).flying.map Prod.fst

theorem keepsUp_after [B64] (f : Nat → Turn) (hk : ∀ k, f k = .tick → (Parallel.after f k).asking = [] ∧ (Parallel.after f k).asked = []) (n : Nat) :
    Parallel.new.KeepsUp ((List.range n).map f) := by
  have app : ∀ (a : List Turn) (t : Turn) (st : Parallel), st.KeepsUp a → (t = .tick → (st.run a).asking = [] ∧ (st.run a).asked = []) →
      st.KeepsUp (a ++ [t]) := by
    intro a
    induction a with
    | nil => intro t st _ h; exact ⟨h, trivial⟩
    | cons x xs ih => intro t st hx h; exact ⟨hx.1, ih t _ hx.2 h⟩
  induction n with
  | zero => trivial
  | succ n ih =>
    rw [List.range_succ, List.map_append]
    exact app _ _ _ ih fun e => by rw [← after_run]; exact hk n e

theorem steady_alive [B64] (f : Nat → Turn) (h : Steady f) (n : Nat) : (Parallel.after f n).over = none := by
  refine C62_stays_partial ((List.range n).map f) _ (after_run f n).symm (keepsUp_after f h.keepsUp n) ?_ ?_
  · intro e he
    obtain ⟨k, -, hk⟩ := List.mem_map.mp he
    exact h.handshakes k e hk
  · intro u hu
    obtain ⟨k, -, hk⟩ := List.mem_map.mp hu
    exact h.clients k u hk

/-- C62, the part that holds: under such a schedule every client is heard to the end of its stream, whoever was before it: from some point
on, what was processed under its number is all that its bytes carry, in order. What is missing: clients that stay, or break the
protocol, see the refutations. -/
theorem C62_hears_everyone_partial [B64] (f : Nat → Turn) (hs : Steady f) (hf : Executed f) (n id : Nat) (c : AsyncClient)
    (hc : (id, c) ∈ (Parallel.after f n).opened) (hg : ∀ e ∈ c.stream.input, e ≠ .chunk []) :
    ∃ m, ∀ k, m ≤ k → ∃ part, Carried true (min defaultMaxDataframe u32Max) (min defaultMaxMessage u32Max) [] (c.read.buf ++ c.stream.input.flat)
      ((((Parallel.after f k).heard.filter fun p => p.1 = id).map Prod.snd).map OwnedMsg.spec) part := by
  obtain ⟨m, i, h1, h2⟩ := opened_ends f (steady_alive f hs) hf.receives hf.hands n id c hc
  refine ⟨m, fun k hk => ?_⟩
  have h3 : (id, i) ∈ (Parallel.after f k).closed := after_keeps f (fun st => (id, i) ∈ st.closed) (fun st t h => (step_current t).1 _ h) hk h2
  have h4 : (id, c) ∈ (Parallel.after f k).opened := after_keeps f (fun st => (id, c) ∈ st.opened) (fun st t h => step_opened st t _ h) (Nat.le_trans h1 hk) hc
  obtain ⟨-, g1, g2⟩ := C61_heard ((List.range k).map f) _ (after_run f k).symm id c i h4
  obtain ⟨bs, e1, e2⟩ := g1 (.inr h3)
  rw [g2 h3 hg, List.append_nil] at e1
  rw [e1]
  exact ⟨_, e2⟩

/-- C62, the part that holds: under such a schedule every client whose transport takes what it is given is greeted again and again:
whatever number is asked for, its transport at some point holds its handshake and at least that many greetings, whole. -/
theorem C62_greets_on_partial [B64] (f : Nat → Turn) (hs : Steady f) (hf : Executed f) (n id : Nat) (c : AsyncClient)
    (hc : (id, c) ∈ (Parallel.after f n).opened) (hl : ∀ k, id ∉ (Parallel.after f k).lost.map Prod.fst) (N : Nat) :
    ∃ m o, n ≤ m ∧ (id, o) ∈ (Parallel.after f m).pool ∧ ∃ M, N ≤ M ∧
      o.output.wire = c.stream.output.wire ++ (List.replicate M greeting).flatten := by
  obtain ⟨m, h1, h2⟩ : ∃ m, n ≤ m ∧ N ≤ (Parallel.after f m).sending.count id := by
    induction N with
    | zero => exact ⟨n, Nat.le_refl _, Nat.zero_le _⟩
    | succ N ih =>
      obtain ⟨m, h1, h2⟩ := ih
      have h4 : (id, c) ∈ (Parallel.after f m).opened := after_keeps f (fun st => (id, c) ∈ st.opened) (fun st t h => step_opened st t _ h) h1 hc
      obtain ⟨m', h5, h6⟩ := greeted_again f (steady_alive f hs) hf.ticks hf.sends hf.asks hf.lands m id c h4 hl
      exact ⟨m', by omega, by omega⟩
  obtain ⟨k, hk, hfl⟩ : ∃ k, m ≤ k ∧ id ∉ (Parallel.after f k).flying.map Prod.fst := by
    by_cases hm : id ∈ (Parallel.after f m).flying.map Prod.fst
    · exact hf.lands m id hm
    · exact ⟨m, Nat.le_refl _, hm⟩
  have h4 : (id, c) ∈ (Parallel.after f k).opened :=
    after_keeps f (fun st => (id, c) ∈ st.opened) (fun st t h => step_opened st t _ h) (Nat.le_trans h1 hk) hc
  have hin : id ∈ ((Parallel.after f k).pool ++ (Parallel.after f k).flying ++ (Parallel.after f k).lost).map Prod.fst := by
    refine (after_ids f k).out.mem_iff.mpr ?_
    rw [← (after_ids f k).opened]
    exact List.mem_map_of_mem (f := Prod.fst) h4
  rw [List.map_append, List.map_append, List.mem_append, List.mem_append] at hin
  rcases hin with (hin | hin) | hin
  · obtain ⟨p, hp, e⟩ := List.mem_map.mp hin
    have hp' : (id, p.2) ∈ (Parallel.after f k).pool := by rw [← e]; exact hp
    refine ⟨k, p.2, by omega, hp', (Parallel.after f k).sending.count id, Nat.le_trans h2 (after_sending f id hk), ?_⟩
    exact ((C61_wire ((List.range k).map f) _ (after_run f k).symm id c p.2 h4).1 hp').1
  · exact absurd hin hfl
  · exact absurd hin (hl k)

/-! ## A schedule

Two clients connect and are heard to their ends; then the timer fires, the requests are taken and the sends finish, over and over. -/

def parOpen : List Turn := parStart parHealthy parHealthy ++ List.replicate 8 .receive
def parCycle : List Turn := .receive :: round 2 ⟨0, 0, 0, 0⟩ 0
def parForever (n : Nat) : Turn := if h : n < parOpen.length then parOpen[n] else parCycle[(n - 15) % 8]'(by
  have : parCycle.length = 8 := rfl
  omega)

/-- Between two cycles. -/
structure Resting (st : Parallel) : Prop where
  over : st.over = none
  asking : st.asking = []
  asked : st.asked = []
  flying : st.flying = []
  lost : st.lost = []
  handing : st.handing = []
  streams : st.streams = []
  current : st.current = none
  pool : st.pool.length = 2
  patient : ∀ p ∈ st.pool, p.2.output.Patient

section
local instance : B64 := B64.strict

theorem parForever_first (d : Nat) (hd : d < 15) : parForever d = parOpen[d]'hd := dif_pos hd

theorem parForever_cycle (k d : Nat) (hd : d < 8) : parForever (15 + 8 * k + d) = parCycle[d]'hd := by
  unfold parForever
  rw [dif_neg (by show ¬ 15 + 8 * k + d < 15; omega)]
  congr 1
  omega

theorem parForever_split (n : Nat) (h : 15 ≤ n) : ∃ k d, d < 8 ∧ n = 15 + 8 * k + d := ⟨(n - 15) / 8, (n - 15) % 8, by omega, by omega⟩

theorem after_add (f : Nat → Turn) (n : Nat) (l : List Turn) (h : ∀ d (hd : d < l.length), f (n + d) = l[d]) :
    Parallel.after f (n + l.length) = (Parallel.after f n).run l := by
  induction l generalizing n with
  | nil => rfl
  | cons t ts ih =>
    have h0 := h 0 (by simp)
    have := ih (n + 1) fun d hd => by
      rw [show n + 1 + d = n + (d + 1) by omega, h (d + 1) (by simpa using hd)]
      rfl
    rw [List.length_cons, show n + (ts.length + 1) = n + 1 + ts.length by omega, this]
    show ((Parallel.after f n).step (f n)).run ts = _
    rw [show f n = t from h0]
    rfl

theorem after_first : Parallel.after parForever 15 = Parallel.new.run parOpen := by
  have := after_add parForever 0 parOpen fun d hd => by rw [Nat.zero_add]; exact parForever_first d hd
  exact (congrArg (Parallel.after parForever) (by decide : 15 = 0 + parOpen.length)).trans this

theorem parOpen_rests : Resting (Parallel.new.run parOpen) := by
  have e : ∀ {α : Type} {l : List α}, l.isEmpty = true → l = [] := List.isEmpty_iff.mp
  have h5 : ((Parallel.new.run parOpen).pool.all fun p => p.2.output.script.all WEv.someOrLater) = true := by decide +kernel
  exact ⟨by decide +kernel, by decide +kernel, by decide +kernel, e (by decide +kernel), e (by decide +kernel), e (by decide +kernel),
    e (by decide +kernel), Option.isNone_iff_eq_none.mp (by decide +kernel), by decide +kernel,
    fun p hp => Sink.patient_of (List.all_eq_true.mp h5 p hp)⟩

theorem Resting.receive {st : Parallel} (h : Resting st) : st.step .receive = st := by
  unfold Parallel.step
  rw [if_neg (by simp [h.over])]
  simp only [h.current, h.streams]

theorem cycle_rests (k : Nat) : Resting (Parallel.after parForever (15 + 8 * k)) := by
  induction k with
  | zero => rw [show 15 + 8 * 0 = 15 from rfl, after_first]; exact parOpen_rests
  | succ k ih =>
    have h1 := after_add parForever (15 + 8 * k) parCycle fun d hd => parForever_cycle k d hd
    rw [show 15 + 8 * (k + 1) = 15 + 8 * k + parCycle.length by simp [parCycle, round]; omega, h1]
    clear h1
    have hr := (after_run parForever (15 + 8 * k)).symm
    revert hr ih
    generalize Parallel.after parForever (15 + 8 * k) = st
    intro ih hr
    have hc : st.run parCycle = st.run (round 2 ⟨0, 0, 0, 0⟩ 0) := by
      unfold parCycle Parallel.run
      rw [List.foldl_cons, ih.receive]
    rw [hc]
    obtain ⟨pool, e, hp, hq⟩ := run_round _ _ hr ih.over ih.asking ih.asked ih.flying ih.patient ⟨0, 0, 0, 0⟩ 0
    rw [ih.pool] at e
    rw [e]
    refine ⟨ih.over, rfl, rfl, rfl, ih.lost, ih.handing, ih.streams, ih.current, ?_, hq⟩
    have := hp.length_eq
    simpa [ih.pool] using this

theorem parHealthy_behaves (u : AsyncUpgrade) (h : parYield parHealthy = .ok u) : u.Behaves := by
  have hb : (match parYield parHealthy with
    | .ok u => decide ((Framed.nextMany msgDecoder 3
        (Framed.fromParts (MsgCodec.newWithLimits .server defaultMaxDataframe defaultMaxMessage) u.buffer) u.stream.input).1 =
          [.item (.ping [7]), .item (.text [72, 105]), .done])
    | .error _ => false) = true := by decide +kernel
  rw [h] at hb
  exact ⟨[.ping [7], .text [72, 105]], of_decide_eq_true hb, by simp⟩

/-- The turns are those of the beginning, or of a cycle. -/
theorem parForever_mem (n : Nat) : parForever n ∈ parOpen ∨ parForever n ∈ parCycle := by
  by_cases h : n < 15
  · rw [parForever_first n h]; exact .inl (List.getElem_mem _)
  · obtain ⟨k, d, hd, rfl⟩ := parForever_split n (by omega)
    rw [parForever_cycle k d hd]; exact .inr (List.getElem_mem _)

theorem parForever_incoming (n : Nat) (x : Accepted) (h : parForever n = .incoming x) : x = parYield parHealthy := by
  rcases parForever_mem n with hm | hm <;> rw [h] at hm
  · simp only [parOpen, parStart, List.cons_append, List.nil_append, List.mem_cons, Turn.incoming.injEq, reduceCtorEq,
      or_false, or_self, List.replicate] at hm
    simpa using hm
  · simp [parCycle, round] at hm

theorem parForever_steady : Steady parForever := by
  refine ⟨fun n h => ?_, fun n e h => ?_, fun n u h => parHealthy_behaves u (parForever_incoming n _ h).symm⟩
  · by_cases hn : n < 15
    · rw [parForever_first n hn] at h
      exfalso
      have hm : Turn.tick ∈ parOpen := by rw [← h]; exact List.getElem_mem _
      simp [parOpen, parStart] at hm
    · obtain ⟨k, d, hd, rfl⟩ := parForever_split n (by omega)
      rw [parForever_cycle k d hd] at h
      have hd1 : d = 1 := by
        have : ∀ d : Fin 8, (match parCycle[d.val]'d.isLt with | .tick => true | _ => false) = true → d.val = 1 := by decide
        exact this ⟨d, hd⟩ (by show (match parCycle[d]'hd with | .tick => true | _ => false) = true; rw [h])
      subst hd1
      have hr := cycle_rests k
      have : Parallel.after parForever (15 + 8 * k + 1) = Parallel.after parForever (15 + 8 * k) := by
        show (Parallel.after parForever (15 + 8 * k)).step (parForever (15 + 8 * k)) = _
        rw [show parForever (15 + 8 * k) = .receive from parForever_cycle k 0 (by decide)]
        exact hr.receive
      rw [this]
      exact ⟨hr.asking, hr.asked⟩
  · have he := parForever_incoming n _ h
    have h0 : (parYield parHealthy).isOk = true := by decide +kernel
    rw [← he] at h0
    cases h0

theorem parForever_executed : Executed parForever where
  ticks k := ⟨15 + 8 * k + 1, by omega, parForever_cycle k 1 (by decide)⟩
  sends k := ⟨15 + 8 * k + 4, by omega, parForever_cycle k 4 (by decide)⟩
  receives k := ⟨15 + 8 * k + 0, by omega, parForever_cycle k 0 (by decide)⟩
  hands k id _ := ⟨15 + 8 * k, by omega, by rw [(cycle_rests k).handing]; simp⟩
  asks k id _ := ⟨15 + 8 * k, by omega, by rw [(cycle_rests k).asking]; simp⟩
  lands k id _ := ⟨15 + 8 * k, by omega, by rw [(cycle_rests k).flying]; simp⟩

theorem parForever_lost (k id : Nat) : id ∉ (Parallel.after parForever k).lost.map Prod.fst := by
  intro h
  obtain ⟨p, hp, -⟩ := List.mem_map.mp h
  have := after_keeps parForever (fun st => p ∈ st.lost) (fun st t h => step_lost st t _ h) (show k ≤ 15 + 8 * k by omega) hp
  rw [(cycle_rests k).lost] at this
  cases this

/-- `C62_stays_partial`, `C62_hears_everyone_partial`, `C62_greets_on_partial`: both clients, heard whole and greeted a thousand times. -/
example : Parallel.new.KeepsUp parCalm ∧ (∀ e, .incoming (.error e) ∉ parCalm) ∧ (∀ u, .incoming (.ok u) ∈ parCalm → u.Behaves) := by
  have h : ∀ x, Turn.incoming x ∈ parCalm → x = parYield parHealthy := by
    intro x hx
    simpa [parCalm, parStart] using hx
  refine ⟨keepsUp_sound _ _ (by decide +kernel), fun e he => ?_, fun u hu => parHealthy_behaves u (h _ hu).symm⟩
  have h0 : (parYield parHealthy).isOk = true := by decide +kernel
  rw [← h _ he] at h0
  cases h0
theorem parForever_two : ∃ c, (2, c) ∈ (Parallel.after parForever 15).opened ∧ ∀ e ∈ c.stream.input, e ≠ .chunk [] := by
  rw [after_first]
  have h : ((Parallel.new.run parOpen).opened.any fun p => decide (p.1 = 2) && p.2.stream.input.all fun e => decide (e ≠ .chunk [])) = true := by decide +kernel
  obtain ⟨p, hp, e⟩ := List.any_eq_true.mp h
  simp only [Bool.and_eq_true, decide_eq_true_eq, List.all_eq_true] at e
  exact ⟨p.2, by rw [← e.1]; exact hp, e.2⟩
example (c : AsyncClient) (h : (2, c) ∈ (Parallel.after parForever 15).opened) (hg : ∀ e ∈ c.stream.input, e ≠ .chunk []) :=
  C62_hears_everyone_partial parForever parForever_steady parForever_executed 15 2 c h hg
example (c : AsyncClient) (h : (2, c) ∈ (Parallel.after parForever 15).opened) :=
  C62_greets_on_partial parForever parForever_steady parForever_executed 15 2 c h (fun k => parForever_lost k 2) 1000

end

end WS
