import Verif.Lemmas.Parallel
import Verif.Lemmas.Echo
import Verif.Props.Echo
import Verif.Props.Accept
/-!
# C61, C62: examples/parallel-server.rs

C61: it never mixes its clients up, whatever the clients, the timer and the executor do. C62: whether it goes on serving them.
-/

namespace WS

open Spec

/-- The program has got here. -/
def RunsTo [B64] (ts : List Turn) (st : Parallel) : Prop := Parallel.new.run ts = st

theorem reached_ids [B64] {ts : List Turn} {st : Parallel} (h : RunsTo ts st) : st.Ids := h ▸ Parallel.Ids.new.run ts
theorem reached_wires [B64] {ts : List Turn} {st : Parallel} (h : RunsTo ts st) : st.Wires := h ▸ Parallel.Wires.run .new .new ts
theorem reached_ears [B64] {ts : List Turn} {st : Parallel} (h : RunsTo ts st) : st.Ears := h ▸ Parallel.Ears.run .new .new ts

/-! ## C61 -/

/-- C61: the clients accepted so far have the identifiers 1, 2, …, none given twice, and there are no more of them than a `u32` counts. -/
theorem C61_identifiers [B64] (ts : List Turn) (st : Parallel) (h : RunsTo ts st) :
    st.opened.map Prod.fst = List.range' 1 st.count ∧ st.count < 2 ^ 32 := by
  have := reached_ids h
  have hc := this.count
  exact ⟨this.opened, by have : u32Max = 2 ^ 32 - 1 := by decide
                         omega⟩

/-- C61: every client is one whose upgrade the listener yielded and the program accepted. -/
theorem C61_clients_are_upgrades [B64] (ts : List Turn) (st : Parallel) (h : RunsTo ts st) (id : Nat) (c : AsyncClient) (hc : (id, c) ∈ st.opened) :
    ∃ u extra, .incoming (.ok u) ∈ ts ∧ u.accept extra = .client c := by
  subst h
  exact (Parallel.From.run (P := fun u => .incoming (.ok u) ∈ ts) ⟨by simp [Parallel.new], by simp [Parallel.new]⟩ ts fun u hu => hu).opened id c hc

/-- C61: the sending half of each client is in one place: in the table, in a send under way, or gone with a failed send. -/
theorem C61_one_sender [B64] (ts : List Turn) (st : Parallel) (h : RunsTo ts st) :
    ((st.pool ++ st.flying ++ st.lost).map Prod.fst).Perm (List.range' 1 st.count) := (reached_ids h).out

/-- C61: the receiving half of each client is in one place: on its way to the handler, waiting there, being read, or ended. -/
theorem C61_one_receiver [B64] (ts : List Turn) (st : Parallel) (h : RunsTo ts st) :
    ((st.handing ++ st.streams ++ st.current.toList ++ st.closed).map Prod.fst).Perm (List.range' 1 st.count) := (reached_ids h).inn

/-- C61: on a client's transport are its handshake and then whole greetings, as many as the program says it has sent to this client; the one
under way does not count yet, and the one that failed is there in part. -/
theorem C61_wire [B64] (ts : List Turn) (st : Parallel) (h : RunsTo ts st) (id : Nat) (c : AsyncClient) (o : Outlet) (hc : (id, c) ∈ st.opened) :
    ((id, o) ∈ st.pool → o.output.wire = c.stream.output.wire ++ (List.replicate (st.sending.count id) greeting).flatten ∧ o.write.buf.data = []) ∧
    ((id, o) ∈ st.flying → ∃ n, st.sending.count id = n + 1 ∧ o.output.wire = c.stream.output.wire ++ (List.replicate n greeting).flatten ∧
      o.write.buf.data = []) ∧
    ((id, o) ∈ st.lost → ∃ n pre, st.sending.count id = n + 1 ∧ pre <+: greeting ∧
      o.output.wire = c.stream.output.wire ++ (List.replicate n greeting).flatten ++ pre) := by
  have hw := reached_wires h
  refine ⟨fun hm => ?_, fun hm => ?_, fun hm => hw.lost id o c hm hc⟩
  · have := hw.pool id o c hm hc
    exact ⟨this.wire, this.idle⟩
  · obtain ⟨n, h1, h2⟩ := hw.flying id o c hm hc
    exact ⟨n, h1, h2.wire, h2.idle⟩

/-- The greeting is one unmasked text message saying "Hi there!". -/
theorem C61_greeting : Says false [.text (ascii "Hi there!")] greeting :=
  says_encode (lim := 2 ^ 62) (by decide) (m := hiThere) ⟨isUtf8_ascii (by decide), by decide⟩ false ⟨0, 0, 0, 0⟩ greeting_eq

/-- C61: what is processed under a client's number is what this client's bytes carry, in order, from the first byte after its request on; nothing
is processed before its turn; and when its stream has ended, everything was processed. -/
theorem C61_heard [B64] (ts : List Turn) (st : Parallel) (h : RunsTo ts st) (id : Nat) (c : AsyncClient) (i : Inlet) (hc : (id, c) ∈ st.opened) :
    let heard := (st.heard.filter fun p => p.1 = id).map Prod.snd
    ((id, i) ∈ st.handing ++ st.streams → i.read.buf ++ i.input.flat = c.read.buf ++ c.stream.input.flat ∧ heard = []) ∧
    (st.current = some (id, i) ∨ (id, i) ∈ st.closed → ∃ bs, c.read.buf ++ c.stream.input.flat = bs ++ (i.read.buf ++ i.input.flat) ∧
      Carried true (min defaultMaxDataframe u32Max) (min defaultMaxMessage u32Max) [] bs (heard.map OwnedMsg.spec) (i.read.codec.buffer.map DataFrame.spec)) ∧
    ((id, i) ∈ st.closed → (∀ e ∈ c.stream.input, e ≠ .chunk []) → i.read.buf ++ i.input.flat = []) := by
  have he := reached_ears h
  have key : ∀ {ms}, Listened c ms i → ∃ bs, c.read.buf ++ c.stream.input.flat = bs ++ (i.read.buf ++ i.input.flat) ∧
      Carried true (min defaultMaxDataframe u32Max) (min defaultMaxMessage u32Max) [] bs (ms.map OwnedMsg.spec) (i.read.codec.buffer.map DataFrame.spec) := by
    intro ms hl
    obtain ⟨-, bs, h1, h2⟩ := hl.carries
    obtain ⟨buf, ha⟩ := he.accepted id c hc
    refine ⟨bs, h1, ?_⟩
    rw [show specs c.read.codec.buffer = [] by rw [ha]; rfl] at h2
    exact h2
  refine ⟨fun hm => ?_, ?_, fun hm hg => ?_⟩
  · obtain ⟨e, h2⟩ := he.waiting id i c hm hc
    rw [e]
    exact ⟨rfl, h2⟩
  · rintro (hm | hm)
    · exact key (he.current id i c hm hc)
    · exact key (he.closed id i c hm hc).1
  · obtain ⟨h1, h2⟩ := (he.closed id i c hm hc).2 hg
    rw [h1, h2]; rfl

/-! ## C62 -/

/-- C62, the part that holds: as long as the requests of one firing of the timer are taken before the next, the program never asks for a client that is
not in its table; it ends only because of a request that is not a handshake, or because the stream being read fails. What is missing: that it does not
end, see the refutations. -/
theorem C62_ends_only_for_cause_partial [B64] (ts : List Turn) (st : Parallel) (h : RunsTo ts st) (hk : Parallel.new.KeepsUp ts) :
    match st.over with
    | none => True
    | some .invalidId => False
    | some .badHandshake => ∃ e, .incoming (.error e) ∈ ts
    | some .badMessage => ∃ id i x fr s, st.current = some (id, i) ∧ i.read.poll msgDecoder i.input = (.ready x, fr, s) ∧ (∀ m, x ≠ .item m) ∧ x ≠ .done := by
  have h1 : st.Calm := h ▸ Parallel.Calm.run .new ⟨by simp [Parallel.new], by simp [Parallel.new], by simp [Parallel.new]⟩ ts hk
  have h2 : st.Cause (∃ e, .incoming (.error e) ∈ ts) := h ▸ Parallel.Cause.run ⟨by simp [Parallel.new], by simp [Parallel.new]⟩ ts fun e he => ⟨e, he⟩
  split
  · trivial
  · next e => exact h1.alive e
  · next e => exact h2.handshake e
  · next e => exact h2.message e

/-- The turns of a program that keeps up: the timer fires, the requests reach the channel, are taken, and the sends finish. -/
def round (n : Nat) (key : Key4) (extra : Nat) : List Turn :=
  .tick :: (List.replicate n (.ask 0) ++ List.replicate n .send ++ List.replicate n (.sent 0 key extra))

/-- A round, as a change of the state. -/
theorem run_round [B64] (ts : List Turn) (st : Parallel) (h : RunsTo ts st) (ho : st.over = none) (h1 : st.asking = []) (h2 : st.asked = [])
    (h3 : st.flying = []) (hp : ∀ p ∈ st.pool, p.2.output.Patient) (key : Key4) (extra : Nat) :
    ∃ pool, st.run (round st.pool.length key extra) =
        { st with asking := [], asked := [], pool := pool, flying := [], sending := st.sending ++ st.pool.map Prod.fst } ∧
      (pool.map Prod.fst).Perm (st.pool.map Prod.fst) ∧ ∀ p ∈ pool, p.2.output.Patient := by
  have hi := reached_ids h
  have hw := reached_wires h
  have hop : ∀ p ∈ st.pool, p.2.output.Patient ∧ p.2.write.buf.WF ∧ p.2.write.buf.data = [] := by
    intro p hm
    obtain ⟨j, hj⟩ : ∃ c, (p.1, c) ∈ st.opened := by
      have : p.1 ∈ st.opened.map Prod.fst := by
        rw [hi.opened]
        exact hi.out.mem_iff.mp (List.mem_map_of_mem (by simp [hm]))
      obtain ⟨q, hq1, hq2⟩ := List.mem_map.mp this
      exact ⟨q.2, by rw [← hq2]; exact hq1⟩
    have := hw.pool p.1 p.2 j hm hj
    exact ⟨hp p hm, this.wf, this.idle⟩
  have e0 : st.step .tick = { st with asking := st.pool.map Prod.fst } := by
    unfold Parallel.step
    rw [if_neg (by simp [ho])]
    simp [h1]
  have e1 := run_asks (st.pool.map Prod.fst) { st with asking := st.pool.map Prod.fst } ho rfl
  have e2 := run_sends st.pool { st with asking := [], asked := st.pool.map Prod.fst } ho hi.pool_nodup rfl rfl
  obtain ⟨pool, e3, e4, e5⟩ := run_sents st.pool key extra
    { st with asking := [], asked := [], pool := [], flying := st.pool, sending := st.sending ++ st.pool.map Prod.fst } ho rfl
    (by simpa using hi.pool_nodup) hop (by simp)
  have hr : st.run (round st.pool.length key extra) =
      { st with asking := [], asked := [], pool := pool, flying := [], sending := st.sending ++ st.pool.map Prod.fst } := by
    show (st.step .tick).run _ = _
    rw [e0, run_app, run_app]
    rw [List.length_map] at e1
    rw [e1]
    simp only [h2, List.nil_append]
    rw [e2]
    simp only [h3, List.nil_append]
    rw [e3]
  exact ⟨pool, hr, by simpa using e4, e5⟩

/-- C62, the part that holds: if nothing is under way and the clients' transports take what they are given, a round greets every client in the table exactly
once, and the program is ready for the next. What is missing: other orders of events, see `C62_refuted_busy`. -/
theorem C62_greets_everyone_partial [B64] (ts : List Turn) (st : Parallel) (h : RunsTo ts st) (ho : st.over = none) (h1 : st.asking = []) (h2 : st.asked = [])
    (h3 : st.flying = []) (hp : ∀ p ∈ st.pool, p.2.output.Patient) (key : Key4) (extra : Nat) :
    let st' := st.run (round st.pool.length key extra)
    st'.over = none ∧ st'.asking = [] ∧ st'.asked = [] ∧ st'.flying = [] ∧ st'.lost = st.lost ∧ st'.opened = st.opened ∧ st'.heard = st.heard ∧
      (st'.pool.map Prod.fst).Perm (st.pool.map Prod.fst) ∧ (∀ p ∈ st'.pool, p.2.output.Patient) ∧
      st'.sending = st.sending ++ st.pool.map Prod.fst := by
  obtain ⟨pool, hr, e4, e5⟩ := run_round ts st h ho h1 h2 h3 hp key extra
  simp only [hr]
  exact ⟨ho, trivial, trivial, trivial, trivial, trivial, trivial, e4, e5, trivial⟩

/-- C62, what the program really does: while the stream of a client lasts, no message of any other client is processed. -/
theorem C62_one_at_a_time [B64] (ts more : List Turn) (st : Parallel) (h : RunsTo ts st) (id : Nat) (i i' : Inlet) (hc : st.current = some (id, i))
    (hc' : (st.run more).current = some (id, i')) : ∃ ms : List OwnedMsg, (st.run more).heard = st.heard ++ ms.map (Prod.mk id) :=
  run_current (reached_ids h) more id i i' hc hc'

/-- C62: once it has ended it does nothing. -/
theorem C62_over_is_over [B64] (st : Parallel) (h : st.over ≠ none) (more : List Turn) : st.run more = st := by
  induction more with
  | nil => rfl
  | cons t ts ih => show (st.step t).run ts = st; rw [step_over h]; exact ih

/-! ## Refutations -/

/-- A client that asks for an upgrade and sends a ping and a text. -/
def parClient (extra : List Ev) : Duplex :=
  ⟨[.chunk (Head (requestStart sampleUrl) (requestLines sampleUrl sampleOps sampleKey))] ++ extra, ⟨[], []⟩⟩

/-- What the listener makes of it. -/
def parYield (d : Duplex) : Accepted := @asyncServerAccept B64.strict reqParser (.ok d) none

/-- Two clients connect and are accepted; their streams are handed over. -/
def parStart (a b : Duplex) : List Turn :=
  [.incoming (parYield a), .incoming (parYield b), .accept 1 0, .accept 0 0, .hand 1, .hand 0, .receive]

def parHealthy : Duplex := parClient [.chunk ([0x89, 0x81, 1, 2, 3, 4, 6] ++ [0x81, 0x82, 5, 6, 7, 8, 0x4d, 0x6f])]
def parSilent : Duplex := parClient (List.replicate 3 (.error .wouldBlock))
def parBroken : Duplex := parClient [.chunk [0x81, 1, 65]]

def Parallel.view (st : Parallel) : Option Stop × List (Nat × OwnedMsg) × List (Nat × Bytes) :=
  (st.over, st.heard, st.pool.map fun p => (p.1, p.2.output.wire.drop 129))

/-- Two clients, two ticks of which the second falls when the requests of the first have been taken; one client is read to the end. -/
def parCalm : List Turn :=
  parStart parHealthy parHealthy ++
    [.tick, .ask 1, .send, .ask 0, .sent 0 ⟨0, 0, 0, 0⟩ 0, .receive, .send, .receive, .tick, .receive, .sent 0 ⟨0, 0, 0, 0⟩ 0, .receive]

example : (@Parallel.run B64.strict .new parCalm).view =
    (none, [(2, .ping [7]), (2, .text [72, 105])], [(2, greeting), (1, greeting)]) := by
  decide +kernel

example : (@Parallel.run B64.strict .new parCalm).closed.map Prod.fst = [2] ∧ (@Parallel.run B64.strict .new parCalm).opened.map Prod.fst = [1, 2] := by
  decide +kernel

/-- That schedule keeps up. -/
def Parallel.keepsUp [B64] : Parallel → List Turn → Bool
  | _, [] => true
  | st, .tick :: ts => decide (st.asking = [] ∧ st.asked = []) && Parallel.keepsUp (st.step .tick) ts
  | st, t :: ts => Parallel.keepsUp (st.step t) ts

theorem keepsUp_sound [B64] (st : Parallel) (ts : List Turn) (h : st.keepsUp ts = true) : st.KeepsUp ts := by
  induction ts generalizing st with
  | nil => trivial
  | cons t ts ih =>
    cases t <;> simp only [Parallel.keepsUp, Bool.and_eq_true, decide_eq_true_eq] at h
    case tick => exact ⟨fun _ => h.1, ih _ h.2⟩
    all_goals exact ⟨fun e => (by cases e), ih _ h⟩

example : @Parallel.KeepsUp B64.strict .new parCalm := @keepsUp_sound B64.strict _ _ (by decide +kernel)

/-- A state in which a round can start, with two clients. -/
example : let st := @Parallel.run B64.strict .new (parStart parHealthy parHealthy)
    st.over = none ∧ st.asking = [] ∧ st.asked = [] ∧ st.flying.map Prod.fst = [] ∧ st.pool.map (fun p => (p.1, p.2.output.script)) = [(2, []), (1, [])] := by
  decide +kernel

/-- C62 fails: two healthy clients, whose greetings have all been written, and a timer that fires twice before the requests are taken. The second request for the
same client finds its sender under way, and the program ends. -/
theorem C62_refuted_busy : ∃ (ts : List Turn) (st : Parallel), @RunsTo B64.strict ts st ∧ st.over = some .invalidId ∧ (∀ e, .incoming (.error e) ∉ ts) ∧ st.lost.map Prod.fst = [] := by
  refine ⟨parStart parHealthy parHealthy ++ [.tick, .tick, .ask 0, .ask 1, .ask 0, .ask 0, .send, .send], _, rfl, by decide +kernel, ?_, by decide +kernel⟩
  intro e he
  have h : ∀ d, parYield d = .error e → (parYield d).isOk = false := fun d h => by rw [h]; rfl
  have h0 : (parYield parHealthy).isOk = true := by decide +kernel
  simp only [parStart, List.cons_append, List.nil_append, List.mem_cons, Turn.incoming.injEq, List.not_mem_nil, or_false, reduceCtorEq] at he
  rcases he with he | he <;> (have := h _ he.symm; rw [h0] at this; cases this)

/-- C62 fails: a frame without a mask from one client ends the program for the other, whose messages are never processed. -/
theorem C62_refuted_bad_message : ∃ (ts : List Turn) (st : Parallel), @RunsTo B64.strict ts st ∧ @Parallel.KeepsUp B64.strict .new ts ∧
    st.over = some .badMessage ∧ st.heard = [] ∧ st.streams.map Prod.fst = [1] := by
  refine ⟨parStart parBroken parHealthy ++ [.receive], _, rfl, @keepsUp_sound B64.strict _ _ ?_, ?_, ?_, ?_⟩ <;> decide +kernel

/-- C62 fails: while one client is silent the other is not heard, although everything it sent has arrived and the handler is polled again and again. -/
theorem C62_refuted_silent : ∃ (ts : List Turn) (st : Parallel), @RunsTo B64.strict ts st ∧ @Parallel.KeepsUp B64.strict .new ts ∧
    st.over = none ∧ st.current.map Prod.fst = some 2 ∧ st.heard = [] ∧ st.streams.map Prod.fst = [1] := by
  refine ⟨parStart parSilent parHealthy ++ [.receive, .receive, .receive], _, rfl, @keepsUp_sound B64.strict _ _ ?_, ?_, ?_, ?_, ?_⟩ <;> decide +kernel

/-- C62 fails: something that is not a handshake ends the program for the clients it has. -/
theorem C62_refuted_bad_handshake : ∃ (ts : List Turn) (st : Parallel), @RunsTo B64.strict ts st ∧ @Parallel.KeepsUp B64.strict .new ts ∧
    st.over = some .badHandshake ∧ st.heard = [] ∧ st.current.map Prod.fst = some 2 ∧ st.streams.map Prod.fst = [1] := by
  refine ⟨parStart parHealthy parHealthy ++ [.incoming (parYield ⟨[.chunk (ascii "hello\r\n\r\n")], ⟨[], []⟩⟩), .receive, .receive], _, rfl,
    @keepsUp_sound B64.strict _ _ ?_, ?_, ?_, ?_, ?_⟩ <;> decide +kernel

/-! Concrete cases of the theorems above. -/

theorem parCalm_two : ∃ c, (2, c) ∈ (@Parallel.run B64.strict .new parCalm).opened := by
  have h : (((@Parallel.run B64.strict .new parCalm).opened.map Prod.fst).contains 2) = true := by decide +kernel
  obtain ⟨p, hp, e⟩ := List.mem_map.mp (List.contains_iff_mem.mp h)
  exact ⟨p.2, by rw [← e]; exact hp⟩
example := @C61_identifiers B64.strict parCalm _ rfl
example : ∃ c u extra, Turn.incoming (.ok u) ∈ parCalm ∧ @AsyncUpgrade.accept B64.strict u extra = .client c :=
  parCalm_two.elim fun c hc => ⟨c, @C61_clients_are_upgrades B64.strict parCalm _ rfl 2 c hc⟩
example := @C61_one_sender B64.strict parCalm _ rfl
example := @C61_one_receiver B64.strict parCalm _ rfl
/-- `C61_wire`, `C61_heard`: the second client. -/
example (o : Outlet) : ∃ c, (2, c) ∈ (@Parallel.run B64.strict .new parCalm).opened ∧
    ((2, o) ∈ (@Parallel.run B64.strict .new parCalm).pool →
      o.output.wire = c.stream.output.wire ++ (List.replicate ((@Parallel.run B64.strict .new parCalm).sending.count 2) greeting).flatten ∧ o.write.buf.data = []) :=
  parCalm_two.elim fun c hc => ⟨c, hc, (@C61_wire B64.strict parCalm _ rfl 2 c o hc).1⟩
example := @C62_ends_only_for_cause_partial B64.strict parCalm _ rfl (@keepsUp_sound B64.strict _ _ (by decide +kernel))
example := fun key extra => @C62_greets_everyone_partial B64.strict (parStart parHealthy parHealthy) _ rfl (by decide +kernel) (by decide +kernel) (by decide +kernel)
  (by
    have : (@Parallel.run B64.strict .new (parStart parHealthy parHealthy)).flying.isEmpty = true := by decide +kernel
    exact List.isEmpty_iff.mp this)
  (by
    have : ((@Parallel.run B64.strict .new (parStart parHealthy parHealthy)).pool.all fun p => p.2.output.script.all WEv.someOrLater) = true := by decide +kernel
    exact fun p hp => Sink.patient_of (List.all_eq_true.mp this p hp)) key extra
/-- `C62_one_at_a_time`: after the first turns of `parCalm` the second client is being heard, and after one more turn still. -/
example : ((@Parallel.run B64.strict .new (parCalm.take 13)).current.map Prod.fst, (@Parallel.run B64.strict .new (parCalm.take 14)).current.map Prod.fst) =
    (some 2, some 2) := by decide +kernel

end WS
