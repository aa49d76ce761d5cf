import Verif.Lemmas.Chat
import Verif.Props.Echo
/-!
# C53: the chat client examples/client.rs

Three threads and a channel, for every schedule of the threads, every sequence of lines and every input from the peer.
-/

namespace WS
open Spec

/-! ## The channel -/

/-- Whatever happens, what the send thread has taken is a first part of what the channel was given, in order; while it
runs, the rest is waiting in the channel; and only the last message it takes can be a Close. -/
theorem C53_queue (mask : Bool) (maxDf maxMsg : Nat) (lines : List Bytes) (s : Src) (w : Writer) (keys : Nat → Key4) (ts : List Thread) :
    let c := (Chat.start lines (Receiver.newWithLimits mask maxDf maxMsg) s w keys).run ts
    c.taken <+: c.log.map Prod.snd ∧ (c.talking = true → c.log.map Prod.snd = c.taken ++ c.channel) ∧
      (∀ m ∈ c.taken.dropLast, m.isClose = false) ∧ (c.talking = true → ∀ m ∈ c.taken, m.isClose = false) :=
  let h := inv_run ts (inv_start lines (fit_new mask maxDf maxMsg) s w keys)
  ⟨h.order, h.queue, h.last, h.goes⟩

/-- If the transport takes everything: what is on the wire says exactly the messages taken, masked as the sender is; when
the send thread is done, the last of them is a Close, and it is the only one. -/
theorem C53_says (mask : Bool) (maxDf maxMsg : Nat) (lines : List Bytes) (hl : ∀ l ∈ lines, (Message.text l).Sendable isizeMax) (s : Src)
    (w : Writer) (hw : w.stream.Willing) (keys : Nat → Key4) (ts : List Thread) :
    let c := (Chat.start lines (Receiver.newWithLimits mask maxDf maxMsg) s w keys).run ts
    (∃ bs, c.writer.stream.wire = w.stream.wire ++ bs ∧ Says w.sender.mask (c.taken.map OwnedMsg.spec) bs) ∧
      (c.talking = true → ∀ m ∈ c.taken, m.isClose = false) ∧
      (c.talking = false → ∃ ms : List OwnedMsg, c.taken = ms ++ [.close none] ∧ ∀ m ∈ ms, m.isClose = false) := by
  have h := inv_run ts (inv_start lines (fit_new mask maxDf maxMsg) s w keys)
  have g := spoken_run ts (inv_start lines (fit_new mask maxDf maxMsg) s w keys)
    (spoken_start (by decide) isize_lt (fun l h => sendable_trim (hl l h)) (Receiver.newWithLimits mask maxDf maxMsg) s hw keys)
  refine ⟨g.wire, h.goes, fun ht => ?_⟩
  obtain ⟨a, ha⟩ := g.stopped ht
  refine ⟨a, ha, ?_⟩
  have := h.last
  rw [ha, List.dropLast_concat] at this
  exact this

/-- The lines the main thread has read are the first lines of the input, trimmed, and empty ones after its end; it has not read on
after "/close". What it has put into the channel are the messages those lines ask for, in order: all of them while the
send thread runs. -/
theorem C53_user (mask : Bool) (maxDf maxMsg : Nat) (lines : List Bytes) (s : Src) (w : Writer) (keys : Nat → Key4) (ts : List Thread) :
    let c := (Chat.start lines (Receiver.newWithLimits mask maxDf maxMsg) s w keys).run ts
    (∃ items k, c.typed <+: items ++ List.replicate k [] ∧ items.length = lines.length ∧ ∀ p ∈ lines.zip items, Padded p.1 p.2) ∧ (∀ l ∈ c.typed.dropLast, l ≠ ascii "/close") ∧
      saidBy .main c.log <+: c.typed.map lineSays ∧ (c.talking = true → saidBy .main c.log = c.typed.map lineSays) := by
  have h := inv_run ts (inv_start lines (fit_new mask maxDf maxMsg) s w keys)
  refine ⟨?_, h.leave, h.user, h.userAll⟩
  obtain ⟨k, hk, -⟩ := h.read
  refine ⟨lines.map trim, k, by rw [← hk]; exact List.prefix_append _ _, by simp, ?_⟩
  intro p hp
  rw [List.zip_map_right, List.mem_map] at hp
  obtain ⟨q, hq, rfl⟩ := hp
  obtain ⟨a, b⟩ := q
  have : a = b := by
    clear hk h
    induction lines with
    | nil => simp at hq
    | cons l ls ih =>
      simp only [List.zip_cons_cons, List.mem_cons, Prod.mk.injEq] at hq
      rcases hq with ⟨rfl, rfl⟩ | hq
      · rfl
      · exact ih hq
  subst this
  exact padded_trim _

/-- The results the receive thread has got are those of successive receive calls, none of them a panic; it has not gone on
after a Close or an error. What it has put into the channel are the answers they ask for, in order: all of them while the
send thread runs. -/
theorem C53_peer (mask : Bool) (maxDf maxMsg : Nat) (lines : List Bytes) (s : Src) (w : Writer) (keys : Nat → Key4) (ts : List Thread) :
    let c := (Chat.start lines (Receiver.newWithLimits mask maxDf maxMsg) s w keys).run ts
    c.heard = ((Receiver.newWithLimits mask maxDf maxMsg).recvMany c.heard.length s).1 ∧ (∀ x ∈ c.heard, x.isPanic = false) ∧
      (∀ x ∈ c.heard.dropLast, ∃ m, x = .ok m ∧ m.isClose = false) ∧
      saidBy .receive c.log <+: c.heard.filterMap resAnswer ∧
      (c.talking = true → saidBy .receive c.log = c.heard.filterMap resAnswer) := by
  have h := inv_run ts (inv_start lines (fit_new mask maxDf maxMsg) s w keys)
  exact ⟨by rw [h.hears], h.safe, h.heardLast, h.peer, h.peerAll⟩

/-- Nobody else puts anything into the channel. -/
theorem C53_nobody_else (mask : Bool) (maxDf maxMsg : Nat) (lines : List Bytes) (s : Src) (w : Writer) (keys : Nat → Key4) (ts : List Thread) :
    ∀ e ∈ ((Chat.start lines (Receiver.newWithLimits mask maxDf maxMsg) s w keys).run ts).log, e.1 = .main ∨ e.1 = .receive := by
  intro e he
  have := (inv_run ts (inv_start lines (fit_new mask maxDf maxMsg) s w keys)).nosend e he
  cases hx : e.1 with
  | main => exact .inl rfl
  | receive => exact .inr rfl
  | send => exact absurd hx this

/-! ## The end -/

/-- When the user or the peer has left, the send thread ends after at most as many turns as there are messages in the
channel, however the threads are scheduled and whatever the transport does. -/
theorem C53_goodbye (mask : Bool) (maxDf maxMsg : Nat) (lines : List Bytes) (s : Src) (w : Writer) (keys : Nat → Key4) (ts us : List Thread) :
    let c := (Chat.start lines (Receiver.newWithLimits mask maxDf maxMsg) s w keys).run ts
    c.typing = false ∨ c.listening = false → c.channel.length ≤ us.count .send → (c.run us).talking = false := by
  intro c hg hn
  have h := inv_run ts (inv_start lines (fit_new mask maxDf maxMsg) s w keys)
  by_cases ht : c.talking = true
  · obtain ⟨z, hz, hc⟩ := h.left ht hg
    obtain ⟨a, b, hab⟩ := List.append_of_mem hz
    refine closes us c a z hc (fun _ => ⟨b, by rw [hab]; simp⟩) ?_
    have : c.channel.length = a.length + (b.length + 1) := by rw [hab]; simp
    omega
  · exact (talked c (by simpa using ht) us).1

/-- Once the send thread is done, nothing more is written. -/
theorem C53_silent_afterwards (c : Chat) (h : c.talking = false) (ts : List Thread) : (c.run ts).writer.stream.wire = c.writer.stream.wire := by
  rw [(talked c h ts).2.1]

/-- A schedule in which every thread gets turns again and again. -/
def Fair (f : Nat → Thread) : Prop := ∀ t n, ∃ m, n ≤ m ∧ f m = t

theorem fair_count {f : Nat → Thread} (hf : Fair f) (t : Thread) (n k : Nat) : ∃ m, n ≤ m ∧ k ≤ (((List.range m).drop n).map f).count t := by
  induction k with
  | zero => exact ⟨n, Nat.le_refl _, Nat.zero_le _⟩
  | succ k ih =>
    obtain ⟨m, hm, hk⟩ := ih
    obtain ⟨j, hj, hfj⟩ := hf t m
    refine ⟨j + 1, by omega, ?_⟩
    have e : (List.range (j + 1)).drop n = (List.range j).drop n ++ [j] := by
      rw [List.range_succ, List.drop_append_of_le_length (by simp; omega)]
    rw [e, List.map_append, List.count_append, List.map_singleton, hfj, List.count_singleton_self]
    have : (((List.range m).drop n).map f).count t ≤ (((List.range j).drop n).map f).count t := by
      have hp : (List.range m).drop n <+: (List.range j).drop n := by
        obtain ⟨d, rfl⟩ : ∃ d, j = m + d := ⟨j - m, by omega⟩
        rw [List.range_add, List.drop_append_of_le_length (by simp; omega)]
        exact List.prefix_append _ _
      exact (hp.sublist.map f).count_le t
    omega

/-- If every thread keeps getting its turns, the program ends, whatever the user types, whatever the peer sends, and
whatever the transport does. -/
theorem C53_ends (mask : Bool) (maxDf maxMsg : Nat) (lines : List Bytes) (s : Src) (w : Writer) (keys : Nat → Key4) (f : Nat → Thread)
    (hf : Fair f) :
    ∃ n, ∀ k, n ≤ k →
      ((Chat.start lines (Receiver.newWithLimits mask maxDf maxMsg) s w keys).run ((List.range k).map f)).done = true := by
  let c0 := Chat.start lines (Receiver.newWithLimits mask maxDf maxMsg) s w keys
  have cut : ∀ n m, n ≤ m → (List.range m).map f = (List.range n).map f ++ ((List.range m).drop n).map f := by
    intro n m h
    rw [← List.map_append]
    congr 1
    have := List.take_append_drop n (List.range m)
    rw [List.take_range, Nat.min_eq_left h] at this
    exact this.symm
  obtain ⟨n1, -, h1⟩ := fair_count hf .receive 0 (s.measure + 1)
  rw [List.drop_zero] at h1
  have l1 : (c0.run ((List.range n1).map f)).listening = false := listened _ c0 (by show s.measure < _; omega)
  obtain ⟨n2, h2, h3⟩ := fair_count hf .send n1 ((c0.run ((List.range n1).map f)).channel.length)
  have l2 := C53_goodbye mask maxDf maxMsg lines s w keys ((List.range n1).map f) (((List.range n2).drop n1).map f) (.inr l1) h3
  rw [← Chat.run_append, ← cut n1 n2 h2] at l2
  obtain ⟨n3, h4, h5⟩ := fair_count hf .main n2 1
  refine ⟨n3, fun k hk => ?_⟩
  have hm : .main ∈ ((List.range k).drop n2).map f := by
    have : Thread.main ∈ ((List.range n3).drop n2).map f := List.count_pos_iff.mp h5
    obtain ⟨j, hj, hfj⟩ := List.mem_map.mp this
    refine List.mem_map.mpr ⟨j, ?_, hfj⟩
    obtain ⟨d, rfl⟩ : ∃ d, k = n3 + d := ⟨k - n3, by omega⟩
    rw [List.range_add, List.drop_append_of_le_length (by simp; omega)]
    exact List.mem_append_left _ hj
  have l3 := main_left _ _ l2 hm
  rw [← Chat.run_append, ← cut n2 k (by omega)] at l3
  have l4 := (talked _ l2 (((List.range k).drop n2).map f)).1
  rw [← Chat.run_append, ← cut n2 k (by omega)] at l4
  have l5 := (gone (((List.range k).drop n1).map f) _).2 l1
  rw [← Chat.run_append, ← cut n1 k (by omega)] at l5
  show (!(c0.run _).typing && !(c0.run _).listening && !(c0.run _).talking) = true
  rw [l3, l4, l5]
  rfl

/-- After the end of the input the program does not stop: it says the empty message again and again, as long as the peer
puts up with it. -/
theorem C53_floods_after_eof (mask : Bool) (maxDf maxMsg : Nat) (s : Src) (w : Writer) (hw : w.stream.Willing) (keys : Nat → Key4) (n : Nat) :
    ∃ bs, ((Chat.start [] (Receiver.newWithLimits mask maxDf maxMsg) s w keys).run
        (List.replicate n [Thread.main, Thread.send]).flatten).writer.stream.wire = w.stream.wire ++ bs ∧
      Says w.sender.mask (List.replicate n (.text [])) bs := by
  have key : ∀ (n : Nat) (c : Chat), c.lines = [] → c.typing = true → c.talking = true → c.channel = [] → c.writer.stream.Willing →
      ∃ bs, (c.run (List.replicate n [Thread.main, Thread.send]).flatten).writer.stream.wire = c.writer.stream.wire ++ bs ∧
        Says c.writer.sender.mask (List.replicate n (.text [])) bs := by
    intro n
    induction n with
    | zero => intro c _ _ _ _ _; exact ⟨[], by simp [Chat.run], says_nil _⟩
    | succ n ih =>
      intro c h1 h2 h3 h4 h5
      obtain ⟨ls, rc, inp, wr, ks, ch, ty, li, ta, td, hd, lg, tk⟩ := c
      simp only at h1 h2 h3 h4 h5
      subst h1 h2 h3 h4
      obtain ⟨b, w', g1, g2, g3, g4, g5⟩ := writer_send (m := .text []) wr h5 isize_lt (sendable_nothing (lim := isizeMax)) (ks 0)
      have hl : lineMessage [] = some (.text []) := by decide
      have hstep : (Chat.run ⟨[], rc, inp, wr, ks, [], true, li, true, td, hd, lg, tk⟩ [.main, .send]) =
          ⟨[], rc, inp, w', fun n => ks (n + 1), [], true, li, true, td ++ [[]], hd, lg ++ [(.main, .text [])], tk ++ [.text []]⟩ := by
        simp only [Chat.run, Chat.turn, Chat.mainTurn, Chat.put, if_true, List.headD_nil, List.tail_nil, trim_nil, hl, List.nil_append, Chat.sendTurn,
          Chat.say, g1]
        rfl
      rw [List.replicate_succ, List.flatten_cons, Chat.run_append, hstep]
      obtain ⟨bs, i1, i2⟩ := ih ⟨[], rc, inp, w', fun n => ks (n + 1), [], true, li, true, td ++ [[]], hd, lg ++ [(.main, .text [])], tk ++ [.text []]⟩
        rfl rfl rfl rfl g3
      refine ⟨b ++ bs, by rw [i1, g4, List.append_assoc], ?_⟩
      simp only at i2
      rw [g2] at i2
      exact Says.append (ms := [.text []]) g5 i2
  exact key n _ rfl rfl rfl rfl hw

/-! ## With a server -/

/-- What comes back, of a message that is no close. -/
def reflected : OwnedMsg → Option OwnedMsg
  | .text t => some (.text t)
  | .binary b => some (.binary b)
  | .ping b => some (.pong b)
  | .pong b => some (.pong b)
  | .close _ => none

theorem reflected_spec (oms : List OwnedMsg) (h : ∀ m ∈ oms, m.isClose = false) :
    (oms.filterMap reflected).map OwnedMsg.spec = (oms.map OwnedMsg.spec).filterMap Message.reflect := by
  induction oms with
  | nil => rfl
  | cons o os ih =>
    have hi := ih fun m hm => h m (List.mem_cons_of_mem _ hm)
    have ho := h o List.mem_cons_self
    cases o with
    | close c => cases ho
    | _ => exact congrArg _ hi

theorem reflected_sendable {m a : OwnedMsg} {n : Nat} (h : m.spec.Sendable n) (hf : reflected m = some a) : a.spec.Sendable n := by
  cases m <;> simp only [reflected, Option.some.injEq, reduceCtorEq] at hf <;> subst hf <;> exact h

theorem reflected_quiet {m a : OwnedMsg} (hf : reflected m = some a) : a.spec.answer = none := by
  cases m <;> simp only [reflected, Option.some.injEq, reduceCtorEq] at hf <;> subst hf <;> rfl

/-- examples/client.rs and examples/server.rs, joined by two byte streams cut in any way; the threads of the client are scheduled
in any way, up to the end of the program. The server returns, without a panic; the client hears its greeting, then its own
messages back, pongs for its pings, and a Close. -/
theorem C53_with_server [B64] (preq : ReqParser) (pres : ResParser) (url : Url) (fresh : WsKey) (lines : List Bytes)
    (keys skeys : Nat → Key4) (ts : List Thread) (cd sd : Duplex)
    (hu : Target url.resource) (hs : Sendable (requestLines url chatOps fresh))
    (hl : (Head (requestStart url) (requestLines url chatOps fresh)).length ≤ maxBufferSize)
    (hln : ∀ l ∈ lines, (Message.text l).Sendable echoLimit)
    (hcw : cd.output.Willing) (hsw : sd.output.Willing) (hc0 : cd.output.wire = []) (hs0 : sd.output.wire = [])
    (hci : cd.input.Chunks) (hsi : sd.input.Chunks)
    (hcs : sd.input.flat = chatWire (chatClient pres fresh url (.ok ()) lines keys ts cd))
    (hsc : ∃ fin out, exampleServer preq (.ok ()) skeys sd = some (fin, out) ∧ cd.input.flat = out.wire)
    (hdone : ∀ c, chatClient pres fresh url (.ok ()) lines keys ts cd = .ok c → c.done = true)
    (hs' : Sendable (responseLines [.useProtocol (ascii "rust-websocket")] none fresh))
    (hl' : (head101 .http11 (responseLines [.useProtocol (ascii "rust-websocket")] none fresh)).length ≤ maxBufferSize) :
    ∃ (c : Chat) (out : Sink) (ms : List Message) (es : List OwnedMsg), chatClient pres fresh url (.ok ()) lines keys ts cd = .ok c ∧ exampleServer preq (.ok ()) skeys sd = some (.returned, out) ∧
      c.taken.map OwnedMsg.spec = ms ++ [.close] ∧ c.heard = es.map Res.ok ∧
      es.map OwnedMsg.spec = .text (ascii "Hello") :: ms.filterMap Message.reflect ++ [.close] := by
  obtain ⟨hask, hkey⟩ := C35_request_asks url chatOps fresh (by
    intro op ho; simp only [chatOps, List.mem_singleton] at ho; subst ho
    exact ⟨(fun k h => by cases h), (fun v h => by cases h)⟩)
  obtain ⟨fin, out, hserve, hout⟩ := hsc
  -- the request is on the wire
  obtain ⟨z, hz⟩ : ∃ z, chatWire (chatClient pres fresh url (.ok ()) lines keys ts cd) =
      Head (requestStart url) (requestLines url chatOps fresh) ++ z := by
    obtain ⟨w, hwill, hwire, hcase⟩ := connect_output pres fresh url chatOps cd chatOps_text hcw
    rw [hc0, List.nil_append] at hwire
    unfold chatClient
    rcases hcase with ⟨d', e, h1, h2⟩ | ⟨c, h1, h2⟩
    · rw [h1]; exact ⟨[], by simp only [chatWire, h2, hwire, List.append_nil]⟩
    · rw [h1]
      simp only
      rcases C30_split_state c (.ok ()) with ⟨k, hk, -⟩ | ⟨r, w', q1, q2, q3, q4, q5, q6⟩
      · cases hk
      · rw [q1]
        simp only [chatWire]
        have hlim := C39_client_limits_partial pres fresh cd url chatOps c h1
        have hr : r.receiver = Receiver.newWithLimits false (100 * 2 ^ 20) (100 * 2 ^ 20) := by rw [q4]; exact receiver_eq hlim.1 hlim.2.1
        rw [hr]
        obtain ⟨⟨bs, g1, -⟩, -⟩ := C53_says false (100 * 2 ^ 20) (100 * 2 ^ 20) lines
          (fun l h => ⟨(hln l h).1, Nat.le_trans (hln l h).2 (by decide)⟩) r.stream.src w' (by rw [q5, h2]; exact hwill) keys ts
        exact ⟨bs, by rw [g1, q5, h2, hwire]⟩
  -- the server answers
  obtain ⟨ssrc, sw, hello, a1, a2, a3, a4, a5, a6, a7⟩ := example_accepts preq fresh url.resource (requestLines url chatOps fresh) sd z hask hu hs hl
    hsi (by rw [hcs, hz]; rfl) hsw skeys (chat_offers url fresh)
  obtain ⟨oms, y, sw', bs, fin', b1, b2, b3, b4⟩ := C48_server_any_input true defaultMaxDataframe defaultMaxMessage (fun n => skeys (n + 1)) ssrc sw a3
  rw [b2, hserve] at a7
  simp only [Option.some.injEq, Prod.mk.injEq] at a7
  obtain ⟨rfl, rfl⟩ := a7
  rw [a4] at b4
  have hwire : cd.input.flat = head101 .http11 (responseLines [.useProtocol (ascii "rust-websocket")] none fresh) ++ (hello ++ bs) := by
    rw [hout, b3, a5, hs0]
    simp only [List.nil_append, List.append_assoc]; rfl
  -- the client's loops
  obtain ⟨src, w, c1, c2, c3, c4, c5, c6⟩ := chat_reaches pres fresh fresh url _ cd _
    (response_answers [.useProtocol (ascii "rust-websocket")] none fresh) hs' hkey hl' hci hwire hcw
  have hc := c6 lines keys ts
  have hd := hdone _ hc
  rw [hc] at hz hcs
  have hinv := inv_run ts (inv_start lines (fit_new false (100 * 2 ^ 20) (100 * 2 ^ 20)) src w keys)
  have hsp := spoken_run ts (inv_start lines (fit_new false (100 * 2 ^ 20) (100 * 2 ^ 20)) src w keys)
    (spoken_start (lim := echoLimit) (by decide) (by decide) (fun l h => sendable_trim (hln l h))
      (Receiver.newWithLimits false (100 * 2 ^ 20) (100 * 2 ^ 20)) src c3 keys)
  generalize (Chat.start lines (Receiver.newWithLimits false (100 * 2 ^ 20) (100 * 2 ^ 20)) src w keys).run ts = c at hc hd hinv hsp hz
  simp only [Chat.done, Bool.and_eq_true, Bool.not_eq_true'] at hd
  obtain ⟨⟨d1, d2⟩, d3⟩ := hd
  obtain ⟨a, ha⟩ := hsp.stopped d3
  have hopen : ∀ m ∈ a, m.isClose = false := by
    have := hinv.last
    rw [ha, List.dropLast_concat] at this
    exact this
  -- what the server hears
  have htaken : ∀ m ∈ c.taken, m.spec.Sendable echoLimit := by
    intro m hm
    obtain ⟨e, he, rfl⟩ := List.mem_map.mp (hinv.order.mem hm)
    exact (hsp.log e he).1
  obtain ⟨bs', e1, e2⟩ := hsp.wire
  have hzb : z = bs' := by
    rw [c5, hc0, List.nil_append] at e1
    simp only [chatWire] at hz
    rw [hz] at e1
    exact List.append_cancel_left e1
  subst hzb
  rw [c4] at e2
  have hdel := msgs_delivers (fits := FitsBlocking (min defaultMaxMessage u32Max)) c.taken htaken
  have hcl : ∃ m ∈ c.taken.map OwnedMsg.spec, m.isClose = true := ⟨.close, by rw [ha]; simp [OwnedMsg.spec], rfl⟩
  obtain ⟨k1, k2, -⟩ := hears_wire hdel.1 hdel.2 (says_wire htaken e2) a1 (x := []) (by rw [a2, List.append_nil]) (.inl hcl) b1
  rcases b4 with ⟨-, rfl, b4⟩ | ⟨hn, -⟩
  case inr => exact absurd (k2 hcl) hn
  have hms : oms = a := by
    refine OwnedMsg.map_spec_inj ?_
    rw [k1, ha, ← takeWhile_spec]
    congr 1
    rw [List.takeWhile_append_of_pos (by intro m hm; rw [hopen m hm]; rfl)]
    simp [OwnedMsg.isClose]
  subst hms
  -- what the client hears
  have hbytes := Says.append a6 b4
  let init : List OwnedMsg := .text (ascii "Hello") :: oms.filterMap reflected
  have hspec : init.map OwnedMsg.spec = .text (ascii "Hello") :: (oms.map OwnedMsg.spec).filterMap Message.reflect := by
    show _ :: _ = _
    rw [reflected_spec _ hopen]
    rfl
  have hes : (init ++ [OwnedMsg.close none]).map OwnedMsg.spec =
      .text (ascii "Hello") :: (oms.map OwnedMsg.spec).filterMap Message.reflect ++ [.close] := by
    rw [List.map_append, hspec]
    rfl
  have hlim' : ∀ m ∈ init ++ [OwnedMsg.close none], m.spec.Sendable echoLimit := by
    intro m hm
    simp only [init, List.cons_append, List.mem_cons, List.mem_append, List.not_mem_nil, or_false] at hm
    rcases hm with rfl | hm | rfl
    · exact ⟨(utf8Valid_iff _).mp (by decide +kernel), by decide⟩
    · obtain ⟨o, ho, hr⟩ := List.mem_filterMap.mp hm
      exact reflected_sendable (htaken o (by rw [ha]; exact List.mem_append_left _ ho)) hr
    · trivial
  have hwr : Wire false ((init ++ [OwnedMsg.close none]).map fun m => m.view.spec) (hello ++ bs) := by
    refine says_wire hlim' ?_
    rw [hes]
    exact hbytes
  have hdel' := msgs_delivers (fits := FitsBlocking (min (100 * 2 ^ 20) u32Max)) (init ++ [OwnedMsg.close none]) hlim'
  obtain ⟨oms', r', s', f1, f2, -⟩ := C17_fragments_and_controls_blocking false (100 * 2 ^ 20) (100 * 2 ^ 20) _ _ _ hdel'.1
    (fun f hf => Nat.le_trans (hdel'.2 f hf) (by decide)) _ [] hwr src c1 (by rw [c2, List.append_nil])
  have : oms' = init ++ [OwnedMsg.close none] := OwnedMsg.map_spec_inj f2
  subst this
  refine ⟨c, sw'.stream, oms.map OwnedMsg.spec, init ++ [OwnedMsg.close none], hc, hserve, by rw [ha, List.map_append]; rfl, ?_, hes⟩
  refine heard_all rfl ?_ ?_ hinv.hears hinv.heardLast (hinv.heardEnd d2)
  · intro m hm
    simp only [init, List.mem_cons] at hm
    rcases hm with rfl | hm
    · rfl
    · obtain ⟨o, ho, hr⟩ := List.mem_filterMap.mp hm
      exact reflected_quiet hr
  · have : ((init ++ [OwnedMsg.close none]).map OwnedMsg.spec).length = init.length + 1 := by simp
    rw [this] at f1
    rw [f1]

/-! ## Cases -/

/-- A user who types three lines, and a peer that pings twice and says a word, in two pieces. -/
def sampleChat : Chat :=
  Chat.start [ascii " hi \n", ascii "/ping\n", ascii "/close\n"] (Receiver.newWithLimits false 1000 1000)
    [.chunk [0x89, 1, 7, 0x81], .chunk [1, 0x61, 0x89, 1, 8]] ⟨⟨[], []⟩, ⟨true⟩⟩ (fun _ => ⟨0, 0, 0, 0⟩)

/-- The parts of a state that can be compared. -/
def Chat.view (c : Chat) : List OwnedMsg × List OwnedMsg × Bytes × Bool × Bool :=
  (c.taken, c.channel, c.writer.stream.wire, c.talking, c.done)

/-- One schedule: the pong for the first ping goes out between the user's messages, the second ping comes too late. -/
example : (sampleChat.run [.main, .send, .receive, .main, .send, .receive, .send, .main, .receive, .send, .send, .receive]).view =
    ([.text (ascii "hi"), .pong [7], .ping (ascii "PING"), .close none], [],
      [0x81, 0x82, 0, 0, 0, 0, 0x68, 0x69, 0x8A, 0x81, 0, 0, 0, 0, 7, 0x89, 0x84, 0, 0, 0, 0, 80, 73, 78, 71, 0x88, 0x80, 0, 0, 0, 0],
      false, true) := by
  decide +kernel

/-- Another: the peer is answered first, and the user is cut short by the end of the stream. -/
example : (sampleChat.run [.receive, .receive, .receive, .receive, .main, .send, .send, .send, .main]).view =
    ([.pong [7], .pong [8], .close none], [], [0x8A, 0x81, 0, 0, 0, 0, 7, 0x8A, 0x81, 0, 0, 0, 0, 8, 0x88, 0x80, 0, 0, 0, 0], false, true) := by
  decide +kernel

/-- The lines of the sample can be sent. -/
theorem sampleChat_lines : ∀ l ∈ sampleChat.lines, (Message.text l).Sendable isizeMax := by
  intro l hl
  have : l = ascii " hi \n" ∨ l = ascii "/ping\n" ∨ l = ascii "/close\n" := by simpa [sampleChat, Chat.start] using hl
  rcases this with rfl | rfl | rfl <;> exact ⟨(utf8Valid_iff _).mp (by decide +kernel), by decide⟩

/-- There are fair schedules. -/
theorem sampleTurns_fair : Fair fun n => if n % 3 = 0 then .main else if n % 3 = 1 then .receive else .send := by
  intro t n
  cases t with
  | main => exact ⟨3 * n, by omega, by simp⟩
  | receive => exact ⟨3 * n + 1, by omega, by simp [Nat.add_mod]⟩
  | send => exact ⟨3 * n + 2, by omega, by simp [Nat.add_mod]⟩

/-- What server.rs reads from the sample user, and what it answers. -/
def chatServerSide : Duplex :=
  let bs := Head (requestStart sampleUrl) (requestLines sampleUrl chatOps sampleKey) ++
    [0x81, 0x82, 0, 0, 0, 0, 0x68, 0x69, 0x89, 0x84, 0, 0, 0, 0, 80, 73, 78, 71, 0x88, 0x80, 0, 0, 0, 0]
  ⟨[.chunk (bs.take 40), .chunk ((bs.drop 40).take 150), .chunk ((bs.drop 40).drop 150)], ⟨[], [.accept 10, .error .interrupted]⟩⟩

def chatClientSide : Duplex :=
  let bs := head101 .http11 (responseLines [.useProtocol (ascii "rust-websocket")] none sampleKey) ++
    [0x81, 5, 72, 101, 108, 108, 111, 0x81, 2, 0x68, 0x69, 0x8a, 4, 80, 73, 78, 71, 0x88, 0]
  ⟨[.chunk (bs.take 30), .chunk (bs.drop 30)], ⟨[], [.accept 1]⟩⟩

def sampleTurns : List Thread := [.receive, .main, .send, .main, .receive, .send, .main, .send, .receive, .receive]

/-- The two examples with streams that fit together, run to the end. -/
example : let c := @chatClient B64.strict resParser sampleKey sampleUrl (.ok ()) sampleChat.lines (fun _ => ⟨0, 0, 0, 0⟩) sampleTurns chatClientSide
    chatServerSide.input.flat = chatWire c ∧
      (@exampleServer B64.strict reqParser (.ok ()) (fun _ => ⟨0, 0, 0, 0⟩) chatServerSide).map (fun p => (p.1, p.2.wire)) =
        some (.returned, chatClientSide.input.flat) ∧
      (match c with
        | .ok c => c.done && decide (c.heard = [.ok (.text (ascii "Hello")), .ok (.text (ascii "hi")), .ok (.pong (ascii "PING")), .ok (.close none)])
        | .error _ => false) = true := by
  decide +kernel

/-! Concrete cases of the theorems above. -/

example := C53_says false 1000 1000 sampleChat.lines sampleChat_lines [.chunk [0x89, 1, 7, 0x81], .chunk [1, 0x61, 0x89, 1, 8]] ⟨⟨[], []⟩, ⟨true⟩⟩ (Sink.willing_of rfl)
  (fun _ => ⟨0, 0, 0, 0⟩) sampleTurns
example := C53_silent_afterwards (sampleChat.run [.main, .send, .receive, .main, .send, .receive, .send, .main, .receive, .send, .send, .receive]) (by decide +kernel)
example := fun keys => C53_ends false 1000 1000 sampleChat.lines [.chunk [0x89, 1, 7, 0x81], .chunk [1, 0x61, 0x89, 1, 8]] ⟨⟨[], []⟩, ⟨true⟩⟩ keys _ sampleTurns_fair
example := C53_floods_after_eof false 1000 1000 [.chunk [0x89, 1, 7]] ⟨⟨[], [.accept 1]⟩, ⟨true⟩⟩ (Sink.willing_of rfl)

end WS
