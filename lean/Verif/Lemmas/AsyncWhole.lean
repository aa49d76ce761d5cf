import Verif.Model.AsyncWhole
import Verif.Lemmas.Tandem
import Verif.Lemmas.Whole
import Verif.Props.Tasks
/-!
# Lemmas: the async chat client and the async example server from the first byte on
-/

namespace WS
open Spec

/-! ## Bytes written before -/

/-- The same sending half after `p` had been written. -/
def Outbox.pre (p : Bytes) (o : Outbox) : Outbox := { o with wire := p ++ o.wire }

def ChatTask.pre (p : Bytes) (t : ChatTask) : ChatTask := { t with out := t.out.pre p }

def ServeTask.pre (p : Bytes) (t : ServeTask) : ServeTask := { t with out := t.out.pre p }

def Tandem.pre (a b : Bytes) (x : Tandem) : Tandem := ⟨x.chat.pre a, x.server.pre b, a.length + x.up, b.length + x.down⟩

theorem pollComplete_pre (p : Bytes) (fw : FramedWrite) (wire : Bytes) (s : List WEv) :
    fw.pollComplete ⟨p ++ wire, s⟩ =
      ((fw.pollComplete ⟨wire, s⟩).1, (fw.pollComplete ⟨wire, s⟩).2.1, ⟨p ++ (fw.pollComplete ⟨wire, s⟩).2.2.wire, (fw.pollComplete ⟨wire, s⟩).2.2.script⟩) := by
  induction s generalizing fw wire with
  | nil =>
    unfold FramedWrite.pollComplete
    split
    · rfl
    · simp
  | cons e s ih =>
    unfold FramedWrite.pollComplete
    split
    · rfl
    · cases e with
      | error k =>
        simp only
        split <;> rfl
      | accept n =>
        simp only
        split
        · rfl
        · rw [List.append_assoc, ih]

theorem startSend_pre (p : Bytes) (fw : FramedWrite) (v : FrameView) (key : Key4) (extra : Nat) (wire : Bytes) (s : List WEv) :
    fw.startSend v key extra ⟨p ++ wire, s⟩ =
      ((fw.startSend v key extra ⟨wire, s⟩).1, (fw.startSend v key extra ⟨wire, s⟩).2.1,
        ⟨p ++ (fw.startSend v key extra ⟨wire, s⟩).2.2.wire, (fw.startSend v key extra ⟨wire, s⟩).2.2.script⟩) := by
  unfold FramedWrite.startSend
  simp only
  split
  · rw [pollComplete_pre]
    cases h : fw.pollComplete ⟨wire, s⟩ with
    | mk x q =>
      obtain ⟨fw', w'⟩ := q
      cases x with
      | ready =>
        simp only
        split
        · rfl
        · cases encodeInto fw'.isServer v key extra fw'.buf with
          | mk a b => cases a <;> rfl
      | notReady =>
        simp only
        split
        · rfl
        · cases encodeInto fw'.isServer v key extra fw'.buf with
          | mk a b => cases a <;> rfl
      | err e => rfl
      | panic e => rfl
  · cases encodeInto fw.isServer v key extra fw.buf with
    | mk a b => cases a <;> rfl

theorem flush_pre (p : Bytes) (o : Outbox) (s : List WEv) : (o.pre p).flush s = ((o.flush s).1, (o.flush s).2.pre p) := by
  unfold Outbox.flush Outbox.pre
  simp only
  rw [pollComplete_pre]

theorem push_pre (p : Bytes) (o : Outbox) (m : OwnedMsg) (s : List WEv) : (o.pre p).push m s = ((o.push m s).1, (o.push m s).2.pre p) := by
  unfold Outbox.push Outbox.pre
  simp only
  rw [startSend_pre]
  cases h : o.sink.startSend m.view (o.keys 0) o.extra ⟨o.wire, s⟩ with
  | mk x q =>
    obtain ⟨fw', w'⟩ := q
    cases x <;> rfl

theorem chat_after_pre (p : Bytes) (t : ChatTask) (next : ChatPhase) (y : SendRes × Outbox) :
    (t.pre p).after next (y.1, y.2.pre p) = (t.after next y).pre p := by
  obtain ⟨x, o⟩ := y
  cases x <;> rfl

theorem serve_after_pre (p : Bytes) (t : ServeTask) (next : ServePhase) (y : SendRes × Outbox) :
    (t.pre p).after next (y.1, y.2.pre p) = (t.after next y).pre p := by
  obtain ⟨x, o⟩ := y
  cases x <;> rfl

theorem chat_turn_pre (p : Bytes) (t : ChatTask) (s : Src) (script : List WEv) :
    (t.pre p).turn s script = ((t.turn s script).1.pre p, (t.turn s script).2) := by
  unfold ChatTask.turn
  rw [show (t.pre p).phase = t.phase from rfl]
  cases hp : t.phase with
  | over e => rfl
  | closing =>
    simp only
    rw [show (t.pre p).out = t.out.pre p from rfl, flush_pre, chat_after_pre]
  | forward b =>
    cases b with
    | some m =>
      simp only
      rw [show (t.pre p).out = t.out.pre p from rfl, push_pre, chat_after_pre]
    | none =>
      simp only
      rw [show (⟨(t.pre p).flag, (t.pre p).over, (t.pre p).read, s, (t.pre p).inbox, (t.pre p).gone⟩ : Selecting) =
        ⟨t.flag, t.over, t.read, s, t.inbox, t.gone⟩ from rfl]
      cases (⟨t.flag, t.over, t.read, s, t.inbox, t.gone⟩ : Selecting).poll pingOnly with
      | mk x c =>
        rcases x with (_ | _ | _ | _) | _
        · rfl
        · rfl
        · rfl
        · rfl
        · simp only
          rw [show (t.pre p).out = t.out.pre p from rfl, flush_pre]
          refine Prod.ext ?_ rfl
          cases t.out.flush script with
          | mk y o => cases y <;> rfl

theorem serve_turn_pre (p : Bytes) (t : ServeTask) (s : Src) (script : List WEv) :
    (t.pre p).turn s script = ((t.turn s script).1.pre p, (t.turn s script).2) := by
  unfold ServeTask.turn
  rw [show (t.pre p).phase = t.phase from rfl, show (t.pre p).out = t.out.pre p from rfl]
  cases hp : t.phase with
  | over e => rfl
  | greet => simp only; rw [push_pre, serve_after_pre]
  | greeting => simp only; rw [flush_pre, serve_after_pre]
  | closing => simp only; rw [flush_pre, serve_after_pre]
  | part => simp only; rw [push_pre, serve_after_pre]
  | parting => simp only; rw [flush_pre, serve_after_pre]
  | forward b =>
    cases b with
    | some m => simp only; rw [push_pre, serve_after_pre]
    | none =>
      simp only
      rw [show (t.pre p).read = t.read from rfl]
      cases t.read.poll msgDecoder s with
      | mk x q =>
        obtain ⟨fr, s'⟩ := q
        rcases x with (_ | _ | _ | _) | _
        · rfl
        · rfl
        · rfl
        · rfl
        · simp only
          rw [flush_pre]
          refine Prod.ext ?_ rfl
          cases t.out.flush script with
          | mk y o => cases y <;> rfl

theorem up_pre (a b : Bytes) (x : Tandem) : (x.pre a b).upTransit = x.upTransit := by
  show (a ++ x.chat.out.wire).drop (a.length + x.up) = x.chat.out.wire.drop x.up
  rw [← List.drop_drop, List.drop_left]

theorem down_pre (a b : Bytes) (x : Tandem) : (x.pre a b).downTransit = x.downTransit := by
  show (b ++ x.server.out.wire).drop (b.length + x.down) = x.server.out.wire.drop x.down
  rw [← List.drop_drop, List.drop_left]

theorem step_pre (a b : Bytes) (r : Room) (x : Tandem) (e : Move) : (x.pre a b).step r e = (x.step r e).pre a b := by
  cases e with
  | type =>
    simp only [Tandem.step, Tandem.pre]
    congr 1
    unfold ChatTask.type
    rw [show ((x.chat.pre a).gone || (x.chat.pre a).chan.isSome || (x.chat.pre a).phase.isOver) = (x.chat.gone || x.chat.chan.isSome || x.chat.phase.isOver) from rfl]
    split <;> rfl
  | chat n k =>
    simp only [Tandem.step]
    rw [up_pre, down_pre, show (x.pre a b).server.phase = x.server.phase from rfl, show (x.pre a b).chat = x.chat.pre a from rfl, chat_turn_pre]
    simp only [Tandem.pre, Nat.add_assoc]
  | serve n k =>
    simp only [Tandem.step]
    rw [up_pre, down_pre, show (x.pre a b).chat.phase = x.chat.phase from rfl, show (x.pre a b).server = x.server.pre b from rfl, serve_turn_pre]
    simp only [Tandem.pre, Nat.add_assoc]

theorem run_pre (a b : Bytes) (r : Room) (x : Tandem) (es : List Move) : (x.pre a b).run r es = (x.run r es).pre a b := by
  induction es generalizing x with
  | nil => rfl
  | cons e es ih =>
    show (Tandem.step r (x.pre a b) e).run r es = ((x.step r e).run r es).pre a b
    rw [step_pre, ih]

theorem stuck_pre (a b : Bytes) (r : Room) (x : Tandem) : (x.pre a b).Stuck r ↔ x.Stuck r := by
  unfold Tandem.Stuck
  rw [up_pre, down_pre]
  rfl

/-! ## A stream that has been read ahead -/

/-- The same tasks, with what the client's stream held before it was polled. -/
def Tandem.peel (fr : Framed MsgCodec) (x : Tandem) : Tandem := { x with chat := { x.chat with read := fr, seen := [] } }

/-- The next poll finds in `fr` what `x.chat` has seen, and goes on as `x.chat.read`. -/
structure Primed (fr : Framed MsgCodec) (x : Tandem) : Prop where
  phase : x.chat.phase = .forward none
  flag : x.chat.flag = false
  over : x.chat.over = false
  poll : ∀ s, filterPoll pingOnly fr s = filterPoll pingOnly x.chat.read s
  seen : ∀ s, filterSeen pingOnly fr s = x.chat.seen ++ filterSeen pingOnly x.chat.read s

theorem primed_chat {fr : Framed MsgCodec} {x : Tandem} (h : Primed fr x) (r : Room) (n k : Nat) : (x.peel fr).step r (.chat n k) = x.step r (.chat n k) := by
  have ht : ∀ s script, (x.peel fr).chat.turn s script = x.chat.turn s script := by
    intro s script
    have h1 := h.phase
    have h2 := h.flag
    have h3 := h.over
    have h4 := h.poll s
    have h5 := h.seen s
    unfold Tandem.peel
    obtain ⟨⟨lines, chan, gone, phase, flag, over, read, out, typed, seen⟩, server, up, down⟩ := x
    simp only at h1 h2 h3 h4 h5
    subst h1 h2 h3
    simp only [ChatTask.turn, Selecting.poll, Selecting.pollOne, Selecting.pollStream, h4, ChatTask.shown, h5, ChatTask.inbox, Bool.false_or, Bool.false_and, Bool.false_eq_true,
      if_false, Bool.not_false, List.nil_append]
  simp only [Tandem.step]
  rw [ht]
  rfl

theorem primed_type {fr : Framed MsgCodec} {x : Tandem} (h : Primed fr x) (r : Room) :
    (x.peel fr).step r .type = (x.step r .type).peel fr ∧ Primed fr (x.step r .type) := by
  have hc : ((x.peel fr).chat.gone || (x.peel fr).chat.chan.isSome || (x.peel fr).chat.phase.isOver) = (x.chat.gone || x.chat.chan.isSome || x.chat.phase.isOver) := rfl
  refine ⟨?_, ?_⟩
  · simp only [Tandem.step, ChatTask.type]
    rw [hc]
    split <;> rfl
  · simp only [Tandem.step, ChatTask.type]
    split
    · exact h
    · exact ⟨h.phase, h.flag, h.over, h.poll, h.seen⟩

theorem primed_serve {fr : Framed MsgCodec} {x : Tandem} (h : Primed fr x) (r : Room) (n k : Nat) :
    (x.peel fr).step r (.serve n k) = (x.step r (.serve n k)).peel fr ∧ Primed fr (x.step r (.serve n k)) :=
  ⟨rfl, h.phase, h.flag, h.over, h.poll, h.seen⟩

theorem pollRead_wait {σ α} (dec : Decoder σ α) (fr : Framed σ) : fr.pollRead dec [.error .wouldBlock] = (.notReady, fr, []) := by
  unfold Framed.pollRead
  simp

/-- After a poll that has found nothing more, the next one goes on where it stopped. -/
theorem filter_resume {f : OwnedMsg → Option OwnedMsg} (fr fr' : Framed MsgCodec) (w : Src) (hw : w = [.error .wouldBlock]) (he : fr.eof = false)
    {t : Src} (h : filterPoll f fr w = (.notReady, fr', t)) (s : Src) :
    filterPoll f fr s = filterPoll f fr' s ∧ filterSeen f fr s = filterSeen f fr w ++ filterSeen f fr' s := by
  subst hw
  generalize hn : fr.measure [.error .wouldBlock] = n
  induction n using Nat.strongRecOn generalizing fr with
  | ind n ih =>
    cases hr : fr.readable with
    | false =>
      have hp : fr.poll msgDecoder [.error .wouldBlock] = (.notReady, fr, []) := by
        unfold Framed.poll
        rw [if_neg (by simp [hr]), pollRead_wait]
      obtain ⟨q1, q2⟩ := filterPoll_stop (f := f) hp (by simp)
      rw [q1] at h
      cases h
      exact ⟨rfl, by rw [q2]; rfl⟩
    | true =>
      cases hd : msgDecoder fr.codec fr.buf with
      | mk y q =>
        obtain ⟨c, b⟩ := q
        cases y with
        | err e =>
          have hp : fr.poll msgDecoder [.error .wouldBlock] = (.ready (.err e), { fr with codec := c, buf := b }, [.error .wouldBlock]) := by
            unfold Framed.poll
            rw [if_pos hr, if_neg (by simp [he]), hd]
          obtain ⟨q1, -⟩ := filterPoll_stop (f := f) hp (by simp)
          rw [q1] at h
          cases h
        | panic e =>
          have hp : fr.poll msgDecoder [.error .wouldBlock] = (.ready (.panic e), { fr with codec := c, buf := b }, [.error .wouldBlock]) := by
            unfold Framed.poll
            rw [if_pos hr, if_neg (by simp [he]), hd]
          obtain ⟨q1, -⟩ := filterPoll_stop (f := f) hp (by simp)
          rw [q1] at h
          cases h
        | ok o =>
          cases o with
          | none =>
            have hp : ∀ s, fr.poll msgDecoder s = Framed.pollRead msgDecoder { fr with codec := c, buf := b, readable := false } s := by
              intro s
              unfold Framed.poll
              rw [if_pos hr, if_neg (by simp [he]), hd]
            have hp0 := hp [.error .wouldBlock]
            rw [pollRead_wait] at hp0
            obtain ⟨q1, q2⟩ := filterPoll_stop (f := f) hp0 (by simp)
            rw [q1] at h
            cases h
            have hps : fr.poll msgDecoder s = Framed.poll msgDecoder { fr with codec := c, buf := b, readable := false } s := by
              rw [hp]
              unfold Framed.poll
              rfl
            refine ⟨?_, ?_⟩
            · conv => lhs; rw [filterPoll]
              conv => rhs; rw [filterPoll]
              rw [hps]
            · rw [q2, List.nil_append]
              conv => lhs; rw [filterSeen]
              conv => rhs; rw [filterSeen]
              rw [hps]
          | some m =>
            have hp : ∀ s, fr.poll msgDecoder s = (.ready (.item m), { fr with codec := c, buf := b }, s) := by
              intro s
              unfold Framed.poll
              rw [if_pos hr, if_neg (by simp [he]), hd]
            cases hm : f m with
            | some a =>
              rw [filterPoll] at h
              split at h
              · next q => rw [hp] at q; cases q; rw [hm] at h; cases h
              · next hne q => rw [hp] at q; cases q; exact absurd rfl (hne m)
            | none =>
              obtain ⟨a1, a2⟩ := filterPoll_skip (hp [.error .wouldBlock]) hm
              obtain ⟨b1, b2⟩ := filterPoll_skip (hp s) hm
              rw [a1] at h
              have hlt := Framed.poll_item_lt (hp [.error .wouldBlock])
              obtain ⟨c1, c2⟩ := ih _ (by rw [← hn]; exact hlt) { fr with codec := c, buf := b } he h rfl
              exact ⟨by rw [b1, c1], by rw [b2, c2, a2]; rfl⟩

/-- What has been read with the head is found as if it had come later. -/
theorem filter_parts {f : OwnedMsg → Option OwnedMsg} (codec : MsgCodec) (b : Bytes) (hb : b ≠ []) :
    filterPoll f (Framed.new codec) [.chunk b, .error .wouldBlock] = filterPoll f (Framed.fromParts codec b) [.error .wouldBlock] ∧
    filterSeen f (Framed.new codec) [.chunk b, .error .wouldBlock] = filterSeen f (Framed.fromParts codec b) [.error .wouldBlock] := by
  have hp : (Framed.new codec).poll msgDecoder [.chunk b, .error .wouldBlock] = (Framed.fromParts codec b).poll msgDecoder [.error .wouldBlock] := by
    unfold Framed.poll Framed.new Framed.fromParts
    simp only [Bool.false_eq_true, if_false, ne_eq, hb, not_false_eq_true, decide_true, if_true]
    conv => lhs; unfold Framed.pollRead
    rw [if_neg hb]
    simp only [List.nil_append]
  refine ⟨?_, ?_⟩
  · conv => lhs; rw [filterPoll]
    conv => rhs; rw [filterPoll]
    rw [hp]
  · conv => lhs; rw [filterSeen]
    conv => rhs; rw [filterSeen]
    rw [hp]

/-! ## The two heads -/

section
variable [B64]

omit [B64] in
theorem chatCall_limits (fresh : WsKey) : (chatCall fresh).1.maxDf = defaultMaxDataframe ∧ (chatCall fresh).1.maxMsg = defaultMaxMessage := ⟨rfl, rfl⟩

omit [B64] in
theorem chatCall_fmt (fresh : WsKey) : (chatCall fresh).2.fmt reqLine = wholeAsk fresh := request_fmt chatUrl chatOps fresh

omit [B64] in
theorem chatCall_writable (fresh : WsKey) : (chatCall fresh).1.headers.writable = true := writable_request chatUrl chatOps (wholeAsk_sendable fresh).2 fresh

/-- What the server reads. -/
def askedFor (fresh : WsKey) : Request := ⟨.http11, ⟨.get, chatUrl.resource⟩, .fromRaw (requestLines chatUrl chatOps fresh)⟩

/-- What the client reads. -/
def toldOf (fresh : WsKey) : Response := ⟨.http11, ⟨101, ascii "Switching Protocols"⟩, .fromRaw (responseLines [.useProtocol rustWebsocket] none fresh)⟩

/-- The parser takes exactly this head. -/
structure Reads {σ line ok} (p : HeadParser σ line ok) (head : Bytes) (m : HttpHead σ) : Prop where
  parse : headAnswer p head = .ok (some m)
  blank : ∀ x, FirstBlank (head ++ x) head x

theorem reads_ask (p : ReqParser) (fresh : WsKey) : Reads p (wholeAsk fresh) (askedFor fresh) := by
  have hok : okReq .http11 ⟨.get, chatUrl.resource⟩ := ⟨Or.inr rfl, whole_target.1, whole_target.2, rfl⟩
  have hs := (wholeAsk_sendable fresh).1
  have hp := parse_lines p .http11 ⟨.get, chatUrl.resource⟩ hok hs
  rw [← getLine_eq] at hp
  refine ⟨?_, fun x => ?_⟩
  · unfold headAnswer
    rw [show p.parse (wholeAsk fresh) = _ from hp]
    rfl
  · refine firstBlank_head (start := getLine chatUrl.resource) (by rw [getLine_eq]; exact (reqLine_ok _ _ hok).2.1) ?_ hs.1 x
    rw [getLine_eq]
    exact fun h => absurd ((reqLine_ok _ _ hok).2.2 _ h) (by decide)

omit [B64] in
theorem reads_answer (p : ResParser) (fresh : WsKey) : Reads p (wholeAnswer fresh) (toldOf fresh) := by
  have hs := (wholeAnswer_sendable fresh).1
  have hp := parse_lines p .http11 ⟨101, ascii "Switching Protocols"⟩ okRes101 hs
  rw [← resStart] at hp
  refine ⟨?_, fun x => ?_⟩
  · unfold headAnswer
    rw [show p.parse (wholeAnswer fresh) = _ from hp]
    rfl
  · unfold wholeAnswer head101
    rw [resStart]
    refine firstBlank_head (resLine_ok _ _ okRes101).2.1 ?_ hs.1 x
    exact fun h => absurd ((resLine_ok _ _ okRes101).2.2 _ h) (by decide)

omit [B64] in
/-- One poll for a head: it takes what is offered; with the last byte of the head it is done, and what came behind it stays in the buffer. -/
theorem head_poll {σ line ok} {p : HeadParser σ line ok} {head : Bytes} {m : HttpHead σ} (h : Reads p head m) (w : Bytes) (hw : w <+: head ∨ head <+: w) (t : Nat)
    (ht : t < head.length) (htw : t ≤ w.length) (n : Nat) (closed : Bool) (hc : ¬ (closed = true ∧ w.drop t = [] ∧ 0 < n)) :
    ∃ s', used (offered (w.drop t) n closed) s' = min n (w.length - t) ∧
      Framed.poll (httpDecoder p) ⟨(), w.take t, false, false⟩ (offered (w.drop t) n closed) =
        (if t + min n (w.length - t) < head.length then (.notReady, ⟨(), w.take (t + min n (w.length - t)), false, false⟩, s')
         else (.ready (.item m), ⟨(), (w.take (t + min n (w.length - t))).drop head.length, true, false⟩, s')) := by
  have htake : ∀ u, u < head.length → splitOffHttp (w.take u) = none := by
    intro u hu
    have hp : w.take u <+: head := by
      rcases hw with hw | hw
      · exact (List.take_prefix _ _).trans hw
      · obtain ⟨z, rfl⟩ := hw
        rw [List.take_append_of_le_length (by omega)]
        exact List.take_prefix _ _
    obtain ⟨z, hz⟩ := hp
    refine cut_none (h.blank []) _ z ?_ hz
    rintro rfl
    have := congrArg List.length hz
    simp at this
    omega
  by_cases h0 : (w.drop t).take n = []
  · have hmin : min n (w.length - t) = 0 := by
      have := congrArg List.length h0
      simpa using this
    refine ⟨[], ?_, ?_⟩
    · unfold offered
      rw [if_neg (by simp [h0]), if_neg hc]
      simp [used, Src.flat, hmin]
    · rw [hmin, Nat.add_zero, if_pos ht]
      unfold offered
      rw [if_neg (by simp [h0]), if_neg hc]
      simp [Framed.poll, Framed.pollRead]
  · have hj : w.take t ++ (w.drop t).take n = w.take (t + min n (w.length - t)) := by
      rw [List.take_add]
      congr 1
      rw [← List.length_drop, List.take_eq_take_min]
    by_cases hlt : t + min n (w.length - t) < head.length
    · refine ⟨[], ?_, ?_⟩
      · unfold offered
        rw [if_pos h0]
        simp [used, Src.flat]
      · rw [if_pos hlt]
        unfold offered Framed.poll Framed.pollRead
        rw [if_pos h0]
        simp only [Bool.false_eq_true, if_false, if_neg h0, hj]
        rw [decode_none p (htake _ hlt)]
        simp [Framed.pollRead]
    · have hw' : head <+: w := by
        rcases hw with hw | hw
        · have := hw.length_le
          have e : w = head := hw.eq_of_length (by omega)
          rw [e]
          exact List.prefix_refl _
        · exact hw
      have hsplit : splitOffHttp (w.take (t + min n (w.length - t))) = some (head, (w.take (t + min n (w.length - t))).drop head.length) := by
        rw [splitOff_iff]
        have hpre : head <+: w.take (t + min n (w.length - t)) := List.prefix_take_iff.mpr ⟨hw', by omega⟩
        obtain ⟨z, hz⟩ := hpre
        rw [← hz, List.drop_left]
        exact h.blank z
      refine ⟨[.error .wouldBlock], ?_, ?_⟩
      · unfold offered
        rw [if_pos h0]
        simp [used, Src.flat]
      · rw [if_neg hlt]
        unfold offered Framed.poll Framed.pollRead
        rw [if_pos h0]
        simp only [Bool.false_eq_true, if_false, if_neg h0, hj]
        rw [decode_head p hsplit, h.parse]

/-- The server accepts, and answers with the head of `wholeAnswer`. -/
theorem asked_answer (fresh : WsKey) (x : AsyncWhole) :
    x.asked (askedFor fresh) [] =
      { x with door := .answering true,
               tasks := { x.tasks with server := { x.tasks.server with
                 read := Framed.new (MsgCodec.newWithLimits .server defaultMaxDataframe defaultMaxMessage), out := x.tasks.server.out.head (wholeAnswer fresh) } } } := by
  obtain ⟨hv, hk⟩ := asks_validate (wholeAsk_keyed fresh).1
  unfold AsyncWhole.asked
  rw [show validate (askedFor fresh).subject.method (askedFor fresh).version (askedFor fresh).headers = .ok () from hv]
  simp only
  generalize hu : (⟨[], ⟨[], ⟨[], []⟩⟩, askedFor fresh, []⟩ : AsyncUpgrade) = u
  have hu0 : u.headers = [] := by rw [← hu]
  have hur : u.request = askedFor fresh := by rw [← hu]
  have hub : u.buffer = [] := by rw [← hu]
  have hpr : rustWebsocket ∈ u.protocols := by
    unfold Upgrade.protocols
    rw [hur]
    exact chat_offers chatUrl fresh
  rw [if_pos hpr]
  have hprep := prepare_some (u.run [.useProtocol rustWebsocket]) none (key := fresh) (by show u.request.headers.getKey = _; rw [hur]; exact hk)
  have hwr := text_prepare (run_text [.useProtocol rustWebsocket] (by rw [hu0]; exact text_nil) : TextHeaders (u.run [.useProtocol rustWebsocket]).headers) (custom := none)
    (fun c h => by cases h) _ _ hprep
  rw [show (Upgrade.useProtocol rustWebsocket u).prepareHeaders none = _ from hprep]
  simp only
  rw [if_neg (by rw [hwr]; simp), fmt_response_101, responseLines_eq u hu0 [.useProtocol rustWebsocket] none fresh]
  have e1 : ((u.run [.useProtocol rustWebsocket]).accepted none fresh).buffer = [] := by
    show u.buffer = []
    exact hub
  have e2 : ((u.run [.useProtocol rustWebsocket]).accepted none fresh).request.version = .http11 := by
    show u.request.version = _
    rw [hur]
    rfl
  rw [e1, e2]
  rfl

/-- The client takes the answer. -/
theorem told_valid (fresh : WsKey) : (chatCall fresh).1.validate (toldOf fresh) = .ok () :=
  answers_validate (response_answers _ none fresh) _ (wholeAsk_keyed fresh).2 _ _

/-! ## How far they have come -/

omit [B64] in
/-- The client before it has heard or said anything. -/
structure Caller (x : Tandem) : Prop where
  phase : x.chat.phase = .forward none
  flag : x.chat.flag = false
  over : x.chat.over = false
  read : x.chat.read = Framed.new (MsgCodec.newWithLimits .client defaultMaxDataframe defaultMaxMessage)
  seen : x.chat.seen = []
  wire : x.chat.out.wire = []
  data : x.chat.out.sink.buf.data = []
  up : x.up = 0
  down : x.down = 0

omit [B64] in
/-- The server before it has heard or said anything. -/
structure Waiter (x : Tandem) : Prop where
  phase : x.server.phase = .greet
  read : x.server.read = Framed.new (MsgCodec.newWithLimits .server defaultMaxDataframe defaultMaxMessage)
  heard : x.server.heard = []
  wire : x.server.out.wire = []
  data : x.server.out.sink.buf.data = []

/-- As `TandemInv` with the limits of the two programs. -/
def InTune (lines : List Bytes) (r : Room) (x : Tandem) : Prop :=
  ∃ bu bd, TandemInv lines defaultMaxDataframe defaultMaxMessage defaultMaxDataframe defaultMaxMessage r x bu bd

/-- A sending half with the rest of a head in it. -/
structure Heading (server : Bool) (head : Bytes) (o : Outbox) : Prop where
  total : o.wire ++ o.sink.buf.data = head
  wf : o.sink.buf.WF
  role : o.sink.isServer = server

/-- How far they have come, and who has to move (`true`: the client). -/
inductive Led (fresh : WsKey) (lines : List Bytes) (r : Room) : AsyncWhole → Nat → Option Bool → Prop
  | asking (x : Tandem) (o : Outbox) (t : Nat) (h : InTune lines r x) (hc : Caller x) (hs : Waiter x) (ho : Heading false (wholeAsk fresh) o) (hd : o.sink.buf.data ≠ [])
    (ht : t ≤ o.wire.length) :
    Led fresh lines r ⟨.asking, .reading ⟨(), o.wire.take t, false, false⟩, ⟨{ x.chat with out := o }, x.server, t, 0⟩⟩ (o.wire.length + t) (some (decide (t = o.wire.length)))
  | awaiting (x : Tandem) (t : Nat) (h : InTune lines r x) (hc : Caller x) (hs : Waiter x) (ht : t < (wholeAsk fresh).length) :
    Led fresh lines r ⟨.awaiting (Framed.new ()), .reading ⟨(), (wholeAsk fresh).take t, false, false⟩, ⟨x.chat.pre (wholeAsk fresh), x.server, t, 0⟩⟩
      ((wholeAsk fresh).length + t) (some false)
  | answering (x : Tandem) (o : Outbox) (d : Nat) (h : InTune lines r x) (hc : Caller x) (hs : Waiter x) (ho : Heading true (wholeAnswer fresh) o) (hd : o.sink.buf.data ≠ [])
    (ht : d ≤ o.wire.length) :
    Led fresh lines r ⟨.awaiting ⟨(), o.wire.take d, false, false⟩, .answering true, ⟨x.chat.pre (wholeAsk fresh), { x.server with out := o }, (wholeAsk fresh).length, d⟩⟩
      (2 * (wholeAsk fresh).length + o.wire.length + d) (some (decide (d < o.wire.length)))
  | answered (x : Tandem) (d : Nat) (h : InTune lines r x) (hc : Caller x) (ht : d < (wholeAnswer fresh).length) :
    Led fresh lines r ⟨.awaiting ⟨(), (wholeAnswer fresh).take d, false, false⟩, .through,
        ⟨x.chat.pre (wholeAsk fresh), x.server.pre (wholeAnswer fresh), (wholeAsk fresh).length, d⟩⟩
      (2 * (wholeAsk fresh).length + (wholeAnswer fresh).length + d) (some true)
  | entered (x : Tandem) (fr : Framed MsgCodec) (h : InTune lines r x) (hp : Primed fr x) :
    Led fresh lines r ⟨.through, .through, (x.peel fr).pre (wholeAsk fresh) (wholeAnswer fresh)⟩ (2 * (wholeAsk fresh).length + 2 * (wholeAnswer fresh).length) (some true)
  | talking (x : Tandem) (h : InTune lines r x) :
    Led fresh lines r ⟨.through, .through, x.pre (wholeAsk fresh) (wholeAnswer fresh)⟩ (2 * (wholeAsk fresh).length + 2 * (wholeAnswer fresh).length + 1) none

/-- A move that takes them further. -/
def Leads : Option Bool → Move → Prop
  | some true, .chat (_ + 1) (_ + 1) => True
  | some false, .serve (_ + 1) (_ + 1) => True
  | _, _ => False

/-- They come further, or stay where they are because somebody else has to move. -/
def Leaps (fresh : WsKey) (lines : List Bytes) (r : Room) (y : AsyncWhole) (n : Nat) (who : Option Bool) (e : Move) : Prop :=
  ∃ n' who', Led fresh lines r y n' who' ∧ (n < n' ∨ n' = n ∧ who' = who ∧ (0 < r.up → 0 < r.down → ¬ Leads who e))

omit [B64] in
theorem Leaps.further {fresh : WsKey} {lines : List Bytes} {r : Room} {y : AsyncWhole} {n n' : Nat} {who who' : Option Bool} {e : Move} (h : Led fresh lines r y n' who') (hn : n < n') :
    Leaps fresh lines r y n who e := ⟨n', who', h, .inl hn⟩

omit [B64] in
theorem granted_min {free k free' k' : Nat} (h : min free k = min free' k') : granted free k = granted free' k' := by
  unfold granted
  rw [h]

section
omit [B64]
variable {lines : List Bytes} {r : Room} {x : Tandem}

theorem tune_step (hs : Suiting lines (min defaultMaxDataframe u32Max) (min defaultMaxDataframe u32Max)) (h : InTune lines r x) (e : Move) : InTune lines r (x.step r e) := by
  obtain ⟨bu, bd, h⟩ := h
  obtain ⟨bu', bd', h', -⟩ := tandem_step (asks_sendable hs.up) (greets_sendable hs.down hs.hello) h e
  exact ⟨bu', bd', h'⟩

theorem Flowing.dress {mask said n bss} {o o' : Outbox} (h : Flowing mask said n bss o) (hw : o'.wire = o.wire) (hd : o'.sink.buf.data = o.sink.buf.data) (hf : o'.sink.buf.WF)
    (hr : o'.sink.isServer = !mask) : Flowing mask said n bss o' :=
  ⟨h.count, h.frames, by rw [hw, hd]; exact h.total, hf, hr⟩

theorem tune_chat (h : InTune lines r x) (o : Outbox) (hw : o.wire = x.chat.out.wire) (hd : o.sink.buf.data = x.chat.out.sink.buf.data) (hf : o.sink.buf.WF)
    (hr : o.sink.isServer = false) : InTune lines r { x with chat := { x.chat with out := o } } := by
  obtain ⟨bu, bd, h⟩ := h
  have hc : ({ x with chat := { x.chat with out := o } } : Tandem).count = x.count := by
    simp only [Tandem.count, hw]
  refine ⟨bu, bd, ?_⟩
  constructor
  · rw [hc]; exact h.sane
  · exact h.typed
  · exact h.left
  · exact h.chan
  · rw [hc]; exact h.gone
  · rw [hc]; exact h.chatHolds
  · exact h.chatOver
  · rw [hc]; exact h.up.dress hw hd hf hr
  · rw [hc]; exact h.down
  · exact h.heard
  · have := h.serverRead
    show Listens _ _ _ _ _ o.wire _ _
    rw [hw]
    exact this
  · exact h.serverHolds
  · exact h.serverOver
  · exact h.seen
  · rw [hc]; exact h.seenLe
  · exact h.caught
  · exact h.chatRead

theorem tune_server (h : InTune lines r x) (o : Outbox) (hw : o.wire = x.server.out.wire) (hd : o.sink.buf.data = x.server.out.sink.buf.data) (hf : o.sink.buf.WF)
    (hr : o.sink.isServer = true) : InTune lines r { x with server := { x.server with out := o } } := by
  obtain ⟨bu, bd, h⟩ := h
  have hc : ({ x with server := { x.server with out := o } } : Tandem).count = x.count := by
    simp only [Tandem.count, hw]
  refine ⟨bu, bd, ?_⟩
  constructor
  · rw [hc]; exact h.sane
  · exact h.typed
  · exact h.left
  · exact h.chan
  · rw [hc]; exact h.gone
  · rw [hc]; exact h.chatHolds
  · exact h.chatOver
  · rw [hc]; exact h.up
  · rw [hc]; exact h.down.dress hw hd hf hr
  · exact h.heard
  · exact h.serverRead
  · exact h.serverHolds
  · exact h.serverOver
  · exact h.seen
  · rw [hc]; exact h.seenLe
  · exact h.caught
  · intro ho
    have := h.chatRead ho
    show Listens _ _ _ _ _ o.wire _ _ ∧ _
    rw [hw]
    exact this

theorem caller_type (h : Caller x) : Caller (x.step r .type) := by
  simp only [Tandem.step, ChatTask.type]
  split
  · exact h
  · exact ⟨h.phase, h.flag, h.over, h.read, h.seen, h.wire, h.data, h.up, h.down⟩

theorem waiter_type (h : Waiter x) : Waiter (x.step r .type) := ⟨h.phase, h.read, h.heard, h.wire, h.data⟩

theorem type_out (t : ChatTask) (o : Outbox) : ({ t with out := o } : ChatTask).type = { t.type with out := o } := by
  unfold ChatTask.type
  simp only
  split <;> rfl

theorem type_pre (t : ChatTask) (p : Bytes) : (t.pre p).type = t.type.pre p := by
  unfold ChatTask.type
  rw [show ((t.pre p).gone || (t.pre p).chan.isSome || (t.pre p).phase.isOver) = (t.gone || t.chan.isSome || t.phase.isOver) from rfl]
  split <;> rfl

/-- A head going out. -/
theorem Heading.flush {server head} {o : Outbox} (h : Heading server head o) (hd : o.sink.buf.data ≠ []) (free k : Nat) :
    ∃ o', Heading server head o' ∧ o'.wire.length = o.wire.length + min (min free k) o.sink.buf.data.length ∧ o.wire <+: o'.wire ∧
      o.flush (granted free k) = (if o'.sink.buf.data = [] then .ready else .notReady, o') := by
  rw [flush_granted]
  refine ⟨{ o with sink := { o.sink with buf := o.sink.buf.advance (min (min free k) o.sink.buf.data.length) },
                   wire := o.wire ++ o.sink.buf.data.take (min (min free k) o.sink.buf.data.length) }, ⟨?_, ?_, ?_⟩, ?_, ?_, ?_⟩
  · show o.wire ++ o.sink.buf.data.take _ ++ o.sink.buf.data.drop _ = head
    rw [List.append_assoc, List.take_append_drop]
    exact h.total
  · have := h.wf
    simp only [BytesMut.WF, BytesMut.advance, List.length_drop] at this ⊢
    omega
  · exact h.role
  · simp
  · exact List.prefix_append _ _
  · congr 1
    have : (o.sink.buf.advance (min (min free k) o.sink.buf.data.length)).data = o.sink.buf.data.drop (min (min free k) o.sink.buf.data.length) := rfl
    simp only [this]
    by_cases hle : o.sink.buf.data.length ≤ min free k
    · rw [if_pos hle, if_pos (by simp; omega)]
    · rw [if_neg hle, if_neg (by simp; omega)]

end

omit [B64] in
/-- The client goes on with what it has read behind the answer: as if it had just read it. -/
theorem enter {lines : List Bytes} {r : Room} {x : Tandem} (hs : Suiting lines (min defaultMaxDataframe u32Max) (min defaultMaxDataframe u32Max)) (h : InTune lines r x) (hc : Caller x)
    (l : Nat) (hl : l ≤ x.server.out.wire.length) :
    ∃ y, InTune lines r y ∧ Primed (Framed.fromParts (MsgCodec.newWithLimits .client defaultMaxDataframe defaultMaxMessage) (x.server.out.wire.take l)) y ∧
      y.peel (Framed.fromParts (MsgCodec.newWithLimits .client defaultMaxDataframe defaultMaxMessage) (x.server.out.wire.take l)) =
        { x with chat := { x.chat with read := Framed.fromParts (MsgCodec.newWithLimits .client defaultMaxDataframe defaultMaxMessage) (x.server.out.wire.take l) }, down := l } := by
  obtain ⟨bu, bd, h⟩ := h
  obtain ⟨e, fr', s', k1, k2, k3⟩ := chat_reading (greets_sendable hs.down hs.hello) h l
  have hpo : x.chat.polls = true := by simp [ChatTask.polls, hc.over, hc.flag]
  have hcp : x.count.polls = true := hpo
  have hdt : x.downTransit = x.server.out.wire := by simp [Tandem.downTransit, hc.down]
  generalize hfr : Framed.fromParts (MsgCodec.newWithLimits .client defaultMaxDataframe defaultMaxMessage) (x.server.out.wire.take l) = fr
  have hoff : filterPoll pingOnly x.chat.read (offered x.downTransit l x.server.phase.isOver) = filterPoll pingOnly fr [.error .wouldBlock] ∧
      filterSeen pingOnly x.chat.read (offered x.downTransit l x.server.phase.isOver) = filterSeen pingOnly fr [.error .wouldBlock] := by
    rw [hdt, hc.read]
    unfold offered
    by_cases h0 : x.server.out.wire.take l = []
    · have hl0 : l = 0 := by
        have := congrArg List.length h0
        simp at this
        rcases this with this | this
        · exact this
        · rw [this] at hl; simpa using hl
      rw [if_neg (by simp [h0]), if_neg (by omega), ← hfr, h0]
      exact ⟨rfl, rfl⟩
    · rw [if_pos h0, ← hfr]
      exact filter_parts _ _ h0
  have k1 := k1 hc.over
  have he : e = false := by
    have h1 : (x.chat.over || (x.chat.polls && e)) = (x.count.reading l).eof := congrArg Count.eof k3
    rw [hc.over, hpo] at h1
    cases e with
    | false => rfl
    | true =>
      have h2 : (x.count.reading l).eof = true := h1.symm
      unfold Count.reading at h2
      simp only [hcp, Bool.true_and, Bool.or_eq_true, Bool.and_eq_true, decide_eq_true_eq] at h2
      have h3 : x.count.eof = false := hc.over
      have h4 : x.count.back = x.server.out.wire.length := rfl
      have h5 : x.count.read = 0 := hc.down
      rw [h3, h4, h5] at h2
      rcases h2 with h2 | ⟨⟨h2, h6⟩, -⟩
      · cases h2
      · omega
  subst he
  rw [hoff.1] at k1
  simp only [Bool.false_eq_true, if_false] at k1
  obtain hres := filter_resume (f := pingOnly) fr fr' _ rfl (by rw [← hfr]; rfl) k1
  have hdown : x.down + used (offered x.downTransit l x.server.phase.isOver) s' = l := by
    have h1 := congrArg Count.read k3
    have h2 : (x.count.reading l).read = x.count.read + min l (x.count.back - x.count.read) := by
      unfold Count.reading
      rw [hcp]
      rfl
    rw [h2] at h1
    have h4 : x.count.back = x.server.out.wire.length := rfl
    have h5 : x.count.read = 0 := hc.down
    rw [h4, h5] at h1
    simp only [Tandem.count, hpo, if_true] at h1
    omega
  rw [if_pos hpo, hdown] at k2
  refine ⟨_, ⟨bu, bd, k2⟩, ⟨hc.phase, hc.flag, ?_, ?_, ?_⟩, ?_⟩
  · simp [ChatTask.polled, hc.over]
  · intro s
    simp only [ChatTask.polled, hpo, if_true]
    exact (hres s).1
  · intro s
    simp only [ChatTask.polled, hpo, if_true, hc.seen, List.nil_append, hoff.2]
    exact (hres s).2
  · simp only [Tandem.peel, ChatTask.polled, hpo, Bool.and_false, Bool.or_false]
    rw [hc.seen]

variable {preq : ReqParser} {pres : ResParser} {g : AsyncGiven} {lines : List Bytes} {r : Room}

theorem lead_type {x : AsyncWhole} {n : Nat} {who : Option Bool} (hs : Suiting lines (min defaultMaxDataframe u32Max) (min defaultMaxDataframe u32Max))
    (h : Led g.fresh lines r x n who) : Leaps g.fresh lines r (x.step preq pres g r .type) n who .type := by
  have hn : ¬ Leads who .type := by
    cases who with
    | none => simp [Leads]
    | some b => cases b <;> simp [Leads]
  refine ⟨n, who, ?_, .inr ⟨rfl, rfl, fun _ _ => hn⟩⟩
  cases h with
  | asking V o t h hc hs' ho hd ht =>
    have := Led.asking (fresh := g.fresh) (V.step r .type) o t (tune_step hs h .type) (caller_type hc) (waiter_type hs') ho hd ht
    simp only [AsyncWhole.step, Tandem.step] at this ⊢
    rw [type_out]
    exact this
  | awaiting V t h hc hs' ht =>
    have := Led.awaiting (fresh := g.fresh) (V.step r .type) t (tune_step hs h .type) (caller_type hc) (waiter_type hs') ht
    simp only [AsyncWhole.step, Tandem.step] at this ⊢
    rw [type_pre]
    exact this
  | answering V o d h hc hs' ho hd ht =>
    have := Led.answering (fresh := g.fresh) (V.step r .type) o d (tune_step hs h .type) (caller_type hc) (waiter_type hs') ho hd ht
    simp only [AsyncWhole.step, Tandem.step] at this ⊢
    rw [type_pre]
    exact this
  | answered V d h hc ht =>
    have := Led.answered (fresh := g.fresh) (V.step r .type) d (tune_step hs h .type) (caller_type hc) ht
    simp only [AsyncWhole.step, Tandem.step] at this ⊢
    rw [type_pre]
    exact this
  | entered V fr h hp =>
    have := Led.entered (fresh := g.fresh) (V.step r .type) fr (tune_step hs h .type) (primed_type hp r).2
    rw [← (primed_type hp r).1, ← step_pre] at this
    exact this
  | talking V h =>
    have := Led.talking (fresh := g.fresh) (V.step r .type) (tune_step hs h .type)
    rw [← step_pre] at this
    exact this

theorem lead_serve {x : AsyncWhole} {n : Nat} {who : Option Bool} (hs : Suiting lines (min defaultMaxDataframe u32Max) (min defaultMaxDataframe u32Max)) (h : Led g.fresh lines r x n who) (i k : Nat) : Leaps g.fresh lines r (x.step preq pres g r (.serve i k)) n who (.serve i k) := by
  show Leaps g.fresh lines r (x.serve preq r i k) n who (.serve i k)
  cases h with
  | asking V o t h hc hs' ho hd ht =>
    have hlen : o.wire.length < (wholeAsk g.fresh).length := by
      have := congrArg List.length ho.total
      have := List.length_pos_iff.mpr hd
      simp at *
      omega
    obtain ⟨s', e1, e2⟩ := head_poll (reads_ask preq g.fresh) o.wire (.inl ⟨_, ho.total⟩) t (by omega) ht i false (by simp)
    rw [if_pos (by omega)] at e2
    unfold AsyncWhole.serve
    simp only
    rw [show Tandem.upTransit ⟨{ V.chat with out := o }, V.server, t, 0⟩ = o.wire.drop t from rfl, show V.chat.phase.isOver = false by rw [hc.phase]; rfl, e2]
    simp only [e1]
    refine ⟨_, _, Led.asking (fresh := g.fresh) V o (t + min i (o.wire.length - t)) h hc hs' ho hd (by omega), ?_⟩
    by_cases h0 : min i (o.wire.length - t) = 0
    · right
      rw [h0]
      refine ⟨rfl, rfl, ?_⟩
      by_cases hte : t = o.wire.length
      · rw [decide_eq_true hte]; simp [Leads]
      · rw [decide_eq_false hte]
        cases i with
        | zero => simp [Leads]
        | succ i => omega
    · left; omega
  | awaiting V t h hc hs' ht =>
    obtain ⟨s', e1, e2⟩ := head_poll (reads_ask preq g.fresh) (wholeAsk g.fresh) (.inl (List.prefix_refl _)) t ht (by omega) i false (by simp)
    unfold AsyncWhole.serve
    simp only
    have hup : Tandem.upTransit ⟨V.chat.pre (wholeAsk g.fresh), V.server, t, 0⟩ = (wholeAsk g.fresh).drop t := by
      show (wholeAsk g.fresh ++ V.chat.out.wire).drop t = _
      rw [hc.wire, List.append_nil]
    rw [hup, show (V.chat.pre (wholeAsk g.fresh)).phase.isOver = false by show V.chat.phase.isOver = _; rw [hc.phase]; rfl, e2]
    by_cases hlt : t + min i ((wholeAsk g.fresh).length - t) < (wholeAsk g.fresh).length
    · rw [if_pos hlt]
      simp only [e1]
      refine ⟨_, _, Led.awaiting (fresh := g.fresh) V (t + min i ((wholeAsk g.fresh).length - t)) h hc hs' hlt, ?_⟩
      by_cases h0 : min i ((wholeAsk g.fresh).length - t) = 0
      · right
        rw [h0]
        refine ⟨rfl, rfl, ?_⟩
        cases i with
        | zero => simp [Leads]
        | succ i => omega
      · left; omega
    · rw [if_neg hlt]
      have hte : t + min i ((wholeAsk g.fresh).length - t) = (wholeAsk g.fresh).length := by omega
      simp only [e1, hte, List.take_length, List.drop_length]
      rw [asked_answer]
      obtain ⟨d1, d2⟩ := httpEncode_data (wholeAnswer g.fresh) V.server.out.extra V.server.out.sink.buf
      obtain ⟨bu, bd, hi⟩ := id h
      have := Led.answering (fresh := g.fresh) V (V.server.out.head (wholeAnswer g.fresh)) 0 h hc hs' ⟨?_, d2 hi.down.wf, hi.down.role⟩ ?_ (Nat.zero_le _)
      · have hw0 : (V.server.out.head (wholeAnswer g.fresh)).wire = [] := hs'.wire
        rw [hw0] at this
        simp only [List.take_nil, List.length_nil] at this
        rw [← hs'.read]
        exact Leaps.further this (by omega)
      · show V.server.out.wire ++ (httpEncode _ _ _).data = _
        rw [d1, hs'.wire, hs'.data]; rfl
      · show (httpEncode _ _ _).data ≠ _
        rw [d1, hs'.data]
        have := wholeAnswer_length g.fresh
        intro h0
        rw [List.nil_append] at h0
        rw [h0] at this
        cases this
  | answering V o d h hc hs' ho hd ht =>
    have hdl := List.length_pos_iff.mpr hd
    have htot := congrArg List.length ho.total
    rw [List.length_append] at htot
    obtain ⟨o', q1, q2, q3, q4⟩ := ho.flush hd (r.down - (o.wire.drop d).length) k
    have htk : o.wire.take d = o'.wire.take d := by
      obtain ⟨z, hz⟩ := q3
      rw [← hz, List.take_append_of_le_length ht]
    unfold AsyncWhole.serve
    simp only
    rw [show Tandem.downTransit ⟨V.chat.pre (wholeAsk g.fresh), { V.server with out := o }, (wholeAsk g.fresh).length, d⟩ = o.wire.drop d from rfl, q4]
    by_cases hd' : o'.sink.buf.data = []
    · rw [if_pos hd']
      have hw' : o'.wire = wholeAnswer g.fresh := by
        have := q1.total
        rw [hd', List.append_nil] at this
        exact this
      have ht' := tune_server h { o' with wire := [] } hs'.wire.symm (by rw [hs'.data]; exact hd') q1.wf q1.role
      have := Led.answered (fresh := g.fresh) _ d ht' ⟨hc.phase, hc.flag, hc.over, hc.read, hc.seen, hc.wire, hc.data, hc.up, hc.down⟩ (by omega)
      rw [← hw', ← htk] at this
      · simp only [if_true]
        have e : ({ V.server with out := { o' with wire := [] } } : ServeTask).pre o'.wire = { V.server with out := o' } := by
          simp only [ServeTask.pre, Outbox.pre, List.append_nil]
        rw [e] at this
        exact Leaps.further this (by rw [hw']; omega)
    · rw [if_neg hd']
      have := Led.answering (fresh := g.fresh) V o' d h hc hs' q1 hd' (by omega)
      rw [← htk] at this
      refine ⟨_, _, this, ?_⟩
      by_cases h0 : o'.wire.length = o.wire.length
      · right
        rw [h0]
        refine ⟨rfl, rfl, ?_⟩
        by_cases hlt : d < o.wire.length
        · rw [decide_eq_true hlt]; simp [Leads]
        · rw [decide_eq_false hlt]
          cases i with
          | zero => simp [Leads]
          | succ i =>
            cases k with
            | zero => simp [Leads]
            | succ k =>
              intro hru hrd
              rw [List.length_drop] at q2
              omega
      · left; omega
  | answered V d h hc ht =>
    have hoff : V.upTransit = [] := by simp [Tandem.upTransit, hc.wire]
    have hused : ∀ c s', used (offered V.upTransit i c) s' = 0 := by
      intro c s'
      rw [hoff]
      unfold offered
      simp only [List.take_nil, ne_eq, not_true_eq_false, if_false]
      split <;> simp [used, Src.flat]
    generalize hfree : r.down - ((wholeAnswer g.fresh ++ V.server.out.wire).drop d).length = free
    have hgr : granted free k = granted (r.down - V.downTransit.length) (min k free) := by
      refine granted_min ?_
      have : V.downTransit.length = V.server.out.wire.length := by simp [Tandem.downTransit, hc.down]
      rw [List.length_drop, List.length_append] at hfree
      omega
    have hst : Tandem.step r ⟨V.chat.pre (wholeAsk g.fresh), V.server.pre (wholeAnswer g.fresh), (wholeAsk g.fresh).length, d⟩ (.serve i k) =
        ⟨(V.step r (.serve i (min k free))).chat.pre (wholeAsk g.fresh), (V.step r (.serve i (min k free))).server.pre (wholeAnswer g.fresh), (wholeAsk g.fresh).length, d⟩ := by
      simp only [Tandem.step]
      rw [show Tandem.upTransit ⟨V.chat.pre (wholeAsk g.fresh), V.server.pre (wholeAnswer g.fresh), (wholeAsk g.fresh).length, d⟩ = V.upTransit by
          rw [← up_pre (wholeAsk g.fresh) (wholeAnswer g.fresh) V]
          simp [Tandem.upTransit, Tandem.pre, hc.up],
        show Tandem.downTransit ⟨V.chat.pre (wholeAsk g.fresh), V.server.pre (wholeAnswer g.fresh), (wholeAsk g.fresh).length, d⟩ =
          (wholeAnswer g.fresh ++ V.server.out.wire).drop d from rfl, hfree, hgr, serve_turn_pre,
        show (V.chat.pre (wholeAsk g.fresh)).phase = V.chat.phase from rfl]
      simp only [hused, Nat.add_zero]
    unfold AsyncWhole.serve
    simp only
    rw [hst]
    refine ⟨_, _, Led.answered (fresh := g.fresh) (V.step r (.serve i (min k free))) d (tune_step hs h _)
      ⟨hc.phase, hc.flag, hc.over, hc.read, hc.seen, hc.wire, hc.data, ?_, hc.down⟩ ht, .inr ⟨rfl, rfl, by simp [Leads]⟩⟩
    show V.up + used _ _ = 0
    rw [hused, hc.up]
  | entered V fr h hp =>
    have := Led.entered (fresh := g.fresh) (V.step r (.serve i k)) fr (tune_step hs h _) (primed_serve hp r i k).2
    rw [← (primed_serve hp r i k).1, ← step_pre] at this
    exact ⟨_, _, this, .inr ⟨rfl, rfl, by simp [Leads]⟩⟩
  | talking V h =>
    have := Led.talking (fresh := g.fresh) (V.step r (.serve i k)) (tune_step hs h _)
    rw [← step_pre] at this
    exact ⟨_, _, this, .inr ⟨rfl, rfl, by simp [Leads]⟩⟩

theorem lead_chat {x : AsyncWhole} {n : Nat} {who : Option Bool} (hs : Suiting lines (min defaultMaxDataframe u32Max) (min defaultMaxDataframe u32Max))
    (h : Led g.fresh lines r x n who) (i k : Nat) : Leaps g.fresh lines r (x.step preq pres g r (.chat i k)) n who (.chat i k) := by
  show Leaps g.fresh lines r (x.chat pres g r i k) n who (.chat i k)
  cases h with
  | asking V o t h hc hs' ho hd ht =>
    have hdl := List.length_pos_iff.mpr hd
    have htot := congrArg List.length ho.total
    rw [List.length_append] at htot
    obtain ⟨o', q1, q2, q3, q4⟩ := ho.flush hd (r.up - (o.wire.drop t).length) k
    have htk : o.wire.take t = o'.wire.take t := by
      obtain ⟨z, hz⟩ := q3
      rw [← hz, List.take_append_of_le_length ht]
    unfold AsyncWhole.chat
    simp only
    rw [show Tandem.upTransit ⟨{ V.chat with out := o }, V.server, t, 0⟩ = o.wire.drop t from rfl, q4]
    by_cases hd' : o'.sink.buf.data = []
    · rw [if_pos hd']
      have hw' : o'.wire = wholeAsk g.fresh := by
        have := q1.total
        rw [hd', List.append_nil] at this
        exact this
      have ht' := tune_chat h { o' with wire := [] } hc.wire.symm (by rw [hc.data]; exact hd') q1.wf q1.role
      have := Led.awaiting (fresh := g.fresh) _ t ht' ⟨hc.phase, hc.flag, hc.over, hc.read, hc.seen, rfl, hd', hc.up, hc.down⟩
        ⟨hs'.phase, hs'.read, hs'.heard, hs'.wire, hs'.data⟩ (by omega)
      rw [← hw', ← htk] at this
      · have e : ({ V.chat with out := { o' with wire := [] } } : ChatTask).pre o'.wire = { V.chat with out := o' } := by
          simp only [ChatTask.pre, Outbox.pre, List.append_nil]
        rw [e] at this
        exact Leaps.further this (by rw [hw']; omega)
    · rw [if_neg hd']
      have := Led.asking (fresh := g.fresh) V o' t h hc hs' q1 hd' (by omega)
      rw [← htk] at this
      refine ⟨_, _, this, ?_⟩
      by_cases h0 : o'.wire.length = o.wire.length
      · right
        rw [h0]
        refine ⟨rfl, rfl, ?_⟩
        by_cases hlt : t = o.wire.length
        · rw [decide_eq_true hlt]
          cases i with
          | zero => simp [Leads]
          | succ i =>
            cases k with
            | zero => simp [Leads]
            | succ k =>
              intro hru hrd
              rw [List.length_drop] at q2
              omega
        · rw [decide_eq_false hlt]; simp [Leads]
      · left; omega
  | awaiting V t h hc hs' ht =>
    have hB := wholeAnswer_length g.fresh
    obtain ⟨s', e1, e2⟩ := head_poll (reads_answer pres g.fresh) [] (.inl (List.nil_prefix)) 0 (by omega) (by simp) i false (by simp)
    simp only [List.length_nil, Nat.sub_self, Nat.min_zero, Nat.add_zero, List.take_nil, List.drop_nil] at e1 e2
    rw [if_pos (by omega)] at e2
    unfold AsyncWhole.chat
    simp only
    rw [show Tandem.downTransit ⟨V.chat.pre (wholeAsk g.fresh), V.server, t, 0⟩ = [] from hs'.wire, show V.server.phase.isOver = false by rw [hs'.phase]; rfl,
      show (Framed.new () : Framed Unit) = ⟨(), [], false, false⟩ from rfl, e2]
    simp only [e1, Nat.add_zero]
    exact ⟨_, _, Led.awaiting (fresh := g.fresh) V t h hc hs' ht, .inr ⟨rfl, rfl, by simp [Leads]⟩⟩
  | answering V o d h hc hs' ho hd ht =>
    have hlen : o.wire.length < (wholeAnswer g.fresh).length := by
      have := congrArg List.length ho.total
      have := List.length_pos_iff.mpr hd
      simp at *
      omega
    obtain ⟨s', e1, e2⟩ := head_poll (reads_answer pres g.fresh) o.wire (.inl ⟨_, ho.total⟩) d (by omega) ht i false (by simp)
    rw [if_pos (by omega)] at e2
    unfold AsyncWhole.chat
    simp only
    rw [show Tandem.downTransit ⟨V.chat.pre (wholeAsk g.fresh), { V.server with out := o }, (wholeAsk g.fresh).length, d⟩ = o.wire.drop d from rfl,
      show V.server.phase.isOver = false by rw [hs'.phase]; rfl, e2]
    simp only [e1]
    refine ⟨_, _, Led.answering (fresh := g.fresh) V o (d + min i (o.wire.length - d)) h hc hs' ho hd (by omega), ?_⟩
    by_cases h0 : min i (o.wire.length - d) = 0
    · right
      rw [h0]
      refine ⟨rfl, rfl, ?_⟩
      by_cases hte : d < o.wire.length
      · rw [decide_eq_true hte]
        cases i with
        | zero => simp [Leads]
        | succ i => omega
      · rw [decide_eq_false hte]; simp [Leads]
    · left; omega
  | answered V d h hc ht =>
    generalize hw : wholeAnswer g.fresh ++ V.server.out.wire = w
    have hpw : wholeAnswer g.fresh <+: w := by rw [← hw]; exact List.prefix_append _ _
    have hlw := hpw.length_le
    have hlw' := congrArg List.length hw
    rw [List.length_append] at hlw'
    have htk : (wholeAnswer g.fresh).take d = w.take d := by
      rw [← hw, List.take_append_of_le_length (by omega)]
    obtain ⟨s', e1, e2⟩ := head_poll (reads_answer pres g.fresh) w (.inr hpw) d ht (by omega) i V.server.phase.isOver (by
      rintro ⟨-, h0, -⟩
      have := congrArg List.length h0
      simp at this
      omega)
    unfold AsyncWhole.chat
    simp only
    rw [show Tandem.downTransit ⟨V.chat.pre (wholeAsk g.fresh), V.server.pre (wholeAnswer g.fresh), (wholeAsk g.fresh).length, d⟩ = w.drop d by rw [← hw]; rfl,
      show (V.server.pre (wholeAnswer g.fresh)).phase = V.server.phase from rfl, htk, e2]
    by_cases hlt : d + min i (w.length - d) < (wholeAnswer g.fresh).length
    · rw [if_pos hlt]
      simp only [e1]
      have := Led.answered (fresh := g.fresh) V (d + min i (w.length - d)) h hc hlt
      rw [show (wholeAnswer g.fresh).take (d + min i (w.length - d)) = w.take (d + min i (w.length - d)) by
        rw [← hw, List.take_append_of_le_length (by rw [hw]; omega)]] at this
      refine ⟨_, _, this, ?_⟩
      by_cases h0 : min i (w.length - d) = 0
      · right
        rw [h0]
        refine ⟨rfl, rfl, ?_⟩
        cases i with
        | zero => simp [Leads]
        | succ i => omega
      · left; omega
    · rw [if_neg hlt]
      simp only [e1]
      rw [told_valid]
      simp only
      obtain ⟨y, y1, y2, y3⟩ := enter hs h hc (d + min i (w.length - d) - (wholeAnswer g.fresh).length) (by omega)
      have hbuf : (w.take (d + min i (w.length - d))).drop (wholeAnswer g.fresh).length = V.server.out.wire.take (d + min i (w.length - d) - (wholeAnswer g.fresh).length) := by
        rw [List.drop_take, ← hw, List.drop_left]
      have := Led.entered (fresh := g.fresh) y _ y1 y2
      rw [y3] at this
      refine Leaps.further (n' := 2 * (wholeAsk g.fresh).length + 2 * (wholeAnswer g.fresh).length) (who' := some true) ?_ (by omega)
      unfold updateFramedCodec
      rw [hbuf, (chatCall_limits g.fresh).1, (chatCall_limits g.fresh).2]
      simp only [Tandem.pre, hc.up] at this
      rw [Nat.add_zero, show (wholeAnswer g.fresh).length + (d + min i (w.length - d) - (wholeAnswer g.fresh).length) = d + min i (w.length - d) by omega] at this
      simp only [ChatTask.pre] at this ⊢
      exact this
  | entered V fr h hp =>
    have := Led.talking (fresh := g.fresh) (V.step r (.chat i k)) (tune_step hs h _)
    rw [← primed_chat hp r i k, ← step_pre] at this
    exact ⟨_, _, this, .inl (by omega)⟩
  | talking V h =>
    have := Led.talking (fresh := g.fresh) (V.step r (.chat i k)) (tune_step hs h _)
    rw [← step_pre] at this
    exact ⟨_, _, this, .inr ⟨rfl, rfl, by simp [Leads]⟩⟩

theorem lead_step {x : AsyncWhole} {n : Nat} {who : Option Bool} (hs : Suiting lines (min defaultMaxDataframe u32Max) (min defaultMaxDataframe u32Max))
    (h : Led g.fresh lines r x n who) (e : Move) : Leaps g.fresh lines r (x.step preq pres g r e) n who e := by
  cases e with
  | type => exact lead_type hs h
  | chat i k => exact lead_chat hs h i k
  | serve i k => exact lead_serve hs h i k

theorem lead_start : Led g.fresh lines r (AsyncWhole.start g lines) 0 (some true) := by
  have h0 := tandem_start lines defaultMaxDataframe defaultMaxMessage defaultMaxDataframe defaultMaxMessage g.keys g.skeys g.cx g.sx r
  generalize hx : Tandem.start lines defaultMaxDataframe defaultMaxMessage defaultMaxDataframe defaultMaxMessage g.keys g.skeys g.cx g.sx = x at h0
  have hst : AsyncWhole.start g lines = ⟨.asking, .reading (Framed.new ()), { x with chat := { x.chat with out := x.chat.out.head (wholeAsk g.fresh) } }⟩ := by
    unfold AsyncWhole.start
    cases hc : chatCall g.fresh with
    | mk b q =>
      have h1 := chatCall_limits g.fresh
      have h2 := chatCall_fmt g.fresh
      have h3 := chatCall_writable g.fresh
      rw [hc] at h1 h2 h3
      simp only at h1 h2 h3 ⊢
      rw [if_neg (by rw [h3]; simp), h1.1, h1.2, h2, hx]
  have hc : Caller x := by subst hx; constructor <;> rfl
  have hs : Waiter x := by subst hx; constructor <;> rfl
  obtain ⟨d1, d2⟩ := httpEncode_data (wholeAsk g.fresh) x.chat.out.extra x.chat.out.sink.buf
  have hd : (x.chat.out.head (wholeAsk g.fresh)).sink.buf.data = wholeAsk g.fresh := by
    show (httpEncode _ _ _).data = _
    rw [d1, hc.data]
    rfl
  have hw : (x.chat.out.head (wholeAsk g.fresh)).wire = [] := hc.wire
  have := Led.asking (fresh := g.fresh) x (x.chat.out.head (wholeAsk g.fresh)) 0 ⟨_, _, h0⟩ hc hs ⟨by rw [hw, hd]; rfl, d2 h0.up.wf, h0.up.role⟩ (by
    rw [hd]
    intro h
    have := wholeAsk_length g.fresh
    rw [h] at this
    cases this) (Nat.zero_le _)
  rw [hw] at this
  rw [hst]
  have hu := hc.up
  have hdn := hc.down
  obtain ⟨chat, server, up, down⟩ := x
  simp only at hu hdn
  subst hu hdn
  exact this

theorem lead_run {x : AsyncWhole} {n : Nat} {who : Option Bool} (hs : Suiting lines (min defaultMaxDataframe u32Max) (min defaultMaxDataframe u32Max))
    (es : List Move) (h : Led g.fresh lines r x n who) : ∃ n' who', n ≤ n' ∧ Led g.fresh lines r (x.run preq pres g r es) n' who' := by
  induction es generalizing x n who with
  | nil => exact ⟨n, who, Nat.le_refl _, h⟩
  | cons e es ih =>
    obtain ⟨n1, w1, h1, h2⟩ := lead_step (preq := preq) (pres := pres) hs h e
    obtain ⟨n2, w2, h3, h4⟩ := ih h1
    exact ⟨n2, w2, by omega, h4⟩

theorem lead_append (x : AsyncWhole) (es fs : List Move) : x.run preq pres g r (es ++ fs) = (x.run preq pres g r es).run preq pres g r fs := by
  unfold AsyncWhole.run
  rw [List.foldl_append]

omit [B64] in
theorem lead_bound {fresh : WsKey} {x : AsyncWhole} {n : Nat} {who : Option Bool} (h : Led fresh lines r x n who) :
    n ≤ 2 * (wholeAsk fresh).length + 2 * (wholeAnswer fresh).length + 1 ∧ (who = none ↔ n = 2 * (wholeAsk fresh).length + 2 * (wholeAnswer fresh).length + 1) := by
  cases h with
  | asking V o t h hc hs' ho hd ht =>
    have := congrArg List.length ho.total
    rw [List.length_append] at this
    refine ⟨by omega, by simp; omega⟩
  | awaiting V t h hc hs' ht => exact ⟨by omega, by simp; omega⟩
  | answering V o d h hc hs' ho hd ht =>
    have := congrArg List.length ho.total
    rw [List.length_append] at this
    refine ⟨by omega, by simp; omega⟩
  | answered V d h hc ht => exact ⟨by omega, by simp; omega⟩
  | entered V fr h hp => exact ⟨by omega, by simp⟩
  | talking V h => exact ⟨by omega, by simp⟩

/-- Both are through. -/
theorem lead_through (hs : Suiting lines (min defaultMaxDataframe u32Max) (min defaultMaxDataframe u32Max)) (hru : 0 < r.up)
    (hrd : 0 < r.down) {f : Nat → Move} (hf : FairMoves f) :
    ∃ m V, (AsyncWhole.start g lines).run preq pres g r ((List.range m).map f) = ⟨.through, .through, Tandem.pre (wholeAsk g.fresh) (wholeAnswer g.fresh) V⟩ ∧ InTune lines r V := by
  have key : ∀ c m n who, Led g.fresh lines r ((AsyncWhole.start g lines).run preq pres g r ((List.range m).map f)) n who →
      2 * (wholeAsk g.fresh).length + 2 * (wholeAnswer g.fresh).length + 1 - n ≤ c →
      ∃ m' n', Led g.fresh lines r ((AsyncWhole.start g lines).run preq pres g r ((List.range m').map f)) n' none := by
    intro c
    induction c with
    | zero =>
      intro m n who h hc
      obtain ⟨h1, h2⟩ := lead_bound h
      exact ⟨m, n, by rw [← h2.mpr (by omega)]; exact h⟩
    | succ c ih =>
      intro m n who h hc
      by_cases hw : who = none
      · exact ⟨m, n, hw ▸ h⟩
      -- the first helping move
      obtain ⟨q, hq, hl⟩ : ∃ q, m ≤ q ∧ Leads who (f q) := by
        obtain ⟨-, ⟨q1, i1, k1, h1, e1⟩, q2, i2, k2, h2, e2⟩ := hf m
        cases who with
        | none => exact absurd rfl hw
        | some b =>
          cases b with
          | true => exact ⟨q1, h1, by rw [e1]; trivial⟩
          | false => exact ⟨q2, h2, by rw [e2]; trivial⟩
      have walk : ∀ j, m + j ≤ q + 1 → (∃ m' n' who', m' ≤ m + j ∧ n < n' ∧ Led g.fresh lines r ((AsyncWhole.start g lines).run preq pres g r ((List.range m').map f)) n' who') ∨
          (m + j ≤ q ∧ Led g.fresh lines r ((AsyncWhole.start g lines).run preq pres g r ((List.range (m + j)).map f)) n who) := by
        intro j
        induction j with
        | zero => intro _; exact .inr ⟨hq, h⟩
        | succ j ihj =>
          intro hj
          rcases ihj (by omega) with ⟨m', n', who', a1, a2, a3⟩ | ⟨a1, a2⟩
          · exact .inl ⟨m', n', who', by omega, a2, a3⟩
          · obtain ⟨n1, w1, b1, b2⟩ := lead_step (preq := preq) (pres := pres) hs a2 (f (m + j))
            have hrun : (AsyncWhole.start g lines).run preq pres g r ((List.range (m + (j + 1))).map f) =
                ((AsyncWhole.start g lines).run preq pres g r ((List.range (m + j)).map f)).step preq pres g r (f (m + j)) := by
              rw [← Nat.add_assoc, List.range_succ, List.map_append, lead_append]
              rfl
            rw [← hrun] at b1
            rcases b2 with b2 | ⟨b2, b3, b4⟩
            · exact .inl ⟨m + (j + 1), n1, w1, by omega, b2, b1⟩
            · subst b2 b3
              refine .inr ⟨?_, b1⟩
              by_cases he : m + j = q
              · rw [he] at b4
                exact absurd hl (b4 hru hrd)
              · omega
      rcases walk (q + 1 - m) (by omega) with ⟨m', n', who', -, a2, a3⟩ | ⟨a1, -⟩
      · exact ih m' n' who' a3 (by omega)
      · omega
  obtain ⟨m, n, h⟩ := key _ 0 0 (some true) lead_start (Nat.le_refl _)
  generalize hx : (AsyncWhole.start g lines).run preq pres g r ((List.range m).map f) = x at h
  cases h with
  | talking V h => exact ⟨m, V, hx, h⟩

/-- From anywhere, without any typing. -/
theorem lead_on {x : AsyncWhole} {n : Nat} {who : Option Bool} (hs : Suiting lines (min defaultMaxDataframe u32Max) (min defaultMaxDataframe u32Max)) (hru : 0 < r.up)
    (hrd : 0 < r.down) (h : Led g.fresh lines r x n who) :
    ∃ es V, (∀ e ∈ es, e ≠ .type) ∧ x.run preq pres g r es = ⟨.through, .through, Tandem.pre (wholeAsk g.fresh) (wholeAnswer g.fresh) V⟩ ∧ InTune lines r V := by
  have key : ∀ c x n who, Led g.fresh lines r x n who → 2 * (wholeAsk g.fresh).length + 2 * (wholeAnswer g.fresh).length + 1 - n ≤ c →
      ∃ es n', (∀ e ∈ es, e ≠ Move.type) ∧ Led g.fresh lines r (x.run preq pres g r es) n' none := by
    intro c
    induction c with
    | zero =>
      intro x n who h hc
      obtain ⟨h1, h2⟩ := lead_bound h
      exact ⟨[], n, by simp, by rw [← h2.mpr (by omega)]; exact h⟩
    | succ c ih =>
      intro x n who h hc
      by_cases hw : who = none
      · exact ⟨[], n, by simp, hw ▸ h⟩
      obtain ⟨e, hne, hl⟩ : ∃ e, e ≠ Move.type ∧ Leads who e := by
        cases who with
        | none => exact absurd rfl hw
        | some b =>
          cases b with
          | true => exact ⟨.chat 1 1, by simp, trivial⟩
          | false => exact ⟨.serve 1 1, by simp, trivial⟩
      obtain ⟨n1, w1, b1, b2⟩ := lead_step (preq := preq) (pres := pres) hs h e
      rcases b2 with b2 | ⟨-, -, b4⟩
      · obtain ⟨es, n', k1, k2⟩ := ih _ n1 w1 b1 (by omega)
        refine ⟨e :: es, n', ?_, k2⟩
        intro e' he'
        rcases List.mem_cons.mp he' with rfl | he'
        · exact hne
        · exact k1 e' he'
      · exact absurd hl (b4 hru hrd)
  obtain ⟨es, n, h1, h⟩ := key _ x n who h (Nat.le_refl _)
  generalize hx : x.run preq pres g r es = y at h
  cases h with
  | talking V h => exact ⟨es, V, h1, hx, h⟩

omit [B64] in
theorem turn_typed (t : ChatTask) (s : Src) (script : List WEv) : (t.turn s script).1.typed = t.typed := by
  have ha : ∀ (t : ChatTask) p o, (t.after p o).typed = t.typed := by
    intro t p o
    obtain ⟨y, o⟩ := o
    cases y <;> rfl
  unfold ChatTask.turn
  split
  · rfl
  · exact ha _ _ _
  · exact ha _ _ _
  · split
    rename_i y c _
    cases y with
    | notReady => exact ha _ _ _
    | ready z => cases z <;> rfl

/-- Nothing is typed but by typing. -/
theorem step_typed (x : AsyncWhole) {e : Move} (he : e ≠ .type) : (x.step preq pres g r e).tasks.chat.typed = x.tasks.chat.typed := by
  have hasked : ∀ (y : AsyncWhole) m b, (y.asked m b).tasks.chat.typed = y.tasks.chat.typed := by
    intro y m b
    unfold AsyncWhole.asked
    split
    · rfl
    · simp only
      split
      · split
        · split <;> rfl
        · rfl
      · rfl
  cases e with
  | type => exact absurd rfl he
  | chat i k =>
    simp only [AsyncWhole.step, AsyncWhole.chat]
    split
    · split <;> rfl
    · split
      · rfl
      · split <;> rfl
      · rfl
      · rfl
      · rfl
    · exact turn_typed _ _ _
    · rfl
  | serve i k =>
    simp only [AsyncWhole.step, AsyncWhole.serve]
    split
    · split
      · rfl
      · rw [hasked]
      · rfl
    · split
      · split <;> rfl
      · rfl
      · rfl
    · rfl
    · rfl

theorem run_typed (x : AsyncWhole) (es : List Move) (he : ∀ e ∈ es, e ≠ .type) : (x.run preq pres g r es).tasks.chat.typed = x.tasks.chat.typed := by
  induction es generalizing x with
  | nil => rfl
  | cons e es ih =>
    show ((x.step preq pres g r e).run preq pres g r es).tasks.chat.typed = _
    rw [ih _ fun e' h => he e' (List.mem_cons_of_mem _ h), step_typed x (he e List.mem_cons_self)]

omit [B64] in
theorem through_run [B64] (V : Tandem) (a b : Bytes) (es : List Move) :
    AsyncWhole.run preq pres g r ⟨.through, .through, V.pre a b⟩ es = ⟨.through, .through, (V.run r es).pre a b⟩ := by
  induction es generalizing V with
  | nil => rfl
  | cons e es ih =>
    have : AsyncWhole.step preq pres g r ⟨.through, .through, V.pre a b⟩ e = ⟨.through, .through, (V.step r e).pre a b⟩ := by
      rw [← step_pre]
      cases e <;> rfl
    show AsyncWhole.run preq pres g r (AsyncWhole.step preq pres g r ⟨.through, .through, V.pre a b⟩ e) es = _
    rw [this, ih]
    rfl

end

end WS
