import Verif.Model.Whole
import Verif.Lemmas.Live
import Verif.Lemmas.Meeting
import Verif.Props.Inject
import Verif.Props.Mains
/-!
# Lemmas: the chat client and the example server from the first byte on
-/

namespace WS
open Spec

/-! ## The two heads -/

/-- The request. -/
def wholeAsk (fresh : WsKey) : Bytes := Head (requestStart chatUrl) (requestLines chatUrl chatOps fresh)

/-- The answer. -/
def wholeAnswer (fresh : WsKey) : Bytes := head101 .http11 (responseLines [.useProtocol rustWebsocket] none fresh)

theorem rust_plain : PlainItem rustWebsocket := by unfold PlainItem PlainValue; decide +kernel

theorem wholeAsk_sendable (fresh : WsKey) : SendableRequest chatUrl chatOps fresh :=
  C68_plain_request chatUrl chatOps fresh (by intro host h; cases h; unfold PlainValue; decide +kernel)
    (by intro op ho; simp only [chatOps, List.mem_singleton] at ho; subst ho; exact rust_plain) (by decide +kernel)

theorem wholeAnswer_sendable (fresh : WsKey) : SendableResponse [.useProtocol rustWebsocket] none fresh :=
  C68_plain_response [.useProtocol rustWebsocket] none fresh
    (by intro op ho; simp only [List.mem_singleton] at ho; subst ho; exact rust_plain) (by intro c hc; cases hc)

theorem wholeAsk_keyed [B64] (fresh : WsKey) : Asks fresh (requestLines chatUrl chatOps fresh) ∧
    (((Builder.init chatUrl).run chatOps).buildRequest fresh).2.headers.getKey = some fresh :=
  have h := C35_request_asks chatUrl chatOps fresh (by
    intro op ho; simp only [chatOps, List.mem_singleton] at ho; subst ho
    exact ⟨(fun k h => by cases h), (fun v h => by cases h)⟩)
  ⟨h.1, h.2⟩

theorem wholeAnswer_lines (fresh : WsKey) : responseLines [.useProtocol rustWebsocket] none fresh =
    [(nProtocol, rustWebsocket), (nAccept, (WsAccept.new fresh).serialize), (nConnection, ascii "Upgrade"), (nUpgrade, ascii "websocket")] := by
  have key : ∀ a : WsAccept, Headers.wire (((Headers.setAccept a (Upgrade.run (⟨[], ⟨[], ⟨[], []⟩⟩, ⟨.http11, ⟨.get, []⟩, []⟩, ()⟩ : Upgrade Unit)
      [.useProtocol rustWebsocket]).headers).setConnection [ConnOpt.header (ascii "Upgrade")]).setUpgrade [⟨.websocket, none⟩]) =
      [(nProtocol, rustWebsocket), (nAccept, oneLine a.serialize), (nConnection, ascii "Upgrade"), (nUpgrade, ascii "websocket")] := by
    intro a
    have e : (Upgrade.run (⟨[], ⟨[], ⟨[], []⟩⟩, ⟨.http11, ⟨.get, []⟩, []⟩, ()⟩ : Upgrade Unit) [.useProtocol rustWebsocket]).headers =
      [(nProtocol, .typed (.protocol [rustWebsocket]))] := by rfl
    rw [e]
    unfold Headers.setUpgrade Headers.setConnection Headers.setAccept
    have e1 : eqIgnoreCase nProtocol nAccept = false ∧ eqIgnoreCase nProtocol nConnection = false ∧ eqIgnoreCase nAccept nConnection = false ∧
        eqIgnoreCase nProtocol nUpgrade = false ∧ eqIgnoreCase nAccept nUpgrade = false ∧ eqIgnoreCase nConnection nUpgrade = false := by decide +kernel
    rw [insert_absent nAccept _ _ (by simp [e1]), insert_absent nConnection _ _ (by simp [e1]), insert_absent nUpgrade _ _ (by simp [e1])]
    have e2 : HItem.lines (.typed (.protocol [rustWebsocket])) = [rustWebsocket] := by decide +kernel
    have e3 : HItem.lines (.typed (.connection [ConnOpt.header (ascii "Upgrade")])) = [ascii "Upgrade"] := by decide +kernel
    have e4 : HItem.lines (.typed (.upgrade [⟨.websocket, none⟩])) = [ascii "websocket"] := by decide +kernel
    have e5 : HItem.lines (.typed (.accept a)) = [oneLine a.serialize] := rfl
    simp only [Headers.wire, List.cons_append, List.nil_append, List.flatMap_cons, List.flatMap_nil, e2, e3, e4, e5, List.map_cons, List.map_nil]
  have := key (WsAccept.new fresh)
  rw [show oneLine (WsAccept.new fresh).serialize = (WsAccept.new fresh).serialize from b64_one _] at this
  exact this

theorem wholeAsk_length (fresh : WsKey) : (wholeAsk fresh).length = 193 := by
  unfold wholeAsk
  rw [(C78_requests fresh).1]
  unfold chatRequest
  rw [List.length_append, List.length_append, (C31_key_text fresh).2]
  decide +kernel

theorem wholeAnswer_length (fresh : WsKey) : (wholeAnswer fresh).length = 169 := by
  unfold wholeAnswer head101
  rw [wholeAnswer_lines]
  unfold Head
  simp only [List.flatMap_cons, List.flatMap_nil, List.length_append, (C31_accept_text _).2]
  decide +kernel

/-! ## The calls of the handshake -/

/-- What both programs take in one frame. -/
def wholeLimit : Nat := 100 * 2 ^ 20

section
variable [B64] (preq : ReqParser) (pres : ResParser) (g : Given) (lines : List Bytes)

theorem whole_client (hw : g.client.Willing) (h0 : g.client.wire = []) :
    Opens preq pres (.client ((Builder.init chatUrl).run chatOps) g.fresh) g.client (wholeAsk g.fresh) (wholeAsk g.fresh) (wholeAnswer g.fresh) false wholeLimit := by
  have hlen : (head101 .http11 (responseLines [.useProtocol rustWebsocket] none g.fresh)).length ≤ maxBufferSize := by
    show (wholeAnswer g.fresh).length ≤ _
    rw [wholeAnswer_length]; decide
  exact opens_client preq pres g.fresh g.fresh chatUrl chatOps _ (wholeAsk_sendable g.fresh).2 (response_answers _ none g.fresh) (wholeAnswer_sendable g.fresh).1
    (wholeAsk_keyed g.fresh).2 hlen g.client hw h0

theorem whole_target : Target chatUrl.resource := by unfold Target; decide +kernel

theorem whole_server (hw : g.server.Willing) (h0 : g.server.wire = []) :
    Opens preq pres (.server (Upgrade.run · [.useProtocol rustWebsocket]) none defaultMaxDataframe defaultMaxMessage) g.server [] (wholeAnswer g.fresh) (wholeAsk g.fresh) true
      wholeLimit := by
  have hlen : (Head (getLine chatUrl.resource) (requestLines chatUrl chatOps g.fresh)).length ≤ maxBufferSize := by
    show (wholeAsk g.fresh).length ≤ _
    rw [wholeAsk_length]; decide
  exact opens_server preq pres g.fresh chatUrl.resource _ (wholeAnswer_sendable g.fresh).2 (wholeAsk_keyed g.fresh).1 whole_target (wholeAsk_sendable g.fresh).1 hlen
    g.server hw h0 [.useProtocol rustWebsocket] defaultMaxDataframe defaultMaxMessage

include preq pres

/-- The client waits for the rest of the answer. -/
theorem dial_waits (hw : g.client.Willing) (h0 : g.client.wire = []) (s : Src) (z : Bytes) (hs : s.Chunks) (hz : z ≠ []) (hf : s.flat ++ z = wholeAnswer g.fresh) :
    ∃ w, dial pres g lines s false = .dialling s w ∧ w.wire = wholeAsk g.fresh := by
  obtain ⟨h1, h2⟩ := (whole_client preq pres g hw h0).waits s z hs hz hf
  simp only [Opening.attempt] at h1 h2
  unfold dial readable
  simp only [Bool.false_eq_true, if_false]
  cases hx : (((Builder.init chatUrl).run chatOps).connectOn pres g.fresh ⟨s ++ [mark], g.client⟩).1 with
  | client c =>
    rw [hx] at h1 h2
    simp only at h1 h2
    refine ⟨_, ?_, h2⟩
    simp only
    rw [if_pos ⟨trivial, by rw [h1]; simp⟩]
  | err d e =>
    rw [hx] at h1 h2
    cases d with
    | some d =>
      simp only at h1 h2
      refine ⟨_, ?_, h2⟩
      simp only
      rw [if_pos ⟨trivial, by rw [h1]; simp⟩]
    | none => simp at h1
  | panic w => rw [hx] at h1; simp at h1

/-- The client has the whole answer, and what has come behind it. -/
theorem dial_opens (hw : g.client.Willing) (h0 : g.client.wire = []) (s : Src) (y : Bytes) (hs : s.Chunks) (hf : s.flat = wholeAnswer g.fresh ++ y) :
    ∃ cdf cmsg s' w, dial pres g lines s false = .chatting (Chat.start lines (Receiver.newWithLimits false cdf cmsg) s' w g.keys) ∧ min cdf u32Max = wholeLimit ∧
      s'.Clean ∧ s'.flat = y ∧ w.stream.wire = wholeAsk g.fresh ∧ w.sender.mask = true ∧ w.stream.Willing := by
  obtain ⟨h1, c, h2, h3, -, h4, h5, h6⟩ := (whole_client preq pres g hw h0).opens s [mark] y hs hf (.inr rfl)
  have h1 := h1 rfl
  simp only [Opening.attempt] at h1 h2
  unfold dial readable
  simp only [Bool.false_eq_true, if_false]
  cases hx : (((Builder.init chatUrl).run chatOps).connectOn pres g.fresh ⟨s ++ [mark], g.client⟩).1 with
  | client c' =>
    rw [hx] at h1 h2
    simp only [Option.some.injEq] at h1 h2
    subst h2
    obtain ⟨⟨cdf, cmsg, e1, e2⟩, hcl⟩ := h3
    simp only
    rw [if_neg (by rintro ⟨-, q⟩; exact q h1)]
    rcases C30_split_state c' (.ok ()) with ⟨k, hk, -⟩ | ⟨r, w, q1, q2, q3, q4, q5, q6⟩
    · cases hk
    · rw [q1]
      simp only
      refine ⟨cdf, cmsg, c'.stream.src.left, w, ?_, e2.symm, hcl, h4, by rw [q5]; exact h5, by rw [q6]; exact h6.1, by rw [q5]; exact h6.2⟩
      rw [q2, q4, e1]
  | err d e => rw [hx] at h2; cases d <;> simp at h2
  | panic w => rw [hx] at h2; simp at h2

omit preq pres in
/-- An upgrade the server will accept. -/
structure Acceptable (u : SyncUpgrade) : Prop where
  offers : rustWebsocket ∈ u.protocols
  silent : u.stream.output.wire = []
  accepts : ∃ c sdf smsg, SyncUpgrade.accept (Upgrade.useProtocol rustWebsocket u) = .client c ∧ c.receiver = Receiver.newWithLimits true sdf smsg ∧ min sdf u32Max = wholeLimit ∧
    c.stream.src.left.Clean ∧ c.stream.src.left.flat = [] ∧ c.stream.inner.output.wire = wholeAnswer g.fresh ∧ c.sender.mask = false ∧ c.stream.inner.output.Willing

/-- The server waits for the rest of the request. -/
theorem host_waits (hw : g.server.Willing) (h0 : g.server.wire = []) (s : Src) (w : Sink) (hw0 : w.wire = []) (z : Bytes) (hs : s.Chunks) (hz : z ≠ [])
    (hf : s.flat ++ z = wholeAsk g.fresh) : ∃ w', (Host.reading s false w).turn preq g = .reading s false w' ∧ w'.wire = [] := by
  obtain ⟨h1, h2⟩ := (whole_server preq pres g hw h0).waits s z hs hz hf
  simp only [Opening.attempt] at h1 h2
  unfold Host.turn readable
  simp only [Bool.false_eq_true, if_false]
  cases hx : intoWs preq ⟨s ++ [mark], g.server⟩ with
  | ok u =>
    rw [hx] at h1 h2
    simp only at h1 h2
    refine ⟨_, ?_, h2⟩
    simp only
    rw [if_pos ⟨trivial, by rw [h1]; simp⟩]
  | error e =>
    rw [hx] at h1 h2
    simp only at h1 h2
    refine ⟨_, ?_, hw0⟩
    simp only
    rw [if_pos ⟨trivial, by rw [h1]; simp⟩]

/-- The server has the whole request. -/
theorem host_asked (hw : g.server.Willing) (h0 : g.server.wire = []) (s : Src) (w : Sink) (hs : s.Chunks) (hf : s.flat = wholeAsk g.fresh) :
    ∃ u, (Host.reading s false w).turn preq g = .asked u false ∧ Acceptable g u := by
  have hlen : (Head (getLine chatUrl.resource) (requestLines chatUrl chatOps g.fresh)).length ≤ maxBufferSize := by
    show (wholeAsk g.fresh).length ≤ _
    rw [wholeAsk_length]; decide
  obtain ⟨u, h1, h2, h3, h4, h5, h6⟩ := C35_server_takes preq g.fresh chatUrl.resource (requestLines chatUrl chatOps g.fresh) ⟨s, g.server⟩ [] (wholeAsk_keyed g.fresh).1 whole_target
    (wholeAsk_sendable g.fresh).1 hlen hs (by rw [List.append_nil]; exact hf)
  have h1' := (C52_server_answers_at_once preq ⟨s, g.server⟩ [mark]).1 u h1
  have hin : intoWs preq ⟨s ++ [mark], g.server⟩ = .ok { u with stream := u.stream.later [mark] } := h1'
  obtain ⟨k1, c, k2, k3, -, k4, k5, k6⟩ := (whole_server preq pres g hw h0).opens s [mark] [] hs (by rw [List.append_nil]; exact hf) (.inr rfl)
  have k1 := k1 rfl
  simp only [Opening.attempt] at k1 k2
  rw [hin] at k1 k2
  simp only at k1 k2
  refine ⟨{ u with stream := u.stream.later [mark] }, ?_, ?_, ?_, ?_⟩
  · unfold Host.turn readable
    simp only [Bool.false_eq_true, if_false, hin]
    rw [if_neg (by rintro ⟨-, q⟩; exact q k1)]
  · show rustWebsocket ∈ Upgrade.protocols _
    unfold Upgrade.protocols
    simp only
    rw [h2]
    exact chat_offers chatUrl g.fresh
  · show (u.stream.later [mark]).output.wire = []
    rw [show (u.stream.later [mark]).output = u.stream.output from rfl, h5]
    exact h0
  · cases hx : SyncUpgrade.internalAcceptWithLimits (Upgrade.run { u with stream := u.stream.later [mark] } [.useProtocol rustWebsocket]) none defaultMaxDataframe defaultMaxMessage with
    | client c' =>
      rw [hx] at k2
      simp only [Option.some.injEq] at k2
      subst k2
      obtain ⟨⟨sdf, smsg, e1, e2⟩, hcl⟩ := k3
      exact ⟨c', sdf, smsg, hx, e1, e2.symm, hcl, k4, k5, k6.1, k6.2⟩
    | err d e => rw [hx] at k2; simp at k2
    | panic w => rw [hx] at k2; simp at k2

end

/-! ## How far they have come -/

/-- Both are talking. -/
def Duo.whole (x : Duo) : Whole := ⟨.chatting x.chat, .serving x.server, x.cut, x.up, x.down⟩

/-- The server's thread before it can have heard anything; `bs` is the frame of the greeting, when it has been sent. -/
structure Newcomer (ask answer : Bytes) (lines : List Bytes) (t : ServerThread) (bs : List Bytes) : Prop where
  receiver : ∃ sdf smsg, t.receiver = Receiver.newWithLimits true sdf smsg ∧ min sdf u32Max = wholeLimit
  clean : t.input.Clean
  flat : t.input.flat = []
  ended : t.ended = false
  ending : t.ending = none
  heard : t.heard = []
  mask : t.writer.sender.mask = false
  willing : t.writer.stream.Willing
  wire : t.writer.stream.wire = answer ++ bs.flatten
  count : bs.length = t.greeted.toNat
  frames : ∀ (i : Nat) b, bs[i]? = some b → Wire false [(replies lines i).view.spec] b
  says : Says false ((screen []).take t.greeted.toNat) bs.flatten

inductive Come [B64] (g : Given) (lines : List Bytes) : Whole → Nat → Prop
  | quiet (wc ws : Sink) (hc : wc.wire = []) (hs : ws.wire = []) : Come g lines ⟨.dialling [] wc, .reading [] false ws, false, 0, 0⟩ 0
  | asking (wc ws : Sink) (s : Src) (k : Nat) (hc : wc.wire = wholeAsk g.fresh) (hs : ws.wire = []) (hk : k ≤ (wholeAsk g.fresh).length) (hch : s.Chunks)
    (hf : s.flat = (wholeAsk g.fresh).take k) : Come g lines ⟨.dialling [] wc, .reading s false ws, false, k, 0⟩ (1 + k)
  | asked (wc : Sink) (u : SyncUpgrade) (hc : wc.wire = wholeAsk g.fresh) (hu : Acceptable g u) :
    Come g lines ⟨.dialling [] wc, .asked u false, false, (wholeAsk g.fresh).length, 0⟩ (2 + (wholeAsk g.fresh).length)
  | answering (wc : Sink) (s : Src) (t : ServerThread) (bs : List Bytes) (k : Nat) (hc : wc.wire = wholeAsk g.fresh) (ht : Newcomer (wholeAsk g.fresh) (wholeAnswer g.fresh) lines t bs)
    (hk : k ≤ t.writer.stream.wire.length) (hch : s.Chunks) (hf : s.flat = t.writer.stream.wire.take k) :
    Come g lines ⟨.dialling s wc, .serving t, false, (wholeAsk g.fresh).length, k⟩ (3 + (wholeAsk g.fresh).length + min k (wholeAnswer g.fresh).length)
  | talking (x : Duo) (cdf cmsg sdf smsg : Nat) (bu bd : List Bytes) (h1 : min cdf u32Max = wholeLimit) (h2 : min sdf u32Max = wholeLimit)
    (h : DuoInv lines (Receiver.newWithLimits false cdf cmsg) (Receiver.newWithLimits true sdf smsg) x bu bd) (hx : Spelled (wholeAsk g.fresh) (wholeAnswer g.fresh) x) :
    Come g lines x.whole (4 + (wholeAsk g.fresh).length + (wholeAnswer g.fresh).length)

/-- The event that takes them further. -/
def Helps (a b : Nat) (r : Nat) (e : Beat) : Prop :=
  if r = 0 then e = .turn .main
  else if r < 1 + a then ∃ n, e = .up n
  else if r < 3 + a then e = .serve
  else if r < 3 + a + b then ∃ n, e = .down n
  else e = .turn .main

section
variable [B64] (preq : ReqParser) (pres : ResParser) (g : Given) (lines : List Bytes) (r : Room)

theorem step_whole (x : Duo) (e : Beat) : x.whole.step preq pres g lines r e = (x.step r e).whole := by
  have ha : x.whole.allows r e = x.allows r e := by
    rcases e with ⟨_ | _ | _⟩ | _ | _ | _ <;> rfl
  unfold Whole.step Duo.step
  rw [ha]
  by_cases h : x.allows r e
  case neg => rw [if_neg h, if_neg h]
  case pos =>
    rw [if_pos h, if_pos h]
    rcases e with ⟨_ | _ | _⟩ | _ | n | n
    · rfl
    · simp only [Duo.whole, Guest.turn, Duo.receive, true_and]
      by_cases hq : (x.chat.receiver.recvMessage x.chat.input).1 = .err .noData ∧ x.cut = false
      · rw [if_pos hq, if_pos hq]
      · rw [if_neg hq, if_neg hq]; rfl
    · rfl
    · rfl
    · simp only [Duo.carryUp]
      have e1 : x.whole.upTransit = x.upTransit := rfl
      rw [e1]
      by_cases hq : x.upTransit = []
      · rw [if_pos hq, if_pos hq]
        have e2 : x.whole.guest.gone = !(x.chat.talking || x.chat.listening) := rfl
        rw [e2]
        cases x.chat.talking || x.chat.listening <;> rfl
      · rw [if_neg hq, if_neg hq]; rfl
    · simp only [Duo.carryDown]
      have e1 : x.whole.downTransit = x.downTransit := rfl
      rw [e1]
      by_cases hq : x.downTransit = []
      · rw [if_pos hq, if_pos hq]
        have e2 : x.whole.host.gone = x.server.ending.isSome := rfl
        rw [e2]
        cases x.server.ending <;> rfl
      · rw [if_neg hq, if_neg hq]; rfl

/-- The server's thread begins. -/
theorem asked_answers (u : SyncUpgrade) (hu : Acceptable g u) :
    ∃ t, Host.answer g u false = .serving t ∧ Newcomer (wholeAsk g.fresh) (wholeAnswer g.fresh) lines t [] := by
  obtain ⟨h1, -, c, sdf, smsg, h2, h3, h4, h5, h6, h7, h8, h9⟩ := hu
  unfold Host.answer
  rw [if_pos h1, h2]
  exact ⟨_, rfl, ⟨sdf, smsg, h3, h4⟩, h5, h6, rfl, rfl, rfl, h8, h9, by rw [List.flatten_nil, List.append_nil]; exact h7, rfl, fun i b hb => by simp at hb, says_nil _⟩

/-- It greets, or waits. -/
theorem newcomer_turn (hf : ∀ i, (replies lines i).spec.Sendable wholeLimit) {ask answer : Bytes} {t : ServerThread} {bs : List Bytes} (h : Newcomer ask answer lines t bs) :
    ∃ bs', Newcomer ask answer lines t.turn bs' ∧ ∃ z, t.turn.writer.stream.wire = t.writer.stream.wire ++ z := by
  cases hg : t.greeted with
  | false =>
    have hb0 : bs = [] := List.eq_nil_of_length_eq_zero (by rw [h.count, hg]; rfl)
    subst hb0
    obtain ⟨b, w', ks, e, k1, k2, k3, k5⟩ := server_speaks (t := t) (lim := wholeLimit) (by decide) (hf 0) h.mask h.willing
    have k4 : Wire false [(replies lines 0).view.spec] b := says_wire (es := [replies lines 0]) (by simpa using hf 0) (by simpa using k5)
    have et : t.turn = { t with writer := w', keys := ks, greeted := true } := by
      unfold ServerThread.turn
      rw [h.ending, hg]
      simp only [Option.isSome_none, Bool.false_eq_true, if_false, if_true]
      rw [show OwnedMsg.text (ascii "Hello") = replies lines 0 from rfl, e, ← h.ending]
    rw [et]
    refine ⟨[b], ⟨h.receiver, h.clean, h.flat, h.ended, h.ending, h.heard, k1, k2, ?_, rfl, ?_, by simp only [List.flatten_cons, List.flatten_nil, List.append_nil]; exact k5⟩, b, k3⟩
    · show w'.stream.wire = _
      rw [k3, h.wire]; simp
    · intro i b' hb
      cases i with
      | zero => simp at hb; subst hb; exact k4
      | succ i => simp at hb
  | true =>
    obtain ⟨sdf, smsg, e1, e2⟩ := h.receiver
    have et : t.turn = t := by
      unfold ServerThread.turn
      rw [h.ending, hg]
      simp only [Option.isSome_none, Bool.false_eq_true, if_false, Bool.true_eq_false]
      obtain ⟨s', k1, -⟩ := recv_cut (mask := true) (maxDf := sdf) (maxMsg := smsg) h.clean (h.flat ▸ truncated_nil true (min sdf u32Max))
      rw [e1, k1]
      simp only [h.ended, and_self, if_true]
    rw [et]
    exact ⟨bs, h, [], by simp⟩

/-- The client has its connection. -/
theorem newcomer_talks {t : ServerThread} {bs : List Bytes} (h : Newcomer (wholeAsk g.fresh) (wholeAnswer g.fresh) lines t bs) (k : Nat) (hk : k ≤ t.writer.stream.wire.length)
    (hk' : (wholeAnswer g.fresh).length ≤ k) (cr : Receiver) (s : Src) (w : Writer) (hs : s.Clean) (hf : s.flat = bs.flatten.take (k - (wholeAnswer g.fresh).length))
    (h1 : w.stream.wire = wholeAsk g.fresh) (h2 : w.sender.mask = true) (h3 : w.stream.Willing) (keys : Nat → Key4) :
    DuoInv lines cr t.receiver ⟨Chat.start lines cr s w keys, false, t, (wholeAsk g.fresh).length, k⟩ [] bs := by
  have hst : Stays lines 0 := fun i hi => by omega
  exact {
    left := rfl
    typed := rfl
    taken := rfl
    channel := fun _ => rfl
    ahead := Nat.le_refl _
    before := fun n hn => by cases hn
    typing := ⟨fun _ => hst, fun _ => rfl⟩
    talking := ⟨fun _ => hst, fun _ => rfl⟩
    heard := by simp only [h.heard]; rfl
    ending := .inl ⟨by simp only [h.heard]; exact hst, h.ending⟩
    greeted := fun _ => h.heard
    seen := rfl
    listening := ⟨fun _ i hi => (by cases hi), fun _ => rfl⟩
    receiver := rfl
    receiver' := rfl
    up := ⟨rfl, fun i b hb => by simp at hb, ⟨wholeAsk g.fresh, by simp [Chat.start, h1], Nat.le_refl _⟩, by simp [Chat.start, h1], h.clean,
      by simp [Chat.start, h1, h.flat], by simp only [h.heard]; exact Nat.le_refl _⟩
    down := ⟨by simp only [h.heard, h.count]; rfl, h.frames, ⟨wholeAnswer g.fresh, h.wire, hk'⟩, hk, hs, by
      show s.flat ++ t.writer.stream.wire.drop k = _
      rw [hf, h.wire, List.drop_append, List.drop_of_length_le hk', List.nil_append]
      show _ = (bs.drop 0).flatten
      rw [List.take_append_drop, List.drop_zero], Nat.zero_le _⟩
    writer := ⟨h2, h3⟩
    writer' := ⟨h.mask, h.willing⟩
    ended := h.ended
    cut := fun q => by cases q }

/-- The connection is a new one, and takes everything. -/
structure Given.Sound (g : Given) : Prop where
  client : g.client.Willing
  client0 : g.client.wire = []
  server : g.server.Willing
  server0 : g.server.wire = []

theorem step_come (hg : g.Sound) (hf : Fitting lines wholeLimit wholeLimit) {x : Whole} {n : Nat} (h : Come g lines x n) (e : Beat) :
    ∃ n', Come g lines (x.step preq pres g lines r e) n' ∧ n ≤ n' ∧
      (Helps (wholeAsk g.fresh).length (wholeAnswer g.fresh).length n e → n < 4 + (wholeAsk g.fresh).length + (wholeAnswer g.fresh).length → n < n') := by
  have hnil : Src.Chunks ([] : Src) := by intro e he; cases he
  have hreq : 0 < (wholeAsk g.fresh).length := by rw [wholeAsk_length]; decide
  have hres : 0 < (wholeAnswer g.fresh).length := by rw [wholeAnswer_length]; decide
  cases h with
  | quiet wc ws hc hs =>
    have up0 : Whole.upTransit ⟨.dialling [] wc, .reading [] false ws, false, 0, 0⟩ = [] := by simp [Whole.upTransit, Guest.wire, hc]
    have down0 : Whole.downTransit ⟨.dialling [] wc, .reading [] false ws, false, 0, 0⟩ = [] := by simp [Whole.downTransit, Host.wire, hs]
    have np : ∀ e, e ≠ .turn .main → ¬ Helps (wholeAsk g.fresh).length (wholeAnswer g.fresh).length 0 e := by
      intro e he hp
      unfold Helps at hp
      rw [if_pos rfl] at hp
      exact he hp
    rcases e with ⟨_ | _ | _⟩ | _ | m | m
    · obtain ⟨w, h1, h2⟩ := dial_waits preq pres g lines hg.client hg.client0 [] (wholeAnswer g.fresh) hnil (List.length_pos_iff.mp hres) rfl
      refine ⟨1 + 0, ?_, by omega, fun _ _ => by omega⟩
      unfold Whole.step
      rw [if_pos (by simp [Whole.allows, up0])]
      simp only [Guest.turn, if_true]
      rw [h1]
      exact .asking w ws [] 0 h2 hs (Nat.zero_le _) hnil (by simp [Src.flat])
    · refine ⟨0, ?_, by omega, fun q => absurd q (np _ (by decide))⟩
      unfold Whole.step
      rw [if_pos (by simp [Whole.allows])]
      exact .quiet wc ws hc hs
    · refine ⟨0, ?_, by omega, fun q => absurd q (np _ (by decide))⟩
      unfold Whole.step
      rw [if_pos (by simp [Whole.allows, up0])]
      exact .quiet wc ws hc hs
    · obtain ⟨w, h1, h2⟩ := host_waits preq pres g hg.server hg.server0 [] ws hs (wholeAsk g.fresh) hnil (List.length_pos_iff.mp hreq) rfl
      refine ⟨0, ?_, by omega, fun q => absurd q (np _ (by decide))⟩
      unfold Whole.step
      rw [if_pos (by simp [Whole.allows, down0])]
      simp only
      rw [h1]
      exact .quiet wc w hc h2
    · refine ⟨0, ?_, by omega, fun q => absurd q (np _ (by simp))⟩
      unfold Whole.step
      rw [if_pos (by simp [Whole.allows])]
      simp only
      rw [if_pos up0]
      exact .quiet wc ws hc hs
    · refine ⟨0, ?_, by omega, fun q => absurd q (np _ (by simp))⟩
      unfold Whole.step
      rw [if_pos (by simp [Whole.allows, up0])]
      simp only
      rw [if_pos down0]
      exact .quiet wc ws hc hs
  | asking wc ws s k hc hs hk hch hfl =>
    have up0 : Whole.upTransit ⟨.dialling [] wc, .reading s false ws, false, k, 0⟩ = (wholeAsk g.fresh).drop k := by simp [Whole.upTransit, Guest.wire, hc]
    have down0 : Whole.downTransit ⟨.dialling [] wc, .reading s false ws, false, k, 0⟩ = [] := by simp [Whole.downTransit, Host.wire, hs]
    have same : Come g lines ⟨.dialling [] wc, .reading s false ws, false, k, 0⟩ (1 + k) := .asking wc ws s k hc hs hk hch hfl
    have np : Helps (wholeAsk g.fresh).length (wholeAnswer g.fresh).length (1 + k) e → (k < (wholeAsk g.fresh).length → ∃ n, e = .up n) ∧
        (k = (wholeAsk g.fresh).length → e = .serve) := by
      intro hp
      unfold Helps at hp
      rw [if_neg (by omega)] at hp
      by_cases hx : 1 + k < 1 + (wholeAsk g.fresh).length
      · rw [if_pos hx] at hp
        exact ⟨fun _ => hp, fun _ => by omega⟩
      · rw [if_neg hx, if_pos (by omega)] at hp
        exact ⟨fun _ => by omega, fun _ => hp⟩
    have no : (∀ m, e ≠ .up m) → e ≠ .serve → ∀ P : Prop, Helps (wholeAsk g.fresh).length (wholeAnswer g.fresh).length (1 + k) e → P := by
      intro a b P q
      by_cases hx : k < (wholeAsk g.fresh).length
      · obtain ⟨m, h⟩ := (np q).1 hx; exact absurd h (a m)
      · exact absurd ((np q).2 (by omega)) b
    rcases e with ⟨_ | _ | _⟩ | _ | m | m
    · refine ⟨1 + k, ?_, Nat.le_refl _, no (by simp) (by simp) _⟩
      unfold Whole.step
      split
      · obtain ⟨w, h1, h2⟩ := dial_waits preq pres g lines hg.client hg.client0 [] (wholeAnswer g.fresh) hnil (List.length_pos_iff.mp hres) rfl
        simp only [Guest.turn, if_true]
        rw [h1]
        exact .asking w ws s k h2 hs hk hch hfl
      · exact same
    · refine ⟨1 + k, ?_, Nat.le_refl _, no (by simp) (by simp) _⟩
      unfold Whole.step
      split <;> exact same
    · refine ⟨1 + k, ?_, Nat.le_refl _, no (by simp) (by simp) _⟩
      unfold Whole.step
      split <;> exact same
    · by_cases hx : k < (wholeAsk g.fresh).length
      · obtain ⟨w, h1, h2⟩ := host_waits preq pres g hg.server hg.server0 s ws hs ((wholeAsk g.fresh).drop k) hch (by
          intro hd; have := List.drop_eq_nil_iff.mp hd; omega) (by rw [hfl, List.take_append_drop])
        refine ⟨1 + k, ?_, Nat.le_refl _, fun q => ?_⟩
        · unfold Whole.step
          rw [if_pos (by simp [Whole.allows, down0])]
          simp only
          rw [h1]
          exact .asking wc w s k hc h2 hk hch hfl
        · obtain ⟨m, h⟩ := (np q).1 hx; cases h
      · have ek : k = (wholeAsk g.fresh).length := by omega
        subst ek
        obtain ⟨u, h1, h2⟩ := host_asked preq pres g hg.server hg.server0 s ws hch (by rw [hfl, List.take_length])
        refine ⟨2 + (wholeAsk g.fresh).length, ?_, by omega, fun _ _ => by omega⟩
        unfold Whole.step
        rw [if_pos (by simp [Whole.allows, down0])]
        simp only
        rw [h1]
        exact .asked wc u hc h2
    · by_cases hx : k < (wholeAsk g.fresh).length
      · have hne : (wholeAsk g.fresh).drop k ≠ [] := by
          intro hd; have := List.drop_eq_nil_iff.mp hd; omega
        have hne' : ((wholeAsk g.fresh).drop k).take (m + 1) ≠ [] := by
          cases hq : (wholeAsk g.fresh).drop k with
          | nil => exact absurd hq hne
          | cons a l => simp
        have hpos := List.length_pos_iff.mpr hne'
        have hle : (((wholeAsk g.fresh).drop k).take (m + 1)).length ≤ (wholeAsk g.fresh).length - k := by rw [List.length_take, List.length_drop]; omega
        refine ⟨1 + (k + (((wholeAsk g.fresh).drop k).take (m + 1)).length), ?_, by omega, fun _ _ => by omega⟩
        unfold Whole.step
        rw [if_pos (by simp [Whole.allows])]
        simp only [up0]
        rw [if_neg hne]
        exact .asking wc ws _ _ hc hs (by omega) (chunks_snoc hch hne') (by rw [flat_snoc, hfl, take_carried])
      · have hne : (wholeAsk g.fresh).drop k = [] := List.drop_eq_nil_of_le (by omega)
        refine ⟨1 + k, ?_, Nat.le_refl _, fun q => ?_⟩
        · unfold Whole.step
          rw [if_pos (by simp [Whole.allows])]
          simp only [up0]
          rw [if_pos hne]
          exact same
        · have := (np q).2 (by omega); cases this
    · refine ⟨1 + k, ?_, Nat.le_refl _, no (by simp) (by simp) _⟩
      unfold Whole.step
      split
      · simp only [down0]
        exact same
      · exact same
  | asked wc u hc hu =>
    have up0 : Whole.upTransit ⟨.dialling [] wc, .asked u false, false, (wholeAsk g.fresh).length, 0⟩ = [] := by simp [Whole.upTransit, Guest.wire, hc]
    have down0 : Whole.downTransit ⟨.dialling [] wc, .asked u false, false, (wholeAsk g.fresh).length, 0⟩ = [] := by simp [Whole.downTransit, Host.wire, hu.silent]
    have same : Come g lines ⟨.dialling [] wc, .asked u false, false, (wholeAsk g.fresh).length, 0⟩ (2 + (wholeAsk g.fresh).length) := .asked wc u hc hu
    have no : e ≠ .serve → ∀ P : Prop, Helps (wholeAsk g.fresh).length (wholeAnswer g.fresh).length (2 + (wholeAsk g.fresh).length) e → P := by
      intro a P hp
      unfold Helps at hp
      rw [if_neg (by omega), if_neg (by omega), if_pos (by omega)] at hp
      exact absurd hp a
    rcases e with ⟨_ | _ | _⟩ | _ | m | m
    · refine ⟨_, ?_, Nat.le_refl _, no (by simp) _⟩
      unfold Whole.step
      split
      · obtain ⟨w, h1, h2⟩ := dial_waits preq pres g lines hg.client hg.client0 [] (wholeAnswer g.fresh) hnil (List.length_pos_iff.mp hres) rfl
        simp only [Guest.turn, if_true]
        rw [h1]
        exact .asked w u h2 hu
      · exact same
    · refine ⟨_, ?_, Nat.le_refl _, no (by simp) _⟩
      unfold Whole.step
      split <;> exact same
    · refine ⟨_, ?_, Nat.le_refl _, no (by simp) _⟩
      unfold Whole.step
      split <;> exact same
    · obtain ⟨t, h1, h2⟩ := asked_answers g lines u hu
      refine ⟨3 + (wholeAsk g.fresh).length + min 0 (wholeAnswer g.fresh).length, ?_, ?_, fun _ _ => ?_⟩
      · unfold Whole.step
        rw [if_pos (by simp [Whole.allows, down0])]
        simp only [Host.turn]
        rw [h1]
        exact .answering wc [] t [] 0 hc h2 (Nat.zero_le _) hnil (by simp [Src.flat])
      · omega
      · omega
    · refine ⟨_, ?_, Nat.le_refl _, no (by simp) _⟩
      unfold Whole.step
      split
      · simp only [up0]
        exact same
      · exact same
    · refine ⟨_, ?_, Nat.le_refl _, no (by simp) _⟩
      unfold Whole.step
      split
      · simp only [down0]
        exact same
      · exact same
  | answering wc s t bs k hc ht hk hch hfl =>
    have up0 : Whole.upTransit ⟨.dialling s wc, .serving t, false, (wholeAsk g.fresh).length, k⟩ = [] := by simp [Whole.upTransit, Guest.wire, hc]
    have down0 : Whole.downTransit ⟨.dialling s wc, .serving t, false, (wholeAsk g.fresh).length, k⟩ = t.writer.stream.wire.drop k := rfl
    have same : Come g lines ⟨.dialling s wc, .serving t, false, (wholeAsk g.fresh).length, k⟩ (3 + (wholeAsk g.fresh).length + min k (wholeAnswer g.fresh).length) :=
      .answering wc s t bs k hc ht hk hch hfl
    have np : Helps (wholeAsk g.fresh).length (wholeAnswer g.fresh).length (3 + (wholeAsk g.fresh).length + min k (wholeAnswer g.fresh).length) e →
        (k < (wholeAnswer g.fresh).length → ∃ n, e = .down n) ∧ ((wholeAnswer g.fresh).length ≤ k → e = .turn .main) := by
      intro hp
      unfold Helps at hp
      rw [if_neg (by omega), if_neg (by omega), if_neg (by omega)] at hp
      by_cases hx : k < (wholeAnswer g.fresh).length
      · rw [if_pos (by omega)] at hp
        exact ⟨fun _ => hp, fun _ => by omega⟩
      · rw [if_neg (by omega)] at hp
        exact ⟨fun _ => by omega, fun _ => hp⟩
    have no : (∀ m, e ≠ .down m) → e ≠ .turn .main → ∀ P : Prop,
        Helps (wholeAsk g.fresh).length (wholeAnswer g.fresh).length (3 + (wholeAsk g.fresh).length + min k (wholeAnswer g.fresh).length) e → P := by
      intro a b P q
      by_cases hx : k < (wholeAnswer g.fresh).length
      · obtain ⟨m, h⟩ := (np q).1 hx; exact absurd h (a m)
      · exact absurd ((np q).2 (by omega)) b
    rcases e with ⟨_ | _ | _⟩ | _ | m | m
    · have hal : Whole.allows r ⟨.dialling s wc, .serving t, false, (wholeAsk g.fresh).length, k⟩ (.turn .main) = true := by simp [Whole.allows, up0]
      by_cases hx : k < (wholeAnswer g.fresh).length
      · have hf' : s.flat = (wholeAnswer g.fresh).take k := by
          rw [hfl, ht.wire, List.take_append, show k - (wholeAnswer g.fresh).length = 0 by omega]; simp
        obtain ⟨w, h1, h2⟩ := dial_waits preq pres g lines hg.client hg.client0 s ((wholeAnswer g.fresh).drop k) hch (by
          intro hd; have := List.drop_eq_nil_iff.mp hd; omega) (by rw [hf', List.take_append_drop])
        refine ⟨_, ?_, Nat.le_refl _, fun q => ?_⟩
        · unfold Whole.step
          rw [if_pos hal]
          simp only [Guest.turn, if_true]
          rw [h1]
          exact .answering w s t bs k h2 ht hk hch hfl
        · obtain ⟨m, h⟩ := (np q).1 hx; cases h
      · have hf' : s.flat = wholeAnswer g.fresh ++ bs.flatten.take (k - (wholeAnswer g.fresh).length) := by
          rw [hfl, ht.wire, List.take_append, List.take_of_length_le (by omega)]
        obtain ⟨cdf, cmsg, s', w, h1, h2, h3, h4, h5, h6, h7⟩ := dial_opens preq pres g lines hg.client hg.client0 s _ hch hf'
        obtain ⟨sdf, smsg, e1, e2⟩ := ht.receiver
        refine ⟨4 + (wholeAsk g.fresh).length + (wholeAnswer g.fresh).length, ?_, ?_, fun _ _ => ?_⟩
        · have := newcomer_talks g lines ht k hk (by omega) (Receiver.newWithLimits false cdf cmsg) s' w h3 h4 h5 h6 h7 g.keys
          rw [e1] at this
          unfold Whole.step
          rw [if_pos hal]
          simp only [Guest.turn, if_true]
          rw [h1]
          exact .talking _ cdf cmsg sdf smsg _ _ h2 e2 this ⟨⟨[], by rw [List.append_nil]; exact h5, says_nil _⟩, bs.flatten, ht.wire, by
            simp only [ht.heard, List.map_nil, List.length_nil, Nat.add_zero]; exact ht.says⟩
        · omega
        · omega
    · refine ⟨_, ?_, Nat.le_refl _, no (by simp) (by simp) _⟩
      unfold Whole.step
      split <;> exact same
    · refine ⟨_, ?_, Nat.le_refl _, no (by simp) (by simp) _⟩
      unfold Whole.step
      split <;> exact same
    · refine ⟨_, ?_, Nat.le_refl _, no (by simp) (by simp) _⟩
      unfold Whole.step
      split
      · obtain ⟨bs', h1, z, h2⟩ := newcomer_turn lines (replies_sendable hf.down hf.hello) ht
        simp only [Host.turn]
        refine .answering wc s t.turn bs' k hc h1 ?_ hch ?_
        · rw [h2, List.length_append]; omega
        · rw [h2, hfl, List.take_append, show k - t.writer.stream.wire.length = 0 by omega]; simp
      · exact same
    · refine ⟨_, ?_, Nat.le_refl _, no (by simp) (by simp) _⟩
      unfold Whole.step
      split
      · simp only [up0]
        exact same
      · exact same
    · by_cases hx : k < t.writer.stream.wire.length
      · have hne : t.writer.stream.wire.drop k ≠ [] := by
          intro hd; have := List.drop_eq_nil_iff.mp hd; omega
        have hne' : (t.writer.stream.wire.drop k).take (m + 1) ≠ [] := by
          cases hq : t.writer.stream.wire.drop k with
          | nil => exact absurd hq hne
          | cons a l => simp
        have hpos := List.length_pos_iff.mpr hne'
        have hle : ((t.writer.stream.wire.drop k).take (m + 1)).length ≤ t.writer.stream.wire.length - k := by rw [List.length_take, List.length_drop]; omega
        refine ⟨3 + (wholeAsk g.fresh).length + min (k + ((t.writer.stream.wire.drop k).take (m + 1)).length) (wholeAnswer g.fresh).length, ?_, by omega, fun q _ => ?_⟩
        · unfold Whole.step
          rw [if_pos (by simp [Whole.allows, up0])]
          simp only [down0]
          rw [if_neg hne]
          exact .answering wc _ t bs _ hc ht (by omega) (chunks_snoc hch hne') (by rw [flat_snoc, hfl, take_carried])
        · by_cases hy : k < (wholeAnswer g.fresh).length
          · omega
          · have := (np q).2 (by omega); cases this
      · have hne : t.writer.stream.wire.drop k = [] := List.drop_eq_nil_of_le (by omega)
        refine ⟨_, ?_, Nat.le_refl _, fun q => ?_⟩
        · unfold Whole.step
          rw [if_pos (by simp [Whole.allows, up0])]
          simp only [down0]
          rw [if_pos hne]
          have : Host.gone (.serving t) = false := by simp [Host.gone, ht.ending]
          simp only [this]
          exact same
        · have hy : (wholeAnswer g.fresh).length ≤ k := by
            have := congrArg List.length ht.wire
            rw [List.length_append] at this; omega
          have := (np q).2 hy; cases this
  | talking x cdf cmsg sdf smsg bu bd h1 h2 h hx =>
    refine ⟨_, ?_, Nat.le_refl _, fun _ q => absurd q (Nat.lt_irrefl _)⟩
    rw [step_whole]
    have hf' : Fitting lines (min cdf u32Max) (min sdf u32Max) := by rw [h1, h2]; exact hf
    obtain ⟨bu', bd', h3, -⟩ := duo_step hf' r h e
    exact .talking _ cdf cmsg sdf smsg bu' bd' h1 h2 h3 (spelled_step hf' r h hx e)

theorem wrun_append (x : Whole) (a b : List Beat) :
    x.run preq pres g lines r (a ++ b) = (x.run preq pres g lines r a).run preq pres g lines r b := List.foldl_append

theorem run_whole (x : Duo) (es : List Beat) : x.whole.run preq pres g lines r es = (x.run r es).whole := by
  induction es generalizing x with
  | nil => rfl
  | cons e es ih =>
    change (x.whole.step preq pres g lines r e).run preq pres g lines r es = _
    rw [step_whole, ih]
    rfl

theorem run_come (hg : g.Sound) (hf : Fitting lines wholeLimit wholeLimit) (es : List Beat) :
    ∀ {x : Whole} {n : Nat}, Come g lines x n → ∃ n', Come g lines (x.run preq pres g lines r es) n' ∧ n ≤ n' := by
  induction es with
  | nil => intro x n h; exact ⟨n, h, Nat.le_refl _⟩
  | cons e es ih =>
    intro x n h
    obtain ⟨n1, h1, h2, -⟩ := step_come preq pres g lines r hg hf h e
    obtain ⟨n2, h3, h4⟩ := ih h1
    exact ⟨n2, h3, by omega⟩

theorem helps_often {f : Nat → Beat} (hf : FairBeat f) (a b k n : Nat) : ∃ m, n ≤ m ∧ Helps a b k (f m) := by
  unfold Helps
  obtain ⟨h1, ⟨s, s1, s2⟩, ⟨u, l, u1, u2⟩, d, l', d1, d2⟩ := hf n
  obtain ⟨q, q1, q2⟩ := h1 .main
  split
  · exact ⟨q, q1, q2⟩
  · split
    · exact ⟨u, u1, l, u2⟩
    · split
      · exact ⟨s, s1, s2⟩
      · split
        · exact ⟨d, d1, l', d2⟩
        · exact ⟨q, q1, q2⟩

theorem come_grows (hg : g.Sound) (hfit : Fitting lines wholeLimit wholeLimit) {f : Nat → Beat} (hf : FairBeat f) (x : Whole) (k : Nat) :
    ∀ {n c : Nat}, Come g lines (x.run preq pres g lines r ((List.range n).map f)) c →
      4 + (wholeAsk g.fresh).length + (wholeAnswer g.fresh).length ≤ c + k → ∃ n' c', n ≤ n' ∧ Come g lines (x.run preq pres g lines r ((List.range n').map f)) c' ∧
        4 + (wholeAsk g.fresh).length + (wholeAnswer g.fresh).length ≤ c' := by
  induction k with
  | zero => intro n c h hk; exact ⟨n, c, Nat.le_refl _, h, by omega⟩
  | succ k ih =>
    intro n c h hk
    by_cases hc : c < 4 + (wholeAsk g.fresh).length + (wholeAnswer g.fresh).length
    · obtain ⟨m, hm, hp⟩ := helps_often hf (wholeAsk g.fresh).length (wholeAnswer g.fresh).length c n
      obtain ⟨j, rfl⟩ := Nat.exists_eq_add_of_le hm
      obtain ⟨c1, h1, h2⟩ := run_come preq pres g lines r hg hfit ((List.range j).map fun i => f (n + i)) h
      rw [← wrun_append, ← beats_add] at h1
      obtain ⟨c2, h3, h4, h5⟩ := step_come preq pres g lines r hg hfit h1 (f (n + j))
      have e : (x.run preq pres g lines r ((List.range (n + j)).map f)).step preq pres g lines r (f (n + j)) =
          x.run preq pres g lines r ((List.range (n + j + 1)).map f) := by
        rw [beats_add f (n + j) 1, wrun_append]; rfl
      rw [e] at h3
      have hlt : c < c2 := by
        by_cases hx : c1 = c
        · subst hx; exact h5 hp hc
        · omega
      obtain ⟨n', c', k1, k2, k3⟩ := ih h3 (by omega)
      exact ⟨n', c', by omega, k2, k3⟩
    · exact ⟨n, c, Nat.le_refl _, h, by omega⟩

theorem Come.final {x : Whole} {n : Nat} (h : Come g lines x n) (hn : 4 + (wholeAsk g.fresh).length + (wholeAnswer g.fresh).length ≤ n) :
    ∃ (y : Duo) (cdf cmsg sdf smsg : Nat) (bu bd : List Bytes), x = y.whole ∧ min cdf u32Max = wholeLimit ∧ min sdf u32Max = wholeLimit ∧
      DuoInv lines (Receiver.newWithLimits false cdf cmsg) (Receiver.newWithLimits true sdf smsg) y bu bd ∧ Spelled (wholeAsk g.fresh) (wholeAnswer g.fresh) y := by
  cases h with
  | quiet => omega
  | asking => omega
  | asked => omega
  | answering => omega
  | talking y cdf cmsg sdf smsg bu bd h1 h2 h hx => exact ⟨y, cdf, cmsg, sdf, smsg, bu, bd, rfl, h1, h2, h, hx⟩

theorem come_start (hg : g.Sound) : Come g lines (Whole.start g) 0 := .quiet _ _ hg.client0 hg.server0

end

end WS
