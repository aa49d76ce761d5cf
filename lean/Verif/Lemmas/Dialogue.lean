import Verif.Spec.Dialogue
import Verif.Lemmas.Connection
import Verif.Lemmas.Echo
import Verif.Props.Receive
import Verif.Props.EndToEnd
/-!
# Lemmas: two programs and the network between them
-/

namespace WS
open Spec

/-! ## Hearing -/

/-- Bytes a receiving half has taken from the transport and not used yet. -/
def Ear.buf : Ear → Bytes
  | .blocking _ => []
  | .async fr => fr.buf

/-- The receiving half is between messages, reads frames masked as `mask` says with payloads up to `lim`, and what is waiting are chunks. -/
def Ear.Good (mask : Bool) (lim : Nat) : Ear → Src → Prop
  | .blocking r, s => (∃ maxDf maxMsg, r = Receiver.newWithLimits mask maxDf maxMsg ∧ lim = min maxDf u32Max) ∧ s.Clean
  | .async fr, s => (∃ ctx maxDf maxMsg, fr.codec = MsgCodec.newWithLimits ctx maxDf maxMsg ∧ mask = decide (ctx = .server) ∧
      lim = min maxDf u32Max) ∧ s.Chunks ∧ (fr.readable = false → msgDecoder fr.codec fr.buf = (.ok none, fr.codec, fr.buf)) ∧
      (fr.eof = true → fr.readable = true)

/-- It has seen the end. -/
def Ear.deaf : Ear → Bool
  | .blocking _ => false
  | .async fr => fr.eof

def Party.pending (p : Party) : Bytes := p.ear.buf ++ p.arrived.flat

theorem truncated_of_wire {mask : Bool} {lim : Nat} {m : OwnedMsg} (h : m.spec.Sendable lim) {b p q : Bytes}
    (hw : Wire mask [m.view.spec] b) (hb : b = p ++ q) (hq : q ≠ []) : Truncated mask lim p := by
  obtain ⟨h1, h2, h3, h4⟩ := OwnedMsg.carries h
  cases hw with
  | cons hf hk hr =>
    cases hr
    rw [List.append_nil] at hb
    subst hb
    refine ⟨_, _, q, hf, hq, hk, ?_, h2⟩
    intro h8
    refine ⟨?_, rfl⟩
    have := h3 h8
    rw [m.lawful.size_eq] at this
    exact this

theorem decode_truncated (ctx : Context) (maxDf maxMsg : Nat) {p : Bytes}
    (hp : Truncated (decide (ctx = .server)) (min maxDf u32Max) p) :
    msgDecoder (MsgCodec.newWithLimits ctx maxDf maxMsg) p = (.ok none, MsgCodec.newWithLimits ctx maxDf maxMsg, p) := by
  have hc := MsgCodec.wf_new ctx maxDf maxMsg
  obtain ⟨f, key, q, hq1, hq2, hq3, hq4, hq5⟩ := hp
  have hmore := parseFrame_prefix (Nat.lt_of_le_of_lt hc.1 (by decide)) (big := bigErr) hq1 hq2 hq3 hq4 hq5
  unfold msgDecoder
  rw [MsgCodec.decode_eq _ hc.1, pLoop_more (c := (MsgCodec.newWithLimits ctx maxDf maxMsg).cfg) hmore]

theorem decode_whole (ctx : Context) (maxDf maxMsg : Nat) {m : OwnedMsg} (h : m.spec.Sendable (min maxDf u32Max)) {b : Bytes}
    (hw : Wire (decide (ctx = .server)) [m.view.spec] b) (x : Bytes) :
    msgDecoder (MsgCodec.newWithLimits ctx maxDf maxMsg) (b ++ x) = (.ok (some m), MsgCodec.newWithLimits ctx maxDf maxMsg, x) := by
  have hc := MsgCodec.wf_new ctx maxDf maxMsg
  obtain ⟨hd, hl⟩ := msgs_delivers (fits := FitsAsync (min maxMsg u32Max)) [m] (by simpa using h)
  have hi : Incoming (FitsAsync (MsgCodec.newWithLimits ctx maxDf maxMsg).maxMsg)
      (MsgCodec.newWithLimits ctx maxDf maxMsg).df.maxDf (MsgCodec.newWithLimits ctx maxDf maxMsg).df.isServer
      (MsgCodec.newWithLimits ctx maxDf maxMsg).buffer ([m].map fun m => m.view.spec) ([m].map OwnedMsg.spec) [] b :=
    ⟨hw, hl, hd, .inl rfl, by simp [MsgCodec.newWithLimits]⟩
  obtain ⟨fs, b', frames1, bs1, om, h1, h2, h3, h4⟩ := Incoming.step (c := (MsgCodec.newWithLimits ctx maxDf maxMsg).cfg)
    (stepOk_async _ hc.1 hc.2) hi x
  obtain ⟨rfl, rfl⟩ := h4.empty
  obtain rfl := OwnedMsg.spec_inj h3
  exact decode_msg hc h1 h2

/-- `b` is at the front, or it is not all there yet. -/
theorem front_or_cut {a s b x : Bytes} (h : a ++ s = b ++ x) :
    (∃ y, a = b ++ y ∧ y ++ s = x) ∨ (a.length < b.length ∧ ∃ q, b = a ++ q ∧ q ≠ []) := by
  rcases List.append_eq_append_iff.mp h with ⟨q, h1, h2⟩ | ⟨y, h1, h2⟩
  · by_cases hq : q = []
    · subst hq
      exact .inl ⟨[], by simpa using h1.symm, by simpa using h2⟩
    · have : 0 < q.length := List.length_pos_iff.mpr hq
      exact .inr ⟨by rw [h1, List.length_append]; omega, q, h1, hq⟩
  · exact .inl ⟨y, h1, h2.symm⟩

theorem Src.Chunks.tail {e : Ev} {s : Src} (h : Src.Chunks (e :: s)) : Src.Chunks s := fun a ha => h a (List.mem_cons_of_mem _ ha)

theorem left_chunks {s : Src} (h : s.Chunks) : s.left = s := by
  unfold Src.left
  rw [List.filter_eq_self]
  intro e he
  obtain ⟨b, rfl, -⟩ := h e he
  simp

theorem left_chunks_block {s : Src} (h : s.Chunks) : Src.left (s ++ [.error .wouldBlock]) = s := by
  unfold Src.left
  rw [List.filter_append]
  have := left_chunks h
  unfold Src.left at this
  rw [this]
  simp

theorem pollRead_whole (ctx : Context) (maxDf maxMsg : Nat) {m : OwnedMsg} (h : m.spec.Sendable (min maxDf u32Max)) {b : Bytes}
    (hw : Wire (decide (ctx = .server)) [m.view.spec] b) (x : Bytes) (t s : Src) (fr : Framed MsgCodec) (hs : s.Chunks)
    (hc : fr.codec = MsgCodec.newWithLimits ctx maxDf maxMsg) (hx : fr.buf ++ s.flat = b ++ x) (hl : fr.buf.length < b.length) :
    ∃ fr' s', fr.pollRead msgDecoder (s ++ t) = (.ready (.item m), fr', s' ++ t) ∧ fr'.codec = MsgCodec.newWithLimits ctx maxDf maxMsg ∧
      fr'.readable = true ∧ fr'.eof = fr.eof ∧ fr'.buf ++ s'.flat = x ∧ s'.Chunks := by
  induction s generalizing fr with
  | nil =>
    have := congrArg List.length hx
    simp [Src.flat] at this
    omega
  | cons e s ih =>
    obtain ⟨c, rfl, hne⟩ := hs e List.mem_cons_self
    rw [List.cons_append]
    unfold Framed.pollRead
    rw [if_neg hne, hc]
    simp only [Src.flat] at hx
    rw [← List.append_assoc] at hx
    rcases front_or_cut hx with ⟨y, hy, hyx⟩ | ⟨hl', q, hq, hqn⟩
    · rw [hy, decode_whole ctx maxDf maxMsg h hw]
      exact ⟨_, s, rfl, rfl, rfl, rfl, hyx, hs.tail⟩
    · rw [decode_truncated ctx maxDf maxMsg (truncated_of_wire h hw hq hqn)]
      obtain ⟨fr', s', h1, h2, h3, h4, h5, h6⟩ := ih { fr with codec := MsgCodec.newWithLimits ctx maxDf maxMsg, buf := fr.buf ++ c, readable := false }
        hs.tail rfl hx hl'
      exact ⟨fr', s', h1, h2, h3, h4, h5, h6⟩

theorem pollRead_cut (ctx : Context) (maxDf maxMsg : Nat) (s : Src) (fr : Framed MsgCodec) (hs : s.Chunks)
    (hc : fr.codec = MsgCodec.newWithLimits ctx maxDf maxMsg)
    (ht : Truncated (decide (ctx = .server)) (min maxDf u32Max) (fr.buf ++ s.flat)) :
    fr.pollRead msgDecoder (s ++ [.error .wouldBlock]) =
      (.notReady, { fr with codec := MsgCodec.newWithLimits ctx maxDf maxMsg, buf := fr.buf ++ s.flat, readable := if s = [] then fr.readable else false }, []) := by
  induction s generalizing fr with
  | nil =>
    simp only [List.nil_append, Src.flat, List.append_nil, if_true, ← hc]
    unfold Framed.pollRead
    simp
  | cons e s ih =>
    obtain ⟨c, rfl, hne⟩ := hs e List.mem_cons_self
    rw [List.cons_append]
    unfold Framed.pollRead
    rw [if_neg hne, hc]
    simp only [Src.flat] at ht ⊢
    rw [← List.append_assoc] at ht ⊢
    have ht' : Truncated (decide (ctx = .server)) (min maxDf u32Max) (fr.buf ++ c) := by
      obtain ⟨f, key, q, h1, h2, h3⟩ := ht
      rw [List.append_assoc] at h1
      exact ⟨f, key, Src.flat s ++ q, h1, by simp [h2], h3⟩
    rw [decode_truncated ctx maxDf maxMsg ht']
    have := ih { fr with codec := MsgCodec.newWithLimits ctx maxDf maxMsg, buf := fr.buf ++ c, readable := false } hs.tail rfl ht
    simp only at this ⊢
    rw [this]
    simp

theorem hear_message {mask : Bool} {lim : Nat} {p : Party} {ts : List Talk} (ht : p.todo = .hear :: ts) (hg : p.ear.Good mask lim p.arrived)
    (hd : p.ear.deaf = false) {m : OwnedMsg} (hm : m.spec.Sendable lim) {b x : Bytes} (hw : Wire mask [m.view.spec] b)
    (hx : p.pending = b ++ x) :
    ∃ e' s', p.act = { p with todo := ts, ear := e', arrived := s', heard := p.heard ++ [.message m] } ∧ e'.Good mask lim s' ∧
      e'.deaf = false ∧ e'.buf ++ Src.flat s' = x := by
  obtain ⟨todo, ear, voice, arrived, ended, output, carried, heard, sent⟩ := p
  simp only at ht hg hd
  subst ht
  cases ear with
  | blocking r =>
    obtain ⟨⟨maxDf, maxMsg, rfl, rfl⟩, hs⟩ := hg
    obtain ⟨s', h1, h2⟩ := receive_blocking mask maxDf maxMsg [m] (by simpa using hm) hw x arrived hs hx
    have hr := Nat.le_trans (Receiver.wf_new mask maxDf maxMsg).1 (show u32Max ≤ isizeMax by decide)
    obtain ⟨s2, g1, g2, -⟩ := recvMessage_clean _ hr arrived hs
    have e : (Receiver.newWithLimits mask maxDf maxMsg).recvMessage arrived = (.ok m, Receiver.newWithLimits mask maxDf maxMsg, s') := by
      simpa [Receiver.recvMany, Prod.ext_iff] using h1
    have hs' : s'.Clean := by
      rw [e] at g2
      simp only [Prod.mk.injEq] at g2
      rw [g2.2.2]; exact g1
    refine ⟨.blocking (Receiver.newWithLimits mask maxDf maxMsg), s', ?_, ⟨⟨maxDf, maxMsg, rfl, rfl⟩, hs'⟩, rfl, h2⟩
    simp only [Party.act, Party.hearBlocking, e, reduceCtorEq, false_and, if_false, Heard.ofRes]
  | async fr =>
    obtain ⟨⟨ctx, maxDf, maxMsg, hc, rfl, rfl⟩, hs, hi, -⟩ := hg
    simp only [Party.pending, Ear.buf] at hx
    have key : ∀ t : Src, (∀ s' : Src, s'.Chunks → Src.left (s' ++ t) = s') →
        ∃ fr' s', fr.poll msgDecoder (arrived ++ t) = (.ready (.item m), fr', s' ++ t) ∧ fr'.codec = MsgCodec.newWithLimits ctx maxDf maxMsg ∧
          fr'.readable = true ∧ fr'.eof = false ∧ fr'.buf ++ Src.flat s' = x ∧ s'.Chunks := by
      intro t _
      unfold Framed.poll
      by_cases hr : fr.readable = true
      · rw [if_pos hr, if_neg (by simpa [Ear.deaf] using hd), hc]
        rcases front_or_cut hx with ⟨y, hy, hyx⟩ | ⟨hl', q, hq, hqn⟩
        · rw [hy, decode_whole ctx maxDf maxMsg hm hw]
          exact ⟨_, arrived, rfl, rfl, hr, hd, hyx, hs⟩
        · rw [decode_truncated ctx maxDf maxMsg (truncated_of_wire hm hw hq hqn)]
          obtain ⟨fr', s', h1, h2, h3, h4, h5, h6⟩ := pollRead_whole ctx maxDf maxMsg hm hw x t arrived
            { fr with codec := MsgCodec.newWithLimits ctx maxDf maxMsg, readable := false } hs rfl hx hl'
          exact ⟨fr', s', h1, h2, h3, h4.trans hd, h5, h6⟩
      · rw [if_neg hr]
        have hl : fr.buf.length < b.length := by
          rcases front_or_cut hx with ⟨y, hy, hyx⟩ | ⟨hl', -⟩
          · exfalso
            have := hi (by simpa using hr)
            rw [hc, hy, decode_whole ctx maxDf maxMsg hm hw] at this
            simp at this
          · exact hl'
        obtain ⟨fr', s', h1, h2, h3, h4, h5, h6⟩ := pollRead_whole ctx maxDf maxMsg hm hw x t arrived fr hs hc hx hl
        exact ⟨fr', s', h1, h2, h3, h4.trans hd, h5, h6⟩
    cases ended with
    | true =>
      obtain ⟨fr', s', h1, h2, h3, h4, h5, h6⟩ := key [] (fun s' h => by rw [List.append_nil]; exact left_chunks h)
      simp only [List.append_nil] at h1
      refine ⟨.async fr', s', ?_, ⟨⟨ctx, maxDf, maxMsg, h2, rfl, rfl⟩, h6, by simp [h3], by simp [h4]⟩, h4, h5⟩
      simp only [Party.act, Party.hearAsync, Party.readable, if_true, h1, left_chunks h6, Heard.ofItem]
    | false =>
      obtain ⟨fr', s', h1, h2, h3, h4, h5, h6⟩ := key [.error .wouldBlock] (fun s' h => left_chunks_block h)
      refine ⟨.async fr', s', ?_, ⟨⟨ctx, maxDf, maxMsg, h2, rfl, rfl⟩, h6, by simp [h3], by simp [h4]⟩, h4, h5⟩
      simp only [Party.act, Party.hearAsync, Party.readable, Bool.false_eq_true, if_false, h1, left_chunks_block h6, Heard.ofItem]

theorem recv_cut {mask : Bool} {maxDf maxMsg : Nat} {s : Src} (hs : s.Clean) (h : Truncated mask (min maxDf u32Max) s.flat) :
    ∃ s', (Receiver.newWithLimits mask maxDf maxMsg).recvMessage s = (.err .noData, Receiver.newWithLimits mask maxDf maxMsg, s') ∧ s'.Clean ∧
      (s.flat = [] → s'.flat = []) := by
  have hw := (Receiver.wf_new mask maxDf maxMsg).1
  obtain ⟨s', h1, h2, h3⟩ := recvMessage_clean _ (Nat.le_trans hw (show u32Max ≤ isizeMax by decide)) s hs
  obtain ⟨f, key, q, hq1, hq2, hq3, hq4, hq5⟩ := h
  have hmore := parseFrame_prefix (Nat.lt_of_le_of_lt hw (by decide)) (big := (Receiver.newWithLimits mask maxDf maxMsg).cfg.big) hq1 hq2 hq3 hq4 hq5
  have e : (Receiver.newWithLimits mask maxDf maxMsg).recvBytes s.flat = (.err .noData, Receiver.newWithLimits mask maxDf maxMsg, []) := by
    unfold Receiver.recvBytes
    rw [pLoop_more (c := (Receiver.newWithLimits mask maxDf maxMsg).cfg) hmore]
  rw [e] at h2 h3
  exact ⟨s', h2, h1, fun _ => h3⟩

theorem hear_waits {mask : Bool} {lim : Nat} {p : Party} {ts : List Talk} (ht : p.todo = .hear :: ts) (hg : p.ear.Good mask lim p.arrived)
    (hd : p.ear.deaf = false) (he : p.ended = false) (hx : Truncated mask lim p.pending) :
    ∃ e' s', p.act = { p with ear := e', arrived := s' } ∧ e'.Good mask lim s' ∧ e'.deaf = false ∧ e'.buf ++ Src.flat s' = p.pending := by
  obtain ⟨todo, ear, voice, arrived, ended, output, carried, heard, sent⟩ := p
  simp only at ht hg hd he
  subst ht he
  cases ear with
  | blocking r =>
    obtain ⟨⟨maxDf, maxMsg, rfl, rfl⟩, hs⟩ := hg
    obtain ⟨s', h1, -⟩ := recv_cut (maxMsg := maxMsg) hs hx
    refine ⟨.blocking (Receiver.newWithLimits mask maxDf maxMsg), arrived, ?_, ⟨⟨maxDf, maxMsg, rfl, rfl⟩, hs⟩, rfl, rfl⟩
    simp only [Party.act, Party.hearBlocking, h1, and_self, if_true]
  | async fr =>
    obtain ⟨⟨ctx, maxDf, maxMsg, hc, rfl, rfl⟩, hs, hi, -⟩ := hg
    simp only [Party.pending, Ear.buf] at hx
    have hcut : Truncated (decide (ctx = .server)) (min maxDf u32Max) fr.buf := by
      obtain ⟨f, key, q, h1, h2, h3⟩ := hx
      rw [List.append_assoc] at h1
      exact ⟨f, key, Src.flat arrived ++ q, h1, by simp [h2], h3⟩
    have key : ∃ fr', fr.poll msgDecoder (arrived ++ [.error .wouldBlock]) = (.notReady, fr', []) ∧
        fr'.codec = MsgCodec.newWithLimits ctx maxDf maxMsg ∧ fr'.buf = fr.buf ++ Src.flat arrived ∧ fr'.eof = false := by
      unfold Framed.poll
      by_cases hr : fr.readable = true
      · rw [if_pos hr, if_neg (by simpa [Ear.deaf] using hd), hc, decode_truncated ctx maxDf maxMsg hcut]
        simp only
        rw [pollRead_cut ctx maxDf maxMsg arrived { fr with codec := MsgCodec.newWithLimits ctx maxDf maxMsg, readable := false } hs rfl hx]
        exact ⟨_, rfl, rfl, rfl, hd⟩
      · rw [if_neg hr, pollRead_cut ctx maxDf maxMsg arrived _ hs hc hx]
        exact ⟨_, rfl, rfl, rfl, hd⟩
    obtain ⟨fr', h1, h2, h3, h4⟩ := key
    refine ⟨.async fr', [], ?_, ⟨⟨ctx, maxDf, maxMsg, h2, rfl, rfl⟩, by simp [Src.Chunks], ?_, by simp [h4]⟩, h4, ?_⟩
    · simp only [Party.act, Party.hearAsync, Party.readable, Bool.false_eq_true, if_false, h1]
      rfl
    · intro _
      rw [h2, h3]
      exact decode_truncated ctx maxDf maxMsg hx
    · simp [Ear.buf, Party.pending, h3, Src.flat]

theorem hear_end {mask : Bool} {lim : Nat} {p : Party} {ts : List Talk} (ht : p.todo = .hear :: ts) (hg : p.ear.Good mask lim p.arrived)
    (he : p.ended = true) (hx : p.pending = []) :
    ∃ e' s', p.act = { p with todo := ts, ear := e', arrived := s', heard := p.heard ++ [.ended] } ∧ e'.Good mask lim s' ∧
      e'.buf ++ Src.flat s' = [] := by
  obtain ⟨todo, ear, voice, arrived, ended, output, carried, heard, sent⟩ := p
  simp only at ht hg he
  subst ht he
  simp only [Party.pending, List.append_eq_nil_iff] at hx
  cases ear with
  | blocking r =>
    obtain ⟨⟨maxDf, maxMsg, rfl, rfl⟩, hs⟩ := hg
    obtain ⟨s', h1, h2, h3⟩ := recv_cut (maxMsg := maxMsg) hs (hx.2 ▸ truncated_nil mask (min maxDf u32Max))
    refine ⟨.blocking (Receiver.newWithLimits mask maxDf maxMsg), s', ?_, ⟨⟨maxDf, maxMsg, rfl, rfl⟩, h2⟩, by rw [h3 hx.2]; rfl⟩
    simp only [Party.act, Party.hearBlocking, h1, reduceCtorEq, and_false, if_false, Heard.ofRes]
  | async fr =>
    obtain ⟨⟨ctx, maxDf, maxMsg, hc, rfl, rfl⟩, hs, hi, hf⟩ := hg
    have ha : arrived = [] := by
      cases arrived with
      | nil => rfl
      | cons e s =>
        obtain ⟨c, rfl, hne⟩ := hs e List.mem_cons_self
        have := hx.2
        simp only [Src.flat, List.append_eq_nil_iff] at this
        exact absurd this.1 hne
    subst ha
    have hb : fr.buf = [] := hx.1
    have hdec := decode_truncated ctx maxDf maxMsg (truncated_nil (decide (ctx = .server)) (min maxDf u32Max))
    have hpe : ∀ g : Framed MsgCodec, g.codec = MsgCodec.newWithLimits ctx maxDf maxMsg → g.buf = [] →
        Framed.pollEof msgDecoder g = (.done, { g with codec := MsgCodec.newWithLimits ctx maxDf maxMsg, buf := [] }) := by
      intro g h1 h2
      unfold Framed.pollEof
      rw [h1, h2, hdec]
      rfl
    have key : ∃ fr', fr.poll msgDecoder [] = (.ready .done, fr', []) ∧
        fr'.codec = MsgCodec.newWithLimits ctx maxDf maxMsg ∧ fr'.buf = [] ∧ fr'.readable = true := by
      have hread : ∀ g : Framed MsgCodec, g.codec = MsgCodec.newWithLimits ctx maxDf maxMsg → g.buf = [] →
          ∃ fr', g.pollRead msgDecoder [] = (.ready .done, fr', []) ∧
        fr'.codec = MsgCodec.newWithLimits ctx maxDf maxMsg ∧ fr'.buf = [] ∧ fr'.readable = true := by
        intro g h1 h2
        unfold Framed.pollRead
        rw [hpe { g with eof := true, readable := true } h1 h2]
        exact ⟨_, rfl, rfl, rfl, rfl⟩
      unfold Framed.poll
      by_cases hr : fr.readable = true
      · rw [if_pos hr]
        by_cases hee : fr.eof = true
        · rw [if_pos hee, hpe fr hc hb]
          exact ⟨_, rfl, rfl, rfl, hr⟩
        · rw [if_neg hee, hc, hb, hdec]
          exact hread _ rfl rfl
      · rw [if_neg hr]
        exact hread fr hc hb
    obtain ⟨fr', h1, h2, h3, h4⟩ := key
    refine ⟨.async fr', [], ?_, ⟨⟨ctx, maxDf, maxMsg, h2, rfl, rfl⟩, by simp [Src.Chunks], by simp [h4], by simp [h4]⟩, by rw [show Ear.buf (.async fr') = [] from h3]; rfl⟩
    simp only [Party.act, Party.hearAsync, Party.readable, if_true, h1, Heard.ofItem]
    rfl

/-! ## Speaking -/

/-- The sending half masks as `mask` says and the transport takes what it is given. -/
def Voice.Good (mask : Bool) : Voice → Sink → Prop
  | .blocking s, w => s.mask = mask ∧ w.Willing
  | .async fw, w => fw.isServer = !mask ∧ w.Patient ∧ fw.buf.WF ∧ fw.buf.data = []

theorem speaks {mask : Bool} {lim : Nat} (hlim : lim < 2 ^ 63) {p : Party} {ts : List Talk} {m : OwnedMsg} {key : Key4} {extra : Nat}
    (ht : p.todo = .say m key extra :: ts) (hg : p.voice.Good mask p.output) (hm : m.spec.Sendable lim) :
    ∃ v' w' b, p.act = { p with todo := ts, voice := v', output := w', sent := p.sent ++ [true] } ∧ v'.Good mask w' ∧
      w'.wire = p.output.wire ++ b ∧ Wire mask [m.view.spec] b := by
  obtain ⟨todo, ear, voice, arrived, ended, output, carried, heard, sent⟩ := p
  simp only at ht hg
  subst ht
  cases voice with
  | blocking s =>
    obtain ⟨rfl, hw⟩ := hg
    obtain ⟨b, w', h1, h2, h3, h4, h5⟩ := writer_send ⟨output, s⟩ hw hlim hm key
    unfold Writer.send at h1
    simp only at h1
    have hs := says_wire (es := [m]) (by simpa using hm) (by simpa using h5)
    refine ⟨.blocking s, w'.stream, b, ?_, ⟨rfl, h3⟩, h4, hs⟩
    cases hq : s.send m.view key output with
    | mk r w =>
      rw [hq] at h1
      simp only [Prod.mk.injEq] at h1
      obtain ⟨rfl, rfl⟩ := h1
      simp only [Party.act, Party.sayBlocking, hq, decide_true]
  | async fw =>
    obtain ⟨h1, h2, h3, h4⟩ := hg
    obtain ⟨b, fw', w', e0, e1, e2, e3, e4, e5, e6⟩ := sendAwait_patient fw output h2 h3 h4 hm key extra
    have hs : Says mask [m.spec] b := by
      refine says_encode hlim hm mask key ?_
      rw [← e0, h1]
      cases mask <;> rfl
    refine ⟨.async fw', w', b, ?_, ⟨e6.trans h1, e3, e4, e5⟩, e2, says_wire (es := [m]) (by simpa using hm) (by simpa using hs)⟩
    simp only [Party.act, Party.sayAsync, e1, decide_true]

/-! ## The invariant -/

theorem said_append (a b : List Talk) : said (a ++ b) = said a ++ said b := by
  induction a with
  | nil => rfl
  | cons t a ih => cases t <;> simp [said, ih]

theorem hears_append (a b : List Talk) : hears (a ++ b) = hears a + hears b := by
  induction a with
  | nil => simp [hears]
  | cons t a ih => cases t <;> simp [hears, ih] <;> omega

theorem take_next {ts : List Talk} {i : Nat} {t : Talk} (h : ts[i]? = some t) : ts.take (i + 1) = ts.take i ++ [t] := by
  rw [List.take_add_one, h]; rfl

theorem drop_next {ts : List Talk} {i : Nat} {t : Talk} (h : ts[i]? = some t) : ts.drop i = t :: ts.drop (i + 1) := by
  obtain ⟨hl, rfl⟩ := List.getElem?_eq_some_iff.mp h
  exact List.drop_eq_getElem_cons hl

theorem expected_message {ms : List OwnedMsg} {k : Nat} {m : OwnedMsg} (h : ms[k]? = some m) : expected ms (k + 1) = expected ms k ++ [.message m] := by
  obtain ⟨hl, rfl⟩ := List.getElem?_eq_some_iff.mp h
  unfold expected
  rw [List.take_add_one, List.getElem?_eq_getElem hl, Nat.sub_eq_zero_of_le (by omega), Nat.sub_eq_zero_of_le (by omega)]
  simp only [Option.toList_some, List.map_append, List.map_cons, List.map_nil, List.replicate_zero, List.append_nil]

theorem expected_ended {ms : List OwnedMsg} {k : Nat} (h : ms.length ≤ k) : expected ms (k + 1) = expected ms k ++ [.ended] := by
  unfold expected
  rw [List.take_of_length_le (by omega), List.take_of_length_le h, show k + 1 - ms.length = (k - ms.length) + 1 by omega, List.replicate_succ']
  simp

/-- `p`, at call `i` of `mine`, listens to `q`, at call `j` of `theirs`; `bss` are the frames `q` has written. -/
structure Flow (mask : Bool) (lim : Nat) (mine theirs : List Talk) (i j : Nat) (bss : List Bytes) (p q : Party) : Prop where
  count : bss.length = (said (theirs.take j)).length
  frames : ∀ x ∈ (said (theirs.take j)).zip bss, Wire mask [x.1.1.view.spec] x.2
  wire : q.output.wire = bss.flatten
  carried : q.carried ≤ q.output.wire.length
  pend : p.pending ++ q.transit = (bss.drop (hears (mine.take i))).flatten
  heard : p.heard = expected ((said theirs).map Prod.fst) (hears (mine.take i))
  ahead : hears (mine.take i) ≤ bss.length ∨ j = theirs.length
  ended : p.ended = true → j = theirs.length ∧ q.transit = []
  ear : p.ear.Good mask lim p.arrived
  deaf : p.ear.deaf = true → bss.length ≤ hears (mine.take i) ∧ p.ended = true
  todo : q.todo = theirs.drop j
  le : j ≤ theirs.length
  voice : q.voice.Good mask q.output
  sent : q.sent = (said (theirs.take j)).map fun _ => true
  sendable : ∀ x ∈ said theirs, x.1.spec.Sendable lim

/-- There is something to hear: the next frame has been carried over, or the end. -/
def Audible (mine : List Talk) (i : Nat) (bss : List Bytes) (p q : Party) : Prop :=
  (hears (mine.take i) < bss.length ∧ ((bss.take (hears (mine.take i) + 1)).flatten).length ≤ q.carried) ∨
    (bss.length ≤ hears (mine.take i) ∧ p.ended = true)

theorem Flow.pend_length {mask lim mine theirs i j bss p q} (h : Flow mask lim mine theirs i j bss p q) :
    p.pending.length + ((bss.take (hears (mine.take i))).flatten).length = q.carried := by
  have h1 := congrArg List.length h.pend
  have h2 := h.carried
  have h3 := congrArg List.length (List.take_append_drop (hears (mine.take i)) bss)
  have h4 : bss.flatten = (bss.take (hears (mine.take i))).flatten ++ (bss.drop (hears (mine.take i))).flatten := by
    rw [← List.flatten_append, List.take_append_drop]
  have h5 := congrArg List.length h4
  rw [List.length_append] at h1 h5
  rw [h.wire] at h2
  have h6 : q.transit.length = bss.flatten.length - q.carried := by
    unfold Party.transit
    rw [List.length_drop, h.wire]
  omega

/-- What can be heard next, if it has been said. -/
theorem Flow.next {mask lim mine theirs i j bss p q} (h : Flow mask lim mine theirs i j bss p q) (hk : hears (mine.take i) < bss.length) :
    ∃ m b x, ((said theirs).map Prod.fst)[hears (mine.take i)]? = some m ∧ bss[hears (mine.take i)]? = some b ∧ m.spec.Sendable lim ∧
      Wire mask [m.view.spec] b ∧ p.pending ++ q.transit = b ++ x ∧ x = (bss.drop (hears (mine.take i) + 1)).flatten := by
  generalize hk' : hears (mine.take i) = k at *
  have hl : k < (said (theirs.take j)).length := by rw [← h.count]; exact hk
  have hpre : said theirs = said (theirs.take j) ++ said (theirs.drop j) := by
    rw [← said_append, List.take_append_drop]
  have hm : (said theirs)[k]? = some (said (theirs.take j))[k] := by
    rw [hpre, List.getElem?_append_left hl, List.getElem?_eq_getElem hl]
  refine ⟨((said (theirs.take j))[k]).1, bss[k], _, ?_, List.getElem?_eq_getElem hk, ?_, ?_, ?_, rfl⟩
  · rw [List.getElem?_map, hm]; rfl
  · exact h.sendable _ (List.mem_of_getElem? hm)
  · refine h.frames ((said (theirs.take j))[k], bss[k]) ?_
    rw [List.mem_iff_getElem?]
    exact ⟨k, by rw [List.getElem?_zip_eq_some]; exact ⟨List.getElem?_eq_getElem hl, List.getElem?_eq_getElem hk⟩⟩
  · have := h.pend
    rw [hk'] at this
    rw [this, List.drop_eq_getElem_cons hk]
    rfl

theorem act_nil {p : Party} (h : p.todo = []) : p.act = p := by
  obtain ⟨todo, ear, voice, arrived, ended, output, carried, heard, sent⟩ := p
  simp only at h
  subst h
  rfl

/-- One turn of a program. -/
theorem act_flow {mask mask' : Bool} {lim lim' : Nat} (hlim' : lim' < 2 ^ 63) {mine theirs : List Talk} {i j : Nat} {bp bq : List Bytes} {p q : Party}
    (h : Flow mask lim mine theirs i j bq p q) (g : Flow mask' lim' theirs mine j i bp q p) :
    ∃ i' bp', Flow mask lim mine theirs i' j bq p.act q ∧ Flow mask' lim' theirs mine j i' bp' q p.act ∧ bp <+: bp' ∧
      p.act.carried = p.carried ∧ p.act.ended = p.ended ∧ (i' = i ∨ (i' = i + 1 ∧ CanGo mine theirs i j)) ∧
      ((∃ m key extra, mine[i]? = some (.say m key extra)) ∨ (mine[i]? = some .hear ∧ Audible mine i bq p q) → i' = i + 1) := by
  cases hi : mine[i]? with
  | none =>
    have hn : p.todo = [] := by rw [g.todo]; exact List.drop_eq_nil_of_le (List.getElem?_eq_none_iff.mp hi)
    rw [act_nil hn]
    refine ⟨i, bp, h, g, List.prefix_refl _, rfl, rfl, .inl rfl, ?_⟩
    simp
  | some t =>
    have hil : i < mine.length := (List.getElem?_eq_some_iff.mp hi).1
    have hne : q.ended = false := by
      cases hq : q.ended with
      | false => rfl
      | true => have := (g.ended hq).1; omega
    have htodo := g.todo
    rw [drop_next hi] at htodo
    cases t with
    | say m key extra =>
      have hm : (m, key) ∈ said mine := by
        rw [← List.take_append_drop (i + 1) mine, take_next hi, said_append, said_append]
        simp [said]
      obtain ⟨v', w', b, e1, e2, e3, e4⟩ := speaks hlim' htodo g.voice (g.sendable _ hm)
      have ht : said (mine.take (i + 1)) = said (mine.take i) ++ [(m, key)] := by rw [take_next hi, said_append]; rfl
      have hh : hears (mine.take (i + 1)) = hears (mine.take i) := by rw [take_next hi, hears_append]; rfl
      have htr : Party.transit { p with todo := mine.drop (i + 1), voice := v', output := w', sent := p.sent ++ [true] } = p.transit ++ b := by
        unfold Party.transit
        simp only
        rw [e3, List.drop_append_of_le_length g.carried]
      refine ⟨i + 1, bp ++ [b], ?_, ?_, List.prefix_append _ _, by rw [e1], by rw [e1], .inr ⟨rfl, .inl ⟨m, key, extra, hi⟩⟩, fun _ => rfl⟩
      · rw [e1]
        exact ⟨h.count, h.frames, h.wire, h.carried, by rw [hh]; exact h.pend, by rw [hh]; exact h.heard, by rw [hh]; exact h.ahead,
          h.ended, h.ear, by rw [hh]; exact h.deaf, h.todo, h.le, h.voice, h.sent, h.sendable⟩
      · rw [e1]
        have hah : hears (theirs.take j) ≤ bp.length := by
          rcases g.ahead with x | x
          · exact x
          · omega
        refine ⟨by rw [ht]; simp [g.count], ?_, ?_, ?_, ?_, g.heard, .inl (by simp; omega), by simp [hne], g.ear, ?_, rfl, by omega, e2, ?_, g.sendable⟩
        · rw [ht, List.zip_append g.count.symm]
          intro x hx
          rcases List.mem_append.mp hx with hx | hx
          · exact g.frames x hx
          · simp only [List.zip_cons_cons, List.zip_nil_right, List.mem_singleton] at hx
            subst hx
            exact e4
        · simp only [e3, g.wire, List.flatten_append, List.flatten_cons, List.flatten_nil, List.append_nil]
        · simp only [e3, List.length_append]
          have := g.carried
          omega
        · rw [htr, ← List.append_assoc, g.pend, List.drop_append_of_le_length hah]
          simp
        · intro hd
          have := (g.deaf hd).2
          rw [hne] at this
          cases this
        · simp only [ht, List.map_append, g.sent]
          rfl
    | hear =>
      have ht : said (mine.take (i + 1)) = said (mine.take i) := by rw [take_next hi, said_append]; simp [said]
      have hh : hears (mine.take (i + 1)) = hears (mine.take i) + 1 := by rw [take_next hi, hears_append]; rfl
      -- the other direction
      have other : ∀ e' s' hd', Flow mask' lim' theirs mine j (i + 1) bp q
          { p with todo := mine.drop (i + 1), ear := e', arrived := s', heard := hd' } := by
        intro e' s' hd'
        refine ⟨by rw [ht]; exact g.count, by rw [ht]; exact g.frames, g.wire, g.carried, g.pend, g.heard, ?_, by simp [hne], g.ear, g.deaf, rfl, by omega, g.voice,
          by rw [ht]; exact g.sent, g.sendable⟩
        rcases g.ahead with x | x
        · exact .inl x
        · omega
      have other' : ∀ e' s', Flow mask' lim' theirs mine j i bp q { p with ear := e', arrived := s' } := fun e' s' =>
        ⟨g.count, g.frames, g.wire, g.carried, g.pend, g.heard, g.ahead, g.ended, g.ear, g.deaf, g.todo, g.le, g.voice, g.sent, g.sendable⟩
      by_cases hk : hears (mine.take i) < bq.length
      · obtain ⟨m, b, x, n1, n2, n3, n4, n5, n6⟩ := h.next hk
        have hdeaf : p.ear.deaf = false := by
          cases hd : p.ear.deaf with
          | false => rfl
          | true => have := (h.deaf hd).1; omega
        rcases front_or_cut n5 with ⟨y, hy, hyx⟩ | ⟨hl, z, hz, hzn⟩
        · obtain ⟨e', s', e1, e2, e3, e4⟩ := hear_message htodo h.ear hdeaf n3 n4 hy
          refine ⟨i + 1, bp, ?_, by rw [e1]; exact other _ _ _, List.prefix_refl _, by rw [e1], by rw [e1], .inr ⟨rfl, .inr ⟨hi, .inl ?_⟩⟩, fun _ => rfl⟩
          · rw [e1]
            refine ⟨h.count, h.frames, h.wire, h.carried, ?_, ?_, .inl (by omega), h.ended, e2, by simp [e3], h.todo, h.le, h.voice, h.sent, h.sendable⟩
            · rw [hh, ← n6, ← hyx, ← e4]
              rfl
            · rw [hh, expected_message n1, ← h.heard]
          · rw [← h.count]; exact hk
        · have hend : p.ended = false := by
            cases hq : p.ended with
            | false => rfl
            | true =>
              have := congrArg List.length n5
              rw [(h.ended hq).2, List.append_nil, List.length_append] at this
              omega
          obtain ⟨e', s', e1, e2, e3, e4⟩ := hear_waits htodo h.ear hdeaf hend (truncated_of_wire n3 n4 hz hzn)
          refine ⟨i, bp, ?_, by rw [e1]; exact other' _ _, List.prefix_refl _, by rw [e1], by rw [e1], .inl rfl, ?_⟩
          · rw [e1]
            refine ⟨h.count, h.frames, h.wire, h.carried, ?_, h.heard, h.ahead, h.ended, e2, by simp [e3], h.todo, h.le, h.voice, h.sent, h.sendable⟩
            rw [← h.pend, ← e4]
            rfl
          · rintro (⟨m, key, extra, hx⟩ | ⟨-, ⟨-, ha⟩ | ⟨-, ha⟩⟩)
            · cases hx
            · exfalso
              have hp := h.pend_length
              rw [List.take_add_one, n2, List.flatten_append, List.length_append] at ha
              simp only [Option.toList_some, List.flatten_cons, List.flatten_nil, List.append_nil] at ha
              omega
            · rw [hend] at ha; cases ha
      · have hnil : p.pending = [] ∧ q.transit = [] := by
          have := h.pend
          rw [List.drop_eq_nil_of_le (by omega)] at this
          simpa using this
        by_cases hend : p.ended = true
        · obtain ⟨e', s', e1, e2, e3⟩ := hear_end htodo h.ear hend hnil.1
          have hj := (h.ended hend).1
          have hall : ((said theirs).map Prod.fst).length ≤ hears (mine.take i) := by
            have := h.count
            rw [hj, List.take_length] at this
            rw [List.length_map]; omega
          refine ⟨i + 1, bp, ?_, by rw [e1]; exact other _ _ _, List.prefix_refl _, by rw [e1], by rw [e1], .inr ⟨rfl, .inr ⟨hi, .inr hj⟩⟩, fun _ => rfl⟩
          rw [e1]
          refine ⟨h.count, h.frames, h.wire, h.carried, ?_, ?_, .inr hj, h.ended, e2, fun _ => ⟨by omega, hend⟩, h.todo, h.le, h.voice, h.sent, h.sendable⟩
          · rw [hh, List.drop_eq_nil_of_le (as := bq) (by omega), hnil.2]
            simp only [Party.pending, e3]
            rfl
          · rw [hh, expected_ended hall, ← h.heard]
        · have hend : p.ended = false := by simpa using hend
          have hdeaf : p.ear.deaf = false := by
            cases hd : p.ear.deaf with
            | false => rfl
            | true => have := (h.deaf hd).2; rw [hend] at this; cases this
          obtain ⟨e', s', e1, e2, e3, e4⟩ := hear_waits htodo h.ear hdeaf hend (hnil.1 ▸ truncated_nil mask lim)
          refine ⟨i, bp, ?_, by rw [e1]; exact other' _ _, List.prefix_refl _, by rw [e1], by rw [e1], .inl rfl, ?_⟩
          · rw [e1]
            refine ⟨h.count, h.frames, h.wire, h.carried, ?_, h.heard, h.ahead, h.ended, e2, by simp [e3], h.todo, h.le, h.voice, h.sent, h.sendable⟩
            rw [← h.pend, ← e4]
            rfl
          · rintro (⟨m, key, extra, hx⟩ | ⟨-, ⟨ha, -⟩ | ⟨-, ha⟩⟩)
            · cases hx
            · exact absurd ha hk
            · rw [hend] at ha; cases ha

theorem clean_snoc {s : Src} (h : s.Clean) {b : Bytes} (hb : b ≠ []) : Src.Clean (s ++ [.chunk b]) := by
  induction s with
  | nil => exact ⟨hb, trivial⟩
  | cons e s ih =>
    cases e with
    | chunk c => exact ⟨h.1, ih h.2⟩
    | error k => exact ⟨h.1, ih h.2⟩

theorem chunks_snoc {s : Src} (h : s.Chunks) {b : Bytes} (hb : b ≠ []) : Src.Chunks (s ++ [.chunk b]) := by
  intro e he
  rcases List.mem_append.mp he with he | he
  · exact h e he
  · rw [List.mem_singleton] at he
    exact ⟨b, he, hb⟩

theorem flat_snoc (s : Src) (b : Bytes) : Src.flat (s ++ [.chunk b]) = s.flat ++ b := by
  induction s with
  | nil => simp [Src.flat]
  | cons e s ih => cases e <;> simp [Src.flat, ih]

theorem ear_good_snoc {mask : Bool} {lim : Nat} {e : Ear} {s : Src} (h : e.Good mask lim s) {b : Bytes} (hb : b ≠ []) :
    e.Good mask lim (s ++ [.chunk b]) := by
  cases e with
  | blocking r => exact ⟨h.1, clean_snoc h.2 hb⟩
  | async fr => exact ⟨h.1, chunks_snoc h.2.1 hb, h.2.2⟩

/-- The network carries from `q` to `p`. -/
theorem carry_flow {mask mask' : Bool} {lim lim' : Nat} {mine theirs : List Talk} {i j : Nat} {bp bq : List Bytes} {p q : Party} (n : Nat)
    (h : Flow mask lim mine theirs i j bq p q) (g : Flow mask' lim' theirs mine j i bp q p) :
    Flow mask lim mine theirs i j bq (carry n q p).2 (carry n q p).1 ∧ Flow mask' lim' theirs mine j i bp (carry n q p).1 (carry n q p).2 ∧
      (carry n q p).2.carried = p.carried ∧ (carry n q p).1.ended = q.ended ∧ q.carried ≤ (carry n q p).1.carried ∧
      (p.ended = true → (carry n q p).2.ended = true) ∧ (q.carried < q.output.wire.length → q.carried < (carry n q p).1.carried) ∧
      (q.transit = [] → q.todo = [] → (carry n q p).2.ended = true) := by
  unfold carry
  by_cases ht : q.transit = []
  · rw [if_pos ht]
    have hc : ¬ q.carried < q.output.wire.length := by
      have := congrArg List.length ht
      unfold Party.transit at this
      rw [List.length_drop] at this
      simp at this
      omega
    by_cases hd : q.todo = []
    · rw [if_pos hd]
      have hj : j = theirs.length := by
        have := h.todo
        rw [hd] at this
        have := List.drop_eq_nil_iff.mp this.symm
        have := h.le
        omega
      exact ⟨⟨h.count, h.frames, h.wire, h.carried, h.pend, h.heard, h.ahead, fun _ => ⟨hj, ht⟩, h.ear, fun x => ⟨(h.deaf x).1, rfl⟩, h.todo, h.le, h.voice, h.sent,
        h.sendable⟩, ⟨g.count, g.frames, g.wire, g.carried, g.pend, g.heard, g.ahead, g.ended, g.ear, g.deaf, g.todo, g.le, g.voice, g.sent, g.sendable⟩, rfl, rfl,
        Nat.le_refl _, fun _ => rfl, fun x => absurd x hc, fun _ _ => rfl⟩
    · rw [if_neg hd]
      exact ⟨h, g, rfl, rfl, Nat.le_refl _, id, fun x => absurd x hc, fun _ x => absurd x hd⟩
  · rw [if_neg ht]
    have hne : q.transit.take (n + 1) ≠ [] := by
      cases hq : q.transit with
      | nil => exact absurd hq ht
      | cons a l => simp
    have hpos : 0 < (q.transit.take (n + 1)).length := List.length_pos_iff.mpr hne
    have hlen : q.transit.length = q.output.wire.length - q.carried := by unfold Party.transit; rw [List.length_drop]
    have htr : Party.transit { q with carried := q.carried + (q.transit.take (n + 1)).length } = q.transit.drop (n + 1) := by
      show q.output.wire.drop (q.carried + (q.transit.take (n + 1)).length) = _
      rw [← List.drop_drop]
      show q.transit.drop (q.transit.take (n + 1)).length = _
      rw [List.length_take]
      by_cases hx : n + 1 ≤ q.transit.length
      · rw [Nat.min_eq_left hx]
      · rw [Nat.min_eq_right (by omega), List.drop_eq_nil_of_le (Nat.le_refl _), List.drop_eq_nil_of_le (by omega)]
    refine ⟨⟨h.count, h.frames, h.wire, ?_, ?_, h.heard, h.ahead, ?_, ear_good_snoc h.ear hne, h.deaf, h.todo, h.le, h.voice, h.sent, h.sendable⟩,
      ⟨g.count, g.frames, g.wire, g.carried, g.pend, g.heard, g.ahead, g.ended, g.ear, g.deaf, g.todo, g.le, g.voice, g.sent, g.sendable⟩, rfl, rfl,
      Nat.le_add_right _ _, id, fun _ => by simp only; omega, fun x => absurd x ht⟩
    · simp only
      have := h.carried
      have : (q.transit.take (n + 1)).length ≤ q.transit.length := by rw [List.length_take]; omega
      omega
    · rw [htr, ← h.pend]
      simp only [Party.pending, flat_snoc]
      rw [List.append_assoc, List.append_assoc, List.append_assoc, List.take_append_drop]
    · intro x
      exact absurd (h.ended x).2 ht

/-! ## Two programs -/

def Dialogue.swap (d : Dialogue) : Dialogue := ⟨d.server, d.client⟩

def Side.other : Side → Side
  | .client => .server
  | .server => .client

def Happens.swap : Happens → Happens
  | .act w => .act w.other
  | .carry w n => .carry w.other n

theorem step_swap (d : Dialogue) (h : Happens) : d.swap.step h.swap = (d.step h).swap := by
  rcases h with ⟨_ | _⟩ | ⟨_ | _, n⟩ <;> rfl

structure Together (mc ms : Bool) (lc ls : Nat) (cts sts : List Talk) (d : Dialogue) (i j : Nat) (bc bs : List Bytes) : Prop where
  client : Flow mc lc cts sts i j bs d.client d.server
  server : Flow ms ls sts cts j i bc d.server d.client

theorem Together.swap {mc ms lc ls cts sts d i j bc bs} (h : Together mc ms lc ls cts sts d i j bc bs) :
    Together ms mc ls lc sts cts d.swap j i bs bc := ⟨h.server, h.client⟩

structure Later (cts sts : List Talk) (d : Dialogue) (i j : Nat) (bc bs : List Bytes) (d' : Dialogue) (i' j' : Nat) (bc' bs' : List Bytes) : Prop where
  hi : i ≤ i'
  hj : j ≤ j'
  hbc : bc <+: bc'
  hbs : bs <+: bs'
  carried : d.server.carried ≤ d'.server.carried
  carried' : d.client.carried ≤ d'.client.carried
  ended : d.client.ended = true → d'.client.ended = true
  ended' : d.server.ended = true → d'.server.ended = true
  reach : Reach cts sts i j → Reach cts sts i' j'

theorem Later.refl {cts sts d i j bc bs} : Later cts sts d i j bc bs d i j bc bs :=
  ⟨Nat.le_refl _, Nat.le_refl _, List.prefix_refl _, List.prefix_refl _, Nat.le_refl _, Nat.le_refl _, id, id, id⟩

theorem Later.trans {cts sts d i j bc bs d' i' j' bc' bs' d'' i'' j'' bc'' bs''} (h : Later cts sts d i j bc bs d' i' j' bc' bs')
    (g : Later cts sts d' i' j' bc' bs' d'' i'' j'' bc'' bs'') : Later cts sts d i j bc bs d'' i'' j'' bc'' bs'' :=
  ⟨Nat.le_trans h.hi g.hi, Nat.le_trans h.hj g.hj, h.hbc.trans g.hbc, h.hbs.trans g.hbs, Nat.le_trans h.carried g.carried, Nat.le_trans h.carried' g.carried',
    g.ended ∘ h.ended, g.ended' ∘ h.ended', g.reach ∘ h.reach⟩

theorem step_together {mc ms lc ls cts sts d i j bc bs} (hlc : lc < 2 ^ 63) (hls : ls < 2 ^ 63) (h : Together mc ms lc ls cts sts d i j bc bs) (e : Happens) :
    ∃ i' j' bc' bs', Together mc ms lc ls cts sts (d.step e) i' j' bc' bs' ∧ Later cts sts d i j bc bs (d.step e) i' j' bc' bs' := by
  rcases e with ⟨_ | _⟩ | ⟨_ | _, n⟩
  · obtain ⟨i', bp', h1, h2, h3, h4, h5, h6, -⟩ := act_flow hls h.client h.server
    refine ⟨i', j, bp', bs, ⟨h1, h2⟩, ⟨by omega, Nat.le_refl _, h3, List.prefix_refl _, Nat.le_refl _, Nat.le_of_eq h4.symm, fun x => h5.trans x, id, fun x => ?_⟩⟩
    rcases h6 with rfl | ⟨rfl, h6⟩
    · exact x
    · exact .client x h6
  · obtain ⟨i', bp', h1, h2, h3, h4, h5, h6, -⟩ := act_flow hlc h.server h.client
    refine ⟨i, i', bc, bp', ⟨h2, h1⟩, ⟨Nat.le_refl _, by omega, List.prefix_refl _, h3, Nat.le_of_eq h4.symm, Nat.le_refl _, id, fun x => h5.trans x, fun x => ?_⟩⟩
    rcases h6 with rfl | ⟨rfl, h6⟩
    · exact x
    · exact .server x h6
  · obtain ⟨h1, h2, h3, h4, h5, h6, -⟩ := carry_flow n h.server h.client
    exact ⟨i, j, bc, bs, ⟨h2, h1⟩, ⟨Nat.le_refl _, Nat.le_refl _, List.prefix_refl _, List.prefix_refl _, Nat.le_of_eq h3.symm, h5, fun x => h4.trans x, h6, id⟩⟩
  · obtain ⟨h1, h2, h3, h4, h5, h6, -⟩ := carry_flow n h.client h.server
    exact ⟨i, j, bc, bs, ⟨h1, h2⟩, ⟨Nat.le_refl _, Nat.le_refl _, List.prefix_refl _, List.prefix_refl _, h5, Nat.le_of_eq h3.symm, h6, fun x => h4.trans x, id⟩⟩

theorem run_together {mc ms lc ls cts sts} (hlc : lc < 2 ^ 63) (hls : ls < 2 ^ 63) (es : List Happens) :
    ∀ {d i j bc bs}, Together mc ms lc ls cts sts d i j bc bs →
    ∃ i' j' bc' bs', Together mc ms lc ls cts sts (d.run es) i' j' bc' bs' ∧ Later cts sts d i j bc bs (d.run es) i' j' bc' bs' := by
  induction es with
  | nil => intro d i j bc bs h; exact ⟨i, j, bc, bs, h, .refl⟩
  | cons e es ih =>
    intro d i j bc bs h
    obtain ⟨i', j', bc', bs', h1, h2⟩ := step_together hlc hls h e
    obtain ⟨i'', j'', bc'', bs'', g1, g2⟩ := ih h1
    exact ⟨i'', j'', bc'', bs'', g1, h2.trans g2⟩

/-! ## Nobody waits forever -/

/-- The state after `n` steps of an endless schedule. -/
def Dialogue.at (d : Dialogue) (f : Nat → Happens) (n : Nat) : Dialogue := d.run ((List.range n).map f)

theorem at_succ (d : Dialogue) (f : Nat → Happens) (n : Nat) : d.at f (n + 1) = (d.at f n).step (f n) := by
  unfold Dialogue.at Dialogue.run
  rw [List.range_succ, List.map_append, List.foldl_append]
  rfl

theorem at_swap (d : Dialogue) (f : Nat → Happens) (n : Nat) : d.swap.at (fun n => (f n).swap) n = (d.at f n).swap := by
  induction n with
  | zero => rfl
  | succ n ih => rw [at_succ, at_succ, ih, step_swap]

theorem fair_swap {f : Nat → Happens} (h : FairNet f) : FairNet fun n => (f n).swap := by
  intro who n
  obtain ⟨⟨m, h1, h2⟩, ⟨m', k, h3, h4⟩⟩ := h who.other n
  have : who.other.other = who := by cases who <;> rfl
  exact ⟨⟨m, h1, by simp only [h2, Happens.swap, this]⟩, ⟨m', k, h3, by simp only [h4, Happens.swap, this]⟩⟩

theorem at_together {mc ms lc ls cts sts} (hlc : lc < 2 ^ 63) (hls : ls < 2 ^ 63) {d : Dialogue} {f : Nat → Happens} {n : Nat} {i j bc bs}
    (h : Together mc ms lc ls cts sts (d.at f n) i j bc bs) (m : Nat) (hm : n ≤ m) :
    ∃ i' j' bc' bs', Together mc ms lc ls cts sts (d.at f m) i' j' bc' bs' ∧ Later cts sts (d.at f n) i j bc bs (d.at f m) i' j' bc' bs' := by
  obtain ⟨k, rfl⟩ := Nat.exists_eq_add_of_le hm
  induction k with
  | zero => exact ⟨i, j, bc, bs, h, .refl⟩
  | succ k ih =>
    obtain ⟨i', j', bc', bs', h1, h2⟩ := ih (by omega)
    obtain ⟨i'', j'', bc'', bs'', g1, g2⟩ := step_together hlc hls h1 (f (n + k))
    rw [← at_succ] at g1 g2
    exact ⟨i'', j'', bc'', bs'', g1, h2.trans g2⟩

/-- The client gets on eventually. -/
def Moves (mc ms : Bool) (lc ls : Nat) (cts sts : List Talk) (d : Dialogue) (f : Nat → Happens) (n i j : Nat) (bc bs : List Bytes) : Prop :=
  ∃ m i' j' bc' bs', n ≤ m ∧ Together mc ms lc ls cts sts (d.at f m) i' j' bc' bs' ∧ Later cts sts (d.at f n) i j bc bs (d.at f m) i' j' bc' bs' ∧ i < i'

theorem Moves.later {mc ms lc ls cts sts} {d : Dialogue} {f : Nat → Happens} {n m i j bc bs j' bc' bs'} (hm : n ≤ m)
    (hl : Later cts sts (d.at f n) i j bc bs (d.at f m) i j' bc' bs') (h : Moves mc ms lc ls cts sts d f m i j' bc' bs') :
    Moves mc ms lc ls cts sts d f n i j bc bs := by
  obtain ⟨m', i', j'', bc'', bs'', h1, h2, h3, h4⟩ := h
  exact ⟨m', i', j'', bc'', bs'', by omega, h2, hl.trans h3, h4⟩

theorem prefix_take {α} {a b : List α} {n : Nat} (h : a <+: b) (hn : n ≤ a.length) : b.take n = a.take n := by
  obtain ⟨c, rfl⟩ := h
  rw [List.take_append_of_le_length hn]

theorem audible_later {mc ms lc ls cts sts} {d d' : Dialogue} {i j bc bs j' bc' bs'}
    (h : Together mc ms lc ls cts sts d i j bc bs) (h' : Together mc ms lc ls cts sts d' i j' bc' bs')
    (hl : Later cts sts d i j bc bs d' i j' bc' bs') (ha : Audible cts i bs d.client d.server) : Audible cts i bs' d'.client d'.server := by
  rcases ha with ⟨h1, h2⟩ | ⟨h1, h2⟩
  · refine .inl ⟨Nat.lt_of_lt_of_le h1 hl.hbs.length_le, ?_⟩
    rw [prefix_take hl.hbs h1]
    exact Nat.le_trans h2 hl.carried
  · refine .inr ⟨?_, hl.ended h2⟩
    have hj := (h.client.ended h2).1
    have e : j' = j := by have := hl.hj; have := h'.client.le; omega
    rw [h'.client.count, e, ← h.client.count]
    exact h1

theorem audible_moves {mc ms lc ls cts sts} (hlc : lc < 2 ^ 63) (hls : ls < 2 ^ 63) {d : Dialogue} {f : Nat → Happens} (hf : FairNet f) {n : Nat} {i j bc bs}
    (h : Together mc ms lc ls cts sts (d.at f n) i j bc bs)
    (ha : (∃ m key extra, cts[i]? = some (.say m key extra)) ∨
      (cts[i]? = some .hear ∧ Audible cts i bs (d.at f n).client (d.at f n).server)) : Moves mc ms lc ls cts sts d f n i j bc bs := by
  obtain ⟨⟨m, hm, hfm⟩, -⟩ := hf .client n
  obtain ⟨i', j', bc', bs', h1, h2⟩ := at_together hlc hls h m hm
  by_cases hi : i < i'
  · exact ⟨m, i', j', bc', bs', hm, h1, h2, hi⟩
  · have : i' = i := by have := h2.hi; omega
    subst this
    obtain ⟨i'', bp'', g1, g2, g3, g4, g5, g6, g7⟩ := act_flow hls h1.client h1.server
    have e := g7 (by
      rcases ha with ha | ⟨ha, hb⟩
      · exact .inl ha
      · exact .inr ⟨ha, audible_later h h1 h2 hb⟩)
    subst e
    refine ⟨m + 1, i' + 1, j', bp'', bs', by omega, ?_, ?_, by omega⟩
    · rw [at_succ, hfm]; exact ⟨g1, g2⟩
    · rw [at_succ, hfm]
      refine h2.trans ⟨by omega, Nat.le_refl _, g3, List.prefix_refl _, Nat.le_refl _, Nat.le_of_eq g4.symm, fun x => g5.trans x, id, fun x => ?_⟩
      rcases g6 with g6 | ⟨-, g6⟩
      · omega
      · exact .client x g6

theorem gap_moves {mc ms lc ls cts sts} (hlc : lc < 2 ^ 63) (hls : ls < 2 ^ 63) {d : Dialogue} {f : Nat → Happens} (hf : FairNet f) (g : Nat) :
    ∀ {n : Nat} {i j bc bs}, Together mc ms lc ls cts sts (d.at f n) i j bc bs → cts[i]? = some .hear → hears (cts.take i) < bs.length →
    ((bs.take (hears (cts.take i) + 1)).flatten).length ≤ (d.at f n).server.carried + g → Moves mc ms lc ls cts sts d f n i j bc bs := by
  induction g with
  | zero =>
    intro n i j bc bs h hi hk hg
    exact audible_moves hlc hls hf h (.inr ⟨hi, .inl ⟨hk, hg⟩⟩)
  | succ g ih =>
    intro n i j bc bs h hi hk hg
    obtain ⟨-, m, k, hm, hfm⟩ := hf .server n
    obtain ⟨i', j', bc', bs', h1, h2⟩ := at_together hlc hls h m hm
    by_cases hi' : i < i'
    · exact ⟨m, i', j', bc', bs', hm, h1, h2, hi'⟩
    · have : i' = i := by have := h2.hi; omega
      subst this
      have hk' : hears (cts.take i') < bs'.length := Nat.lt_of_lt_of_le hk h2.hbs.length_le
      have ht := prefix_take (n := hears (cts.take i') + 1) h2.hbs hk
      obtain ⟨g1, g2, g3, g4, g5, g6, g7, -⟩ := carry_flow k h1.client h1.server
      refine Moves.later (m := m + 1) (by omega) (h2.trans (j'' := j') (bc'' := bc') (bs'' := bs') ?_) (ih ?_ hi hk' ?_)
      · rw [at_succ, hfm]
        exact ⟨Nat.le_refl _, Nat.le_refl _, List.prefix_refl _, List.prefix_refl _, g5, Nat.le_of_eq g3.symm, g6, fun x => g4.trans x, id⟩
      · rw [at_succ, hfm]
        exact ⟨g1, g2⟩
      · rw [at_succ, hfm, ht]
        show _ ≤ (carry k (d.at f m).server (d.at f m).client).1.carried + g
        by_cases hw : (d.at f m).server.carried < (d.at f m).server.output.wire.length
        · have := g7 hw
          have := h2.carried
          omega
        · have e : ((bs'.take (hears (cts.take i') + 1)).flatten).length ≤ (d.at f m).server.output.wire.length := by
            rw [h1.client.wire, ← List.take_append_drop (hears (cts.take i') + 1) bs', List.flatten_append, List.take_append_drop, List.length_append]
            omega
          rw [ht] at e
          omega

/-- A program that can go on does. -/
theorem client_moves {mc ms lc ls cts sts} (hlc : lc < 2 ^ 63) (hls : ls < 2 ^ 63) {d : Dialogue} {f : Nat → Happens} (hf : FairNet f) {n : Nat} {i j bc bs}
    (h : Together mc ms lc ls cts sts (d.at f n) i j bc bs) (hgo : CanGo cts sts i j) : Moves mc ms lc ls cts sts d f n i j bc bs := by
  rcases hgo with hs | ⟨hi, hgo⟩
  · exact audible_moves hlc hls hf h (.inl hs)
  · by_cases hk : hears (cts.take i) < bs.length
    · exact gap_moves hlc hls hf ((bs.take (hears (cts.take i) + 1)).flatten).length h hi hk (by omega)
    · have hj : j = sts.length := by
        rcases hgo with x | x
        · rw [← h.client.count] at x; exact absurd x hk
        · exact x
      obtain ⟨-, m, k, hm, hfm⟩ := hf .server n
      obtain ⟨i', j', bc', bs', h1, h2⟩ := at_together hlc hls h m hm
      by_cases hi' : i < i'
      · exact ⟨m, i', j', bc', bs', hm, h1, h2, hi'⟩
      · have : i' = i := by have := h2.hi; omega
        subst this
        have ej : j' = j := by have := h2.hj; have := h1.client.le; omega
        subst ej
        have hb : bs'.length = bs.length := by rw [h1.client.count, ← h.client.count]
        have htr : (d.at f m).server.transit = [] := by
          have := h1.client.pend
          rw [List.drop_eq_nil_of_le (as := bs') (by omega)] at this
          exact (List.append_eq_nil_iff.mp this).2
        have htd : (d.at f m).server.todo = [] := by rw [h1.client.todo, hj, List.drop_length]
        obtain ⟨g1, g2, g3, g4, g5, g6, g7, g8⟩ := carry_flow k h1.client h1.server
        refine Moves.later (m := m + 1) (by omega) (h2.trans (j'' := j') (bc'' := bc') (bs'' := bs') ?_) (audible_moves hlc hls hf ?_ (.inr ⟨hi, .inr ⟨by omega, ?_⟩⟩))
        · rw [at_succ, hfm]
          exact ⟨Nat.le_refl _, Nat.le_refl _, List.prefix_refl _, List.prefix_refl _, g5, Nat.le_of_eq g3.symm, g6, fun x => g4.trans x, id⟩
        · rw [at_succ, hfm]
          exact ⟨g1, g2⟩
        · rw [at_succ, hfm]
          exact g8 htr htd

theorem server_moves {mc ms lc ls cts sts} (hlc : lc < 2 ^ 63) (hls : ls < 2 ^ 63) {d : Dialogue} {f : Nat → Happens} (hf : FairNet f) {n : Nat} {i j bc bs}
    (h : Together mc ms lc ls cts sts (d.at f n) i j bc bs) (hgo : CanGo sts cts j i) :
    ∃ m i' j' bc' bs', n ≤ m ∧ Together mc ms lc ls cts sts (d.at f m) i' j' bc' bs' ∧ i ≤ i' ∧ j < j' := by
  have h' := h.swap
  rw [← at_swap] at h'
  obtain ⟨m, j', i', bs', bc', h1, h2, h3, h4⟩ := client_moves hls hlc (fair_swap hf) h' hgo
  rw [at_swap] at h2
  exact ⟨m, i', j', bc', bs', h1, h2.swap, h3.hj, h4⟩

/-! ## Programs that fit together -/

theorem said_mono {ts : List Talk} {j j' : Nat} (h : j ≤ j') : (said (ts.take j)).length ≤ (said (ts.take j')).length := by
  obtain ⟨k, rfl⟩ := Nat.exists_eq_add_of_le h
  rw [List.take_add, said_append, List.length_append]
  omega

theorem CanGo.mono {mine theirs : List Talk} {i j j' : Nat} (h : CanGo mine theirs i j) (hj : j ≤ j') (hl : j' ≤ theirs.length) : CanGo mine theirs i j' := by
  rcases h with h | ⟨h, g | g⟩
  · exact .inl h
  · exact .inr ⟨h, .inl (Nat.lt_of_lt_of_le g (said_mono hj))⟩
  · exact .inr ⟨h, .inr (by omega)⟩

theorem matched_goes {cts sts : List Talk} {a b : Nat} (h : Reach cts sts a b) {i j : Nat} (hi : i ≤ cts.length) (hj : j ≤ sts.length) :
    (a ≤ i ∧ b ≤ j) ∨ CanGo cts sts i j ∨ CanGo sts cts j i := by
  induction h with
  | start => exact .inl ⟨Nat.zero_le _, Nat.zero_le _⟩
  | @client a b _ hg ih =>
    rcases ih with ⟨h1, h2⟩ | h
    · by_cases hx : a + 1 ≤ i
      · exact .inl ⟨hx, h2⟩
      · have : a = i := by omega
        subst this
        exact .inr (.inl (hg.mono h2 hj))
    · exact .inr h
  | @server a b _ hg ih =>
    rcases ih with ⟨h1, h2⟩ | h
    · by_cases hx : b + 1 ≤ j
      · exact .inl ⟨h1, hx⟩
      · have : b = j := by omega
        subst this
        exact .inr (.inr (hg.mono h1 hi))
    · exact .inr h

theorem matched_ends {mc ms lc ls cts sts} (hlc : lc < 2 ^ 63) (hls : ls < 2 ^ 63) {d : Dialogue} {f : Nat → Happens} (hf : FairNet f) (hm : Matched cts sts)
    (g : Nat) : ∀ {n i j bc bs}, Together mc ms lc ls cts sts (d.at f n) i j bc bs → cts.length + sts.length ≤ i + j + g →
    ∃ m bc' bs', n ≤ m ∧ Together mc ms lc ls cts sts (d.at f m) cts.length sts.length bc' bs' := by
  induction g with
  | zero =>
    intro n i j bc bs h hg
    have h1 := h.server.le
    have h2 := h.client.le
    have e1 : i = cts.length := by omega
    have e2 : j = sts.length := by omega
    subst e1 e2
    exact ⟨n, bc, bs, Nat.le_refl _, h⟩
  | succ g ih =>
    intro n i j bc bs h hg
    rcases matched_goes hm h.server.le h.client.le with ⟨h1, h2⟩ | h1 | h1
    · have e1 : i = cts.length := by have := h.server.le; omega
      have e2 : j = sts.length := by have := h.client.le; omega
      subst e1 e2
      exact ⟨n, bc, bs, Nat.le_refl _, h⟩
    · obtain ⟨m, i', j', bc', bs', k1, k2, k3, k4⟩ := client_moves hlc hls hf h h1
      obtain ⟨m', bc'', bs'', l1, l2⟩ := ih k2 (by have := k3.hj; omega)
      exact ⟨m', bc'', bs'', by omega, l2⟩
    · obtain ⟨m, i', j', bc', bs', k1, k2, k3, k4⟩ := server_moves hlc hls hf h h1
      obtain ⟨m', bc'', bs'', l1, l2⟩ := ih k2 (by omega)
      exact ⟨m', bc'', bs'', by omega, l2⟩

end WS
