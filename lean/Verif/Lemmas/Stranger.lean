import Verif.Lemmas.Adaptive
import Verif.Lemmas.Prompt
import Verif.Lemmas.Gone
import Verif.Lemmas.Many
import Verif.Lemmas.Heard
import Verif.Lemmas.Limits
import Verif.Spec.Stranger
/-!
# Lemmas for C83
-/

namespace WS
open Spec

/-! ## Hearing, as a function of all the bytes to come -/

/-- What a receiving half remembers. -/
inductive Mind
  | blocking (r : Receiver)
  | async (c : MsgCodec)

def Mind.next : Mind → Bytes → Heard × Mind × Bytes
  | .blocking r, bs => (.ofRes (r.recvBytes bs).1, .blocking (r.recvBytes bs).2.1, (r.recvBytes bs).2.2)
  | .async c, bs => (.ofItem (decNext msgDecoder c bs).1, .async (decNext msgDecoder c bs).2.1, (decNext msgDecoder c bs).2.2)

def Mind.hears : Nat → Mind → Bytes → Heard
  | 0, m, bs => (m.next bs).1
  | n + 1, m, bs => Mind.hears n (m.next bs).2.1 (m.next bs).2.2

/-- The message limit of the async codec plays no part. -/
def Mind.Calm : Mind → Bytes → Prop
  | .blocking _, _ => True
  | .async c, bs => ∀ n, GoodMany msgDecoder (fun r => r ≠ .err msgLimitErr) n c bs

def Ear.mind : Ear → Mind
  | .blocking r => .blocking r
  | .async fr => .async fr.codec

/-- A receiving half as one can find it. -/
def Ear.Sane (ended : Bool) : Ear → Src → Prop
  | .blocking r, s => r.maxDf ≤ isizeMax ∧ s.Clean
  | .async fr, s => fr.codec.df.maxDf ≤ u32Max ∧ s.Chunks ∧
      ((fr.eof = false ∧ (fr.readable = false → msgDecoder fr.codec fr.buf = (.ok none, fr.codec, fr.buf))) ∨
        (ended = true ∧ fr.eof = true ∧ fr.readable = true ∧ s = []))

theorem ready_of_chunks {s : Src} (h : s.Chunks) : s.Ready := by
  induction s with
  | nil => trivial
  | cons e s ih =>
    obtain ⟨b, rfl, hb⟩ := h e List.mem_cons_self
    exact ⟨hb, ih h.tail⟩

theorem ready_append {s t : Src} (hs : s.Ready) (ht : t.Ready) : Src.Ready (s ++ t) := by
  induction s with
  | nil => exact ht
  | cons e s ih => cases e <;> exact ⟨hs.1, ih hs.2⟩

theorem flat_app (s t : Src) : Src.flat (s ++ t) = s.flat ++ t.flat := by
  induction s with
  | nil => rfl
  | cons e s ih => cases e <;> simp [Src.flat, ih]

theorem flat_left (s : Src) : Src.flat s.left = s.flat := by
  induction s with
  | nil => rfl
  | cons e s ih =>
    unfold Src.left at ih ⊢
    cases e with
    | chunk b =>
      rw [List.filter_cons_of_pos (by simp)]
      simp only [Src.flat, ih]
    | error k =>
      by_cases hk : k = .wouldBlock
      · subst hk
        rw [List.filter_cons_of_neg (by simp)]
        simpa only [Src.flat] using ih
      · rw [List.filter_cons_of_pos (by simpa using hk)]
        simpa only [Src.flat] using ih

theorem pollRead_mem {σ α} (dec : Decoder σ α) (s : Src) (fr : Framed σ) : ∀ e ∈ (fr.pollRead dec s).2.2, e ∈ s := by
  induction s generalizing fr with
  | nil => intro e he; simp [Framed.pollRead] at he
  | cons x rest ih =>
    intro e he
    cases x with
    | error k =>
      unfold Framed.pollRead at he
      split at he <;> exact List.mem_cons_of_mem _ he
    | chunk b =>
      unfold Framed.pollRead at he
      split at he
      · exact List.mem_cons_of_mem _ he
      · split at he
        · exact List.mem_cons_of_mem _ he
        · exact List.mem_cons_of_mem _ (ih _ e he)
        · exact List.mem_cons_of_mem _ he
        · exact List.mem_cons_of_mem _ he

theorem poll_mem {σ α} (dec : Decoder σ α) (s : Src) (fr : Framed σ) : ∀ e ∈ (fr.poll dec s).2.2, e ∈ s := by
  intro e he
  unfold Framed.poll at he
  split at he
  · split at he
    · exact he
    · split at he
      · exact he
      · exact pollRead_mem dec s _ e he
      · exact he
      · exact he
  · exact pollRead_mem dec s _ e he

theorem pollRead_open {σ α} (dec : Decoder σ α) (s : Src) (hs : s.Ready) (hb : .error .wouldBlock ∈ s) (fr : Framed σ) (he : fr.eof = false) :
    (fr.pollRead dec s).2.1.eof = false := by
  induction s generalizing fr with
  | nil => cases hb
  | cons x rest ih =>
    cases x with
    | error k =>
      unfold Framed.pollRead
      split <;> exact he
    | chunk b =>
      have hb' : .error .wouldBlock ∈ rest := by
        rcases List.mem_cons.mp hb with h | h
        · cases h
        · exact h
      unfold Framed.pollRead
      rw [if_neg hs.1]
      split
      · exact he
      · exact ih hs.2 hb' _ he
      · exact he
      · exact he

theorem poll_open {σ α} (dec : Decoder σ α) (s : Src) (hs : s.Ready) (hb : .error .wouldBlock ∈ s) (fr : Framed σ) (he : fr.eof = false) :
    (fr.poll dec s).2.1.eof = false := by
  unfold Framed.poll
  split
  · rw [if_neg (by simp [he])]
    split
    · exact he
    · exact pollRead_open dec s hs hb _ he
    · exact he
    · exact he
  · exact pollRead_open dec s hs hb _ he

theorem chunks_of_mem {s : Src} (h : s.Chunks) {s' : Src} (hm : ∀ e ∈ s', e ∈ s ++ [.error .wouldBlock]) : Src.Chunks s'.left := by
  intro e he
  unfold Src.left at he
  obtain ⟨h1, h2⟩ := List.mem_filter.mp he
  have h2 : e ≠ .error .wouldBlock := of_decide_eq_true h2
  rcases List.mem_append.mp (hm e h1) with h3 | h3
  · exact h e h3
  · exact absurd (List.mem_singleton.mp h3) h2

theorem calm_next {c : MsgCodec} {bs : Bytes} (h : Mind.Calm (.async c) bs) : Mind.Calm (Mind.next (.async c) bs).2.1 (Mind.next (.async c) bs).2.2 := fun n => (h (n + 1)).2

theorem calm_same {c c' : MsgCodec} {bs bs' : Bytes} (e : msgDecoder c bs = msgDecoder c' bs') (h : Mind.Calm (.async c) bs) : Mind.Calm (.async c') bs' := by
  intro n
  cases n with
  | zero => trivial
  | succ n =>
    obtain ⟨h1, h2⟩ := h (n + 1)
    refine ⟨by rw [← e]; exact h1, ?_⟩
    unfold decNext at h2 ⊢
    rw [← e]; exact h2

/-- A receiving call: it goes on waiting, or returns what it would return if everything were there. -/
theorem hear_any {p : Party} {ts : List Talk} (ht : p.todo = .hear :: ts) {R : Bytes} (hs : p.ear.Sane p.ended p.arrived) (hR : p.ended = true → R = [])
    (hc : p.ear.mind.Calm (p.ear.buf ++ p.arrived.flat ++ R)) :
    (∃ e' s', p.act = { p with ear := e', arrived := s' } ∧ p.ended = false ∧ e'.Sane p.ended s' ∧ e'.mind.Calm (e'.buf ++ Src.flat s' ++ R) ∧
      e'.mind.next (e'.buf ++ Src.flat s' ++ R) = p.ear.mind.next (p.ear.buf ++ p.arrived.flat ++ R)) ∨
    ∃ e' s' h, p.act = { p with todo := ts, ear := e', arrived := s', heard := p.heard ++ [h] } ∧ e'.Sane p.ended s' ∧ e'.mind.Calm (e'.buf ++ Src.flat s' ++ R) ∧
      p.ear.mind.next (p.ear.buf ++ p.arrived.flat ++ R) = (h, e'.mind, e'.buf ++ Src.flat s' ++ R) := by
  obtain ⟨todo, ear, voice, arrived, ended, output, carried, heard, sent⟩ := p
  simp only at ht hs hR hc ⊢
  subst ht
  let t : Src := if R = [] then [] else [.chunk R]
  have htf : Src.flat t = R := by
    show Src.flat (if R = [] then [] else [.chunk R]) = R
    split
    · next h => rw [h]; rfl
    · simp [Src.flat]
  have htc : Src.Chunks t := by
    show Src.Chunks (if R = [] then [] else [.chunk R])
    split
    · intro e he; cases he
    · next h =>
      intro e he
      rw [List.mem_singleton.mp he]
      exact ⟨R, rfl, h⟩
  cases ear with
  | blocking r =>
    obtain ⟨hr, hcl⟩ := hs
    simp only [Ear.buf, List.nil_append, Ear.mind] at *
    obtain ⟨s1, g1, g2, g3⟩ := recvMessage_clean r hr arrived hcl
    by_cases hw : (r.recvBytes (Src.flat arrived)).1 = .err .noData ∧ ended = false
    · refine .inl ⟨.blocking r, arrived, ?_, hw.2, ⟨hr, hcl⟩, trivial, rfl⟩
      simp only [Party.act, Party.hearBlocking, g2]
      rw [if_pos hw]
    · right
      have hbytes : r.recvBytes (Src.flat arrived ++ R) = ((r.recvBytes (Src.flat arrived)).1, (r.recvBytes (Src.flat arrived)).2.1, Src.flat s1 ++ R) := by
        by_cases hx : (r.recvBytes (Src.flat arrived)).1 = .err .noData
        · have he : ended = true := by
            cases h : ended with
            | true => rfl
            | false => exact absurd ⟨hx, h⟩ hw
          rw [hR he, List.append_nil, List.append_nil, g3]
        · have hp := recvMessage_prompt r arrived t _ _ _ g2 hx
          have hcl2 : Src.Clean (arrived ++ t) := by
            clear g2 g3 hw hx hp hc
            induction arrived with
            | nil => exact clean_of_chunks htc
            | cons e s ih => cases e <;> exact ⟨hcl.1, ih hcl.2⟩
          obtain ⟨s2, k1, k2, k3⟩ := recvMessage_clean r hr (arrived ++ t) hcl2
          rw [hp] at k2
          rw [flat_app, htf] at k2 k3
          simp only [Prod.mk.injEq] at k2
          obtain ⟨k4, k5, k6⟩ := k2
          rw [k4, k5]
          rw [← k6, flat_app, htf] at k3
          rw [k3]
      have hrr : (r.recvBytes (Src.flat arrived)).2.1.maxDf = r.maxDf := by rw [recvBytes_same]
      refine ⟨.blocking (r.recvBytes (Src.flat arrived)).2.1, s1, .ofRes (r.recvBytes (Src.flat arrived)).1, ?_, ⟨by rw [hrr]; exact hr, g1⟩, trivial, ?_⟩
      · simp only [Party.act, Party.hearBlocking, g2]
        rw [if_neg hw]
      · simp only [Mind.next, Ear.mind, Ear.buf, hbytes, List.nil_append]
  | async fr =>
    obtain ⟨hP, hch, hst⟩ := hs
    simp only [Ear.buf, Ear.mind] at *
    have hg := (hc 1).1
    cases ended with
    | true =>
      obtain rfl := hR rfl
      simp only [List.append_nil] at *
      have hl : Live msgDecoder fr arrived := by
        rcases hst with ⟨h1, h2⟩ | ⟨-, h1, h2, h3⟩
        · exact .inl ⟨h1, ready_of_chunks hch, h2⟩
        · exact .inr ⟨h1, h2, h3⟩
      have hp := poll_spec msgDecoder_chunkable arrived fr hl hP hg
      have hm := poll_mem msgDecoder arrived fr
      cases hq : fr.poll msgDecoder arrived with
      | mk x q =>
        obtain ⟨fr', s'⟩ := q
        rw [hq] at hp hm
        have hch' : Src.Chunks s' := fun e he => hch e (hm e he)
        cases x with
        | notReady =>
          obtain ⟨b, hb, -⟩ := hch _ (poll_block hq)
          cases hb
        | ready x =>
          simp only at hp
          obtain ⟨p1, p2, p3⟩ := hp
          right
          refine ⟨.async fr', s', .ofItem x, ?_, ⟨p3, hch', ?_⟩, ?_, ?_⟩
          · simp only [Party.act, Party.hearAsync, Party.readable, if_true, hq, left_chunks hch']
          · rcases p2 with ⟨h1, -, h2⟩ | ⟨h1, h2, h3⟩
            · exact .inl ⟨h1, h2⟩
            · exact .inr ⟨rfl, h1, h2, h3⟩
          · have := calm_next hc
            simp only [Mind.next, ← p1] at this
            exact this
          · simp only [Mind.next, ← p1, Ear.mind, Ear.buf]
    | false =>
      obtain ⟨he, hi⟩ : fr.eof = false ∧ (fr.readable = false → msgDecoder fr.codec fr.buf = (.ok none, fr.codec, fr.buf)) := by
        rcases hst with h | ⟨h, -⟩
        · exact h
        · cases h
      have hrd : Src.Ready (arrived ++ [.error .wouldBlock]) := ready_append (ready_of_chunks hch) ⟨rfl, trivial⟩
      have ho := poll_open msgDecoder (arrived ++ [.error .wouldBlock]) hrd (by simp) fr he
      have hm := poll_mem msgDecoder (arrived ++ [.error .wouldBlock]) fr
      cases hq : fr.poll msgDecoder (arrived ++ [.error .wouldBlock]) with
      | mk x q =>
        obtain ⟨fr', s'⟩ := q
        rw [hq] at ho hm
        simp only at ho hm
        have hch' := chunks_of_mem hch hm
        have hpr := poll_prompt fr fr' _ s' t x hq ho
        have hfl : Src.flat (arrived ++ [.error .wouldBlock] ++ t) = Src.flat arrived ++ R := by
          rw [flat_app, flat_app, htf]; simp [Src.flat]
        have hp := poll_spec msgDecoder_chunkable (arrived ++ [.error .wouldBlock] ++ t) fr (.inl ⟨he, ready_append hrd (ready_of_chunks htc), hi⟩) hP
          (by rw [hfl, ← List.append_assoc]; exact hg)
        rw [hpr, hfl, ← List.append_assoc] at hp
        cases x with
        | notReady =>
          simp only at hp
          obtain ⟨p1, p2, p3⟩ := hp
          rw [flat_app, htf, ← List.append_assoc] at p3
          left
          refine ⟨.async fr', s'.left, ?_, rfl, ⟨p2, hch', ?_⟩, ?_, ?_⟩
          · simp only [Party.act, Party.hearAsync, Party.readable, Bool.false_eq_true, if_false, hq]
          · rcases p1 with ⟨h1, -, h2⟩ | ⟨h1, h2, h3⟩
            · exact .inl ⟨h1, h2⟩
            · rw [ho] at h1; cases h1
          · simp only [Ear.buf, flat_left]
            exact calm_same p3.symm hc
          · simp only [Ear.buf, Ear.mind, flat_left, Mind.next, decNext, p3]
        | ready x =>
          simp only at hp
          obtain ⟨p1, p2, p3⟩ := hp
          rw [flat_app, htf, ← List.append_assoc] at p1
          right
          refine ⟨.async fr', s'.left, .ofItem x, ?_, ⟨p3, hch', ?_⟩, ?_, ?_⟩
          · simp only [Party.act, Party.hearAsync, Party.readable, Bool.false_eq_true, if_false, hq]
          · rcases p2 with ⟨h1, -, h2⟩ | ⟨h1, h2, h3⟩
            · exact .inl ⟨h1, h2⟩
            · rw [ho] at h1; cases h1
          · have := calm_next hc
            simp only [Mind.next, ← p1] at this
            simp only [Ear.buf, flat_left]
            exact this
          · simp only [Ear.buf, Ear.mind, flat_left, Mind.next, ← p1]

/-! ## Sending -/

theorem control_size (m : OwnedMsg) : (m.view.opcode.toNat > 15 ∨ (8 ≤ m.view.opcode.toNat ∧ 126 ≤ m.view.size)) ↔ mayBeSent m = false := by
  rcases m with b | b | (_ | c) | b | b <;> simp [OwnedMsg.view, MsgType.toU8, mayBeSent] <;> omega

theorem encode_may {m : OwnedMsg} (h : mayBeSent m = true) (k : Option Key4) : ∃ bs, m.view.encode k = .ok bs := by
  cases he : m.view.encode k with
  | ok bs => exact ⟨bs, rfl⟩
  | err e =>
    have := (control_size m).mp ((encode_err_iff (v := m.view) k).mp ⟨e, he⟩)
    rw [h] at this; cases this
  | panic e => have := encode_not_panic (v := m.view) k; rw [he] at this; simp at this

theorem encode_may_not {m : OwnedMsg} (h : mayBeSent m = false) (k : Option Key4) : ∃ e, m.view.encode k = .err e :=
  (encode_err_iff (v := m.view) k).mpr ((control_size m).mpr h)

theorem sendable_may {m : OwnedMsg} (h : mayBeSent m = true) (hv : m.Valid) (hl : ∀ b, (m = .text b ∨ m = .binary b) → b.length ≤ isizeMax) :
    m.spec.Sendable isizeMax := by
  have h125 : 125 ≤ isizeMax := by decide
  rcases m with b | b | (_ | c) | b | b <;> simp only [mayBeSent, decide_eq_true_eq, OwnedMsg.Valid] at h hv
  · exact ⟨hv, hl b (.inl rfl)⟩
  · exact hl b (.inr rfl)
  · trivial
  · exact ⟨hv, h, by omega⟩
  · exact ⟨h, by omega⟩
  · exact ⟨h, by omega⟩

/-- A sending call: it succeeds if the message may be sent, and then these are the bytes; otherwise it fails and nothing is written. -/
theorem speaks_any {mask : Bool} {p : Party} {ts : List Talk} {m : OwnedMsg} {key : Key4} {extra : Nat}
    (ht : p.todo = .say m key extra :: ts) (hg : p.voice.Good mask p.output) :
    ∃ v' w' b, p.act = { p with todo := ts, voice := v', output := w', sent := p.sent ++ [mayBeSent m] } ∧ v'.Good mask w' ∧
      w'.wire = p.output.wire ++ b ∧ (mayBeSent m = false → b = []) ∧ (mayBeSent m = true → m.spec.Sendable isizeMax → Says mask [m.spec] b) := by
  have hii : isizeMax < 2 ^ 63 := by decide
  obtain ⟨todo, ear, voice, arrived, ended, output, carried, heard, sent⟩ := p
  simp only at ht hg
  subst ht
  cases voice with
  | blocking s =>
    obtain ⟨rfl, hw⟩ := hg
    cases hm : mayBeSent m with
    | true =>
      obtain ⟨bs, hb⟩ := encode_may hm (if s.mask then some key else none)
      obtain ⟨h1, h2⟩ := writeAll_willing bs output hw
      have e : s.send m.view key output = (.ok (), (output.writeAll bs).2) := by
        unfold Sender.send FrameView.writeTo
        rw [hb]
        cases hq : output.writeAll bs with
        | mk r w' => rw [hq] at h1; simp only at h1; subst h1; simp only [hq]
      refine ⟨.blocking s, (output.writeAll bs).2, bs, ?_, ⟨rfl, h2⟩, writeAll_ok (Prod.ext h1 rfl), nofun, fun _ hs => says_encode hii hs _ key hb⟩
      simp only [Party.act, Party.sayBlocking, e, decide_true]
    | false =>
      obtain ⟨x, hb⟩ := encode_may_not hm (if s.mask then some key else none)
      have e : s.send m.view key output = (.err x, output) := by
        unfold Sender.send FrameView.writeTo
        rw [hb]
      refine ⟨.blocking s, output, [], ?_, ⟨rfl, hw⟩, (List.append_nil _).symm, fun _ => rfl, nofun⟩
      simp only [Party.act, Party.sayBlocking, e, reduceCtorEq, decide_false]
  | async fw =>
    obtain ⟨h1, h2, h3, h4⟩ := hg
    have hc := C07_encode_into_buffer fw.isServer m.view m.lawful key extra fw.buf h3
    cases hm : mayBeSent m with
    | true =>
      obtain ⟨bs, hbs⟩ := encode_may hm (if fw.isServer then none else some key)
      rw [hbs] at hc
      obtain ⟨cap, g1, g2⟩ := hc
      have hss : fw.startSend m.view key extra output = (.ready, { fw with buf := ⟨fw.buf.data ++ bs, cap⟩ }, output) := by
        unfold FramedWrite.startSend
        simp only
        rw [if_neg (by rw [h4]; decide)]
        split
        · next q => rw [g1] at q; cases q; rfl
        · next q => rw [g1] at q; cases q
        · next q => rw [g1] at q; cases q
      have hd := drain_patient { fw with buf := ⟨fw.buf.data ++ bs, cap⟩ } output h2
      have hs := drain_spec { fw with buf := ⟨fw.buf.data ++ bs, cap⟩ } output g2
      have e : fw.sendAwait m.view key extra output = FramedWrite.drain { fw with buf := ⟨fw.buf.data ++ bs, cap⟩ } output := by
        rw [FramedWrite.sendAwait]
        split
        · next q => rw [hss] at q; cases q
        · next q => rw [hss] at q; cases q; rfl
        · next q1 q2 q => rw [hss] at q; cases q; exact absurd rfl q2
      refine ⟨.async _, _, bs, ?_, ⟨hd.2.2.trans h1, hd.2.1, hs.2.2.2.2.2, hs.2.2.1 hd.1⟩, ?_, nofun, fun _ hsd => ?_⟩
      · simp only [Party.act, Party.sayAsync, e, hd.1, decide_true]
      · have := hs.1
        rw [hs.2.2.1 hd.1, List.append_nil] at this
        rw [this]
        simp [h4]
      · refine says_encode hii hsd mask key ?_
        rw [← hbs, h1]
        cases mask <;> rfl
    | false =>
      obtain ⟨x, hbs⟩ := encode_may_not hm (if fw.isServer then none else some key)
      rw [hbs] at hc
      obtain ⟨cap, g1⟩ := hc
      have hss : fw.startSend m.view key extra output = (.err x, { fw with buf := ⟨fw.buf.data, cap⟩ }, output) := by
        unfold FramedWrite.startSend
        simp only
        rw [if_neg (by rw [h4]; decide)]
        split
        · next q => rw [g1] at q; cases q
        · next q => rw [g1] at q; cases q; rfl
        · next q => rw [g1] at q; cases q
      have e : fw.sendAwait m.view key extra output = (.err x, { fw with buf := ⟨fw.buf.data, cap⟩ }, output) := by
        rw [FramedWrite.sendAwait]
        split
        · next q => rw [hss] at q; cases q
        · next q => rw [hss] at q; cases q
        · next q1 q2 q => rw [hss] at q; exact q.symm
      refine ⟨.async { fw with buf := ⟨fw.buf.data, cap⟩ }, output, [], ?_, ⟨h1, h2, ?_, h4⟩, (List.append_nil _).symm, fun _ => rfl, nofun⟩
      · simp only [Party.act, Party.sayAsync, e, reduceCtorEq, decide_false]
      · unfold BytesMut.WF
        simp only [h4]
        exact Nat.zero_le _

/-! ## The invariant -/

theorem sentIn_append (a b : List Event) : sentIn (a ++ b) = sentIn a ++ sentIn b := by
  induction a with
  | nil => rfl
  | cons e a ih =>
    rcases e with ⟨m, (_ | _)⟩ | h
    · simpa only [List.cons_append, sentIn] using ih
    · simpa only [List.cons_append, sentIn, List.cons.injEq, true_and] using ih
    · simpa only [List.cons_append, sentIn] using ih

structure Enduring (plan : Plan) (hearing : Nat → Heard) (mask : Bool) (w0 : Bytes) (a : Actor) (R : Bytes) : Prop where
  planned : a.plan = plan
  todo : a.party.todo = a.call
  heeds : Heeds plan hearing a.past
  sane : a.party.ear.Sane a.party.ended a.party.arrived
  ended : a.party.ended = true → R = []
  calm : a.party.ear.mind.Calm (a.party.ear.buf ++ a.party.arrived.flat ++ R)
  hears : ∀ n, a.party.ear.mind.hears n (a.party.ear.buf ++ a.party.arrived.flat ++ R) = hearing (hearsIn a.past + n)
  voice : a.party.voice.Good mask a.party.output
  wire : ∃ b, a.party.output.wire = w0 ++ b ∧ (plan.Typed hearing → Says mask ((sentIn a.past).map OwnedMsg.spec) b)

theorem hears_of_next {m m' : Mind} {bs bs' : Bytes} (h : m'.next bs' = m.next bs) (n : Nat) : m'.hears n bs' = m.hears n bs := by
  cases n <;> simp only [Mind.hears, h]

/-- A turn: nothing has happened, or the next thing has; the latter if the end of the stream is there and the program goes on. -/
theorem act_enduring {plan hearing mask w0 a R} (h : Enduring plan hearing mask w0 a R) :
    Enduring plan hearing mask w0 a.act R ∧ a.act.party.ended = a.party.ended ∧
      (a.party.ended = true → plan a.past = none ∧ a.act = a ∨ plan a.past ≠ none ∧ a.act.past.length = a.past.length + 1) := by
  have hpl := h.planned
  cases hd : a.plan a.past with
  | none =>
    have e : a.act = a := by simp only [Actor.act, hd]
    rw [e]
    exact ⟨h, rfl, fun _ => .inl ⟨by rw [← hpl]; exact hd, rfl⟩⟩
  | some d =>
    have hne : plan a.past ≠ none := by rw [← hpl, hd]; nofun
    cases d with
    | say m =>
      have ht : a.party.todo = [.say m (a.keys a.past.length) (a.extra a.past.length)] := by
        rw [h.todo]; simp only [Actor.call, hd]
      obtain ⟨v', w', b, e1, e2, e3, e4, e5⟩ := speaks_any ht h.voice
      have e : a.act = Actor.turn { a with past := a.past ++ [.said m (mayBeSent m)], party := { a.party with todo := [], voice := v', output := w', sent := a.party.sent ++ [mayBeSent m] } } := by
        simp only [Actor.act, hd, e1, List.isEmpty_nil, if_true, Deed.event, List.getLast?_append, List.getLast?_singleton, Option.some_or, Option.getD_some]
      rw [e]
      refine ⟨⟨hpl, rfl, .said h.heeds (by rw [← hpl]; exact hd), h.sane, h.ended, h.calm, ?_, e2, ?_⟩, rfl, fun _ => .inr ⟨hne, ?_⟩⟩
      · intro n
        have := h.hears n
        simp only [Actor.turn, hearsIn_append, hearsIn, Nat.add_zero]
        exact this
      · obtain ⟨b0, k1, k2⟩ := h.wire
        refine ⟨b0 ++ b, ?_, fun ht => ?_⟩
        · simp only [Actor.turn]
          rw [e3, k1, List.append_assoc]
        · simp only [Actor.turn, sentIn_append, List.map_append]
          refine WS.Says.append (k2 ht) ?_
          cases hm : mayBeSent m with
          | true =>
            obtain ⟨t1, t2⟩ := ht a.past m h.heeds (by rw [← hpl]; exact hd)
            exact e5 hm (sendable_may hm t1 t2)
          | false =>
            rw [e4 hm]
            exact ⟨[], .nil, rfl, by simp⟩
      · simp [Actor.turn]
    | hear =>
      have ht : a.party.todo = [.hear] := by
        rw [h.todo]; simp only [Actor.call, hd]
      rcases hear_any ht h.sane h.ended h.calm with ⟨e', s', e1, e2, e3, e4, e5⟩ | ⟨e', s', x, e1, e3, e4, e5⟩
      · have e : a.act = { a with party := { a.party with ear := e', arrived := s' } } := by
          simp only [Actor.act, hd, e1, ht, List.isEmpty_cons, Bool.false_eq_true, if_false]
        rw [e]
        refine ⟨⟨hpl, h.todo, h.heeds, e3, h.ended, e4, ?_, h.voice, h.wire⟩, rfl, fun he => ?_⟩
        · intro n
          rw [← h.hears n]
          exact hears_of_next e5 n
        · rw [e2] at he; cases he
      · have h0 := h.hears 0
        simp only [Mind.hears, e5, Nat.add_zero] at h0
        have e : a.act = Actor.turn { a with past := a.past ++ [.heard (hearing (hearsIn a.past))], party := { a.party with todo := [], ear := e', arrived := s', heard := a.party.heard ++ [x] } } := by
          simp only [Actor.act, hd, e1, List.isEmpty_nil, if_true, Deed.event, List.getLast?_append, List.getLast?_singleton, Option.some_or, Option.getD_some, h0]
        rw [e]
        refine ⟨⟨hpl, rfl, .heard h.heeds (by rw [← hpl]; exact hd), e3, h.ended, e4, ?_, h.voice, ?_⟩, rfl, fun _ => .inr ⟨hne, ?_⟩⟩
        · intro n
          have := h.hears (n + 1)
          simp only [Mind.hears, e5] at this
          simp only [Actor.turn, hearsIn_append, hearsIn]
          rw [this]
          congr 1
          omega
        · obtain ⟨b0, k1, k2⟩ := h.wire
          refine ⟨b0, k1, fun ht => ?_⟩
          simpa only [Actor.turn, sentIn_append, sentIn, List.append_nil] using k2 ht
        · simp [Actor.turn]

theorem bytes_enduring {plan hearing mask w0 a b R} (h : Enduring plan hearing mask w0 a (b ++ R)) :
    Enduring plan hearing mask w0 (a.meets (.bytes b)) R ∧ (a.meets (.bytes b)).party.ended = a.party.ended := by
  unfold Actor.meets
  by_cases hc : a.party.ended = true ∨ b = []
  · simp only [if_pos hc, and_true]
    have hb : b = [] := by
      rcases hc with hc | hc
      · exact (List.append_eq_nil_iff.mp (h.ended hc)).1
      · exact hc
    subst hb
    exact h
  · simp only [if_neg hc, and_true]
    obtain ⟨hc1, hc2⟩ : a.party.ended = false ∧ b ≠ [] := by
      cases he : a.party.ended <;> simp_all
    have hfl : a.party.ear.buf ++ Src.flat (a.party.arrived ++ [.chunk b]) ++ R = a.party.ear.buf ++ a.party.arrived.flat ++ (b ++ R) := by
      rw [flat_app]; simp [Src.flat]
    refine ⟨h.planned, h.todo, h.heeds, ?_, fun he => ?_, ?_, fun n => ?_, h.voice, h.wire⟩
    · have := h.sane
      revert this
      simp only
      generalize a.party.ear = ear
      cases ear with
      | blocking r => exact fun hs => ⟨hs.1, clean_snoc hs.2 hc2⟩
      | async fr =>
        rintro ⟨k1, k2, k3⟩
        refine ⟨k1, fun e he => ?_, ?_⟩
        · rcases List.mem_append.mp he with he | he
          · exact k2 e he
          · rw [List.mem_singleton.mp he]; exact ⟨b, rfl, hc2⟩
        · rcases k3 with k3 | ⟨k3, -⟩
          · exact .inl k3
          · rw [hc1] at k3; cases k3
    · simp only at he; rw [hc1] at he; cases he
    · simp only [hfl]; exact h.calm
    · simp only [hfl]; exact h.hears n

theorem finish_enduring {plan hearing mask w0 a} (h : Enduring plan hearing mask w0 a []) : Enduring plan hearing mask w0 (a.meets .finish) [] := by
  refine ⟨h.planned, h.todo, h.heeds, ?_, fun _ => rfl, h.calm, h.hears, h.voice, h.wire⟩
  have := h.sane
  revert this
  simp only [Actor.meets]
  generalize a.party.ear = ear
  cases ear with
  | blocking r => exact id
  | async fr =>
    rintro ⟨k1, k2, k3⟩
    exact ⟨k1, k2, k3.imp id fun k => ⟨rfl, k.2⟩⟩

theorem ended_enduring {plan hearing mask w0} (es : List Brings) : ∀ {a}, Enduring plan hearing mask w0 a [] → a.party.ended = true →
    Enduring plan hearing mask w0 (a.endures es) [] ∧ (a.endures es).party.ended = true := by
  induction es with
  | nil => exact fun h he => ⟨h, he⟩
  | cons e es ih =>
    intro a h he
    cases e with
    | turn =>
      obtain ⟨h1, h2, -⟩ := act_enduring h
      exact ih h1 (h2.trans he)
    | bytes b =>
      have e : a.meets (.bytes b) = a := by unfold Actor.meets; simp only [if_pos (show a.party.ended = true ∨ b = [] from .inl he)]
      show Enduring plan hearing mask w0 ((a.meets (.bytes b)).endures es) [] ∧ ((a.meets (.bytes b)).endures es).party.ended = true
      rw [e]
      exact ih h he
    | finish => exact ih (finish_enduring h) rfl

theorem endures_enduring {plan hearing mask w0} (es : List Brings) : ∀ {a R}, Enduring plan hearing mask w0 a R → a.party.ended = false → came es <+: R →
    (finished es = true → came es = R) → ∃ R', R = came es ++ R' ∧ Enduring plan hearing mask w0 (a.endures es) R' ∧ (a.endures es).party.ended = finished es := by
  induction es with
  | nil => exact fun {a R} h he _ _ => ⟨R, rfl, h, he⟩
  | cons e es ih =>
    intro a R h he hp hf
    cases e with
    | turn =>
      obtain ⟨h1, h2, -⟩ := act_enduring h
      exact ih h1 (h2.trans he) hp hf
    | bytes b =>
      obtain ⟨R', rfl⟩ := hp
      simp only [came, List.append_assoc] at h hf
      obtain ⟨h1, h2⟩ := bytes_enduring h
      obtain ⟨R'', k1, k2⟩ := ih h1 (h2.trans he) (List.prefix_append _ _) (fun hx => List.append_cancel_left (hf hx))
      exact ⟨R'', by simp only [came, List.append_assoc, k1], k2⟩
    | finish =>
      obtain rfl : R = [] := (hf rfl).symm
      have := ended_enduring es (finish_enduring h) rfl
      exact ⟨[], rfl, this⟩

/-! ## The beginning -/

theorem mind_many {r : Receiver} (n : Nat) (bs : Bytes) : (Mind.blocking r).hears n bs = ((r.recvManyBytes (n + 1) bs).1[n]?).elim .failed .ofRes := by
  induction n generalizing r bs with
  | zero => simp [Mind.hears, Mind.next, Receiver.recvManyBytes]
  | succ n ih =>
    simp only [Mind.hears, Mind.next]
    rw [ih]
    conv => rhs; unfold Receiver.recvManyBytes
    simp

theorem mind_decMany {c : MsgCodec} (n : Nat) (bs : Bytes) : (Mind.async c).hears n bs = ((decMany msgDecoder (n + 1) c bs).1[n]?).elim .failed .ofItem := by
  induction n generalizing c bs with
  | zero => simp [Mind.hears, Mind.next, decMany]
  | succ n ih =>
    simp only [Mind.hears, Mind.next]
    rw [ih]
    conv => rhs; unfold decMany
    simp

theorem allOf_flat (B : Bytes) : Src.flat (allOf B) = B := by
  unfold allOf
  split
  · next h => rw [h]; rfl
  · simp [Src.flat]

theorem allOf_chunks (B : Bytes) : Src.Chunks (allOf B) := by
  unfold allOf
  split
  · intro e he; cases he
  · next h =>
    intro e he
    rw [List.mem_singleton.mp he]
    exact ⟨B, rfl, h⟩

theorem blockingHears_eq (isServer : Bool) (maxDf maxMsg : Nat) (B : Bytes) (n : Nat) :
    (Mind.blocking (Receiver.newWithLimits isServer maxDf maxMsg)).hears n B = blockingHears isServer maxDf maxMsg B n := by
  have hr := Receiver.wf_new isServer maxDf maxMsg
  have hu : u32Max ≤ isizeMax := by decide
  obtain ⟨s', -, h2, -⟩ := recvMany_clean (n + 1) (Receiver.newWithLimits isServer maxDf maxMsg) (Nat.le_trans hr.1 hu) (allOf B) (clean_of_chunks (allOf_chunks B))
  unfold blockingHears
  rw [mind_many, h2, allOf_flat]

theorem decMany_empty {c : MsgCodec} (h : msgDecoder c [] = (.ok none, c, [])) (n : Nat) : GoodMany msgDecoder (fun r => r ≠ .err msgLimitErr) n c [] := by
  induction n with
  | zero => trivial
  | succ n ih =>
    refine ⟨by rw [h]; nofun, ?_⟩
    have : decNext msgDecoder c [] = (.done, c, []) := by unfold decNext; rw [h]; rfl
    rw [this]; exact ih

theorem msgDecoder_empty (c : MsgCodec) (hc : c.df.maxDf ≤ u32Max) : msgDecoder c [] = (.ok none, c, []) := by
  unfold msgDecoder
  rw [MsgCodec.decode_eq c hc, pLoop_more (c := c.cfg) parseFrame_nil]

theorem calm_new {ctx : Context} {maxDf maxMsg : Nat} {B : Bytes}
    (hl : ∀ n, .err msgLimitErr ∉ ((Framed.new (MsgCodec.newWithLimits ctx maxDf maxMsg)).nextMany msgDecoder n (allOf B)).1) :
    Mind.Calm (.async (MsgCodec.newWithLimits ctx maxDf maxMsg)) B := by
  have hc := MsgCodec.wf_new ctx maxDf maxMsg
  intro n
  by_cases hB : B = []
  · subst hB
    exact decMany_empty (msgDecoder_empty _ hc.1) n
  · have := hl n
    unfold allOf at this
    rw [if_neg hB, (nextMany_oneChunk msgDecoder_chunkable n _ hc.1 B hB).1] at this
    exact goodMany_of_items n _ _ this

theorem asyncHears_eq {ctx : Context} {maxDf maxMsg : Nat} {B : Bytes} (h : Mind.Calm (.async (MsgCodec.newWithLimits ctx maxDf maxMsg)) B) (n : Nat) :
    (Mind.async (MsgCodec.newWithLimits ctx maxDf maxMsg)).hears n B = asyncHears ctx maxDf maxMsg B n := by
  have hc := MsgCodec.wf_new ctx maxDf maxMsg
  have hb : (Framed.new (MsgCodec.newWithLimits ctx maxDf maxMsg)).buf ++ Src.flat (allOf B) = B := allOf_flat B
  obtain ⟨xs, fr', s', g1, -, -, g4⟩ := nextMany_spec msgDecoder_chunkable (n + 1) (allOf B) (Framed.new (MsgCodec.newWithLimits ctx maxDf maxMsg))
    (msg_live_new _ hc [] _ (ready_of_chunks (allOf_chunks B))) hc.1 (by rw [hb]; exact h (n + 1))
  unfold asyncHears
  rw [mind_decMany, g1]
  rw [hb] at g4
  rw [show (Framed.new (MsgCodec.newWithLimits ctx maxDf maxMsg)).codec = MsgCodec.newWithLimits ctx maxDf maxMsg from rfl] at g4
  rw [g4]

theorem stands_enduring {B p mask hearing} (h : Stands B p mask hearing) (plan : Plan) (keys : Nat → Key4) (extra : Nat → Nat) :
    Enduring plan hearing mask p.output.wire (Actor.start plan keys extra p) B ∧ p.ended = false := by
  cases h with
  | blocking isServer maxDf maxMsg w hw =>
    have hr := Receiver.wf_new isServer maxDf maxMsg
    have hu : u32Max ≤ isizeMax := by decide
    refine ⟨⟨rfl, rfl, .start, ⟨Nat.le_trans hr.1 hu, trivial⟩, nofun, trivial, fun n => ?_, ⟨rfl, hw⟩, [], (List.append_nil _).symm, fun _ => ⟨[], .nil, rfl, by simp⟩⟩, rfl⟩
    show _ = blockingHears isServer maxDf maxMsg B (0 + n)
    rw [Nat.zero_add]
    exact blockingHears_eq isServer maxDf maxMsg B n
  | async ctx maxDf maxMsg w hw hl =>
    have hc := MsgCodec.wf_new ctx maxDf maxMsg
    have hcalm := calm_new hl
    refine ⟨⟨rfl, rfl, .start, ⟨hc.1, nofun, .inl ⟨rfl, fun _ => msgDecoder_empty _ hc.1⟩⟩, nofun, hcalm, fun n => ?_, ⟨by cases ctx <;> rfl, hw, by exact Nat.zero_le _, rfl⟩, [], (List.append_nil _).symm,
      fun _ => ⟨[], .nil, rfl, by simp⟩⟩, rfl⟩
    show _ = asyncHears ctx maxDf maxMsg B (0 + n)
    rw [Nat.zero_add]
    exact asyncHears_eq hcalm n

/-! ## What happens is determined -/

/-- The next thing. -/
def comes (plan : Plan) (hearing : Nat → Heard) (past : List Event) : Option Event :=
  match plan past with
  | none => none
  | some (.say m) => some (.said m (mayBeSent m))
  | some .hear => some (.heard (hearing (hearsIn past)))

theorem Heeds.path {plan hearing past} (h : Heeds plan hearing past) : ∀ {a e}, a ++ [e] <+: past → Heeds plan hearing a ∧ comes plan hearing a = some e := by
  induction h with
  | start => intro a e hp; have := hp.length_le; simp at this
  | @said past m h hm ih =>
    intro a e hp
    rcases List.prefix_concat_iff.mp hp with he | he
    · obtain ⟨g1, g2⟩ := List.append_inj' he rfl
      simp only [List.cons.injEq, and_true] at g2
      subst g1 g2
      exact ⟨h, by simp only [comes, hm]⟩
    · exact ih he
  | @heard past h hm ih =>
    intro a e hp
    rcases List.prefix_concat_iff.mp hp with he | he
    · obtain ⟨g1, g2⟩ := List.append_inj' he rfl
      simp only [List.cons.injEq, and_true] at g2
      subst g1 g2
      exact ⟨h, by simp only [comes, hm]⟩
    · exact ih he

theorem Heeds.over {plan hearing past} (h : Heeds plan hearing past) {a} (hp : a <+: past) (hs : plan a = none) : past = a := by
  by_cases hl : a.length < past.length
  · obtain ⟨e, he⟩ := prefix_proper hp hl
    have := (h.path he).2
    simp only [comes, hs] at this
    cases this
  · exact (hp.eq_of_length (by have := hp.length_le; omega)).symm

theorem heeds_step {plan hearing a e b} (he : comes plan hearing a = some e) (hb : Heeds plan hearing b) (h : Agree a b) : Agree (a ++ [e]) b := by
  rcases h with h | h
  · by_cases hl : a.length < b.length
    · obtain ⟨e', he'⟩ := prefix_proper h hl
      have := (hb.path he').2
      rw [he] at this
      cases this
      exact .inl he'
    · rw [h.eq_of_length (by have := h.length_le; omega)]
      exact .inr (List.prefix_append _ _)
  · exact .inr (h.trans (List.prefix_append _ _))

theorem heeds_agree {plan hearing a b} (ha : Heeds plan hearing a) (hb : Heeds plan hearing b) : Agree a b := by
  induction ha with
  | start => exact .inl List.nil_prefix
  | said _ hm ih => exact heeds_step (by simp only [comes, hm]) hb ih
  | heard _ hm ih => exact heeds_step (by simp only [comes, hm]) hb ih

/-! ## After the end of the stream -/

theorem endures_append (a : Actor) (es fs : List Brings) : a.endures (es ++ fs) = (a.endures es).endures fs := by
  unfold Actor.endures; rw [List.foldl_append]

theorem endures_rest {a : Actor} (h : a.plan a.past = none) (j : Nat) : a.endures (List.replicate j .turn) = a := by
  induction j with
  | zero => rfl
  | succ j ih =>
    rw [List.replicate_succ]
    show (a.act).endures _ = a
    have : a.act = a := by simp only [Actor.act, h]
    rw [this, ih]

theorem ended_turns {plan hearing mask w0} (j : Nat) : ∀ {a}, Enduring plan hearing mask w0 a [] → a.party.ended = true →
    Enduring plan hearing mask w0 (a.endures (List.replicate j .turn)) [] ∧
      (plan (a.endures (List.replicate j .turn)).past = none ∨ a.past.length + j ≤ (a.endures (List.replicate j .turn)).past.length) := by
  induction j with
  | zero => exact fun h _ => ⟨h, .inr (Nat.le_refl _)⟩
  | succ j ih =>
    intro a h he
    obtain ⟨h1, h2, h3⟩ := act_enduring h
    rcases h3 he with ⟨h4, h5⟩ | ⟨-, h5⟩
    · have := endures_rest (a := a) (by rw [h.planned]; exact h4) (j + 1)
      rw [this]
      exact ⟨h, .inl h4⟩
    · rw [List.replicate_succ]
      obtain ⟨g1, g2⟩ := ih h1 (h2.trans he)
      exact ⟨g1, g2.imp id fun g => by show a.past.length + (j + 1) ≤ (a.act.endures (List.replicate j .turn)).past.length; omega⟩

/-! ## Messages run out, and can be answered -/

theorem pLoop_msg_lt {c : Cfg} {buffer b' : List DataFrame} {cur : Nat} {bs rest : Bytes} {fs : List DataFrame}
    (h : pLoop c buffer cur bs = .msg fs b' rest) : rest.length < bs.length := by
  fun_induction pLoop c buffer cur bs with
  | case1 buffer cur bs f rest1 hp b cur1 hs => cases h; have := parseFrame_lt hp; omega
  | case2 => cases h
  | case3 buffer cur bs f rest hp b cur1 hs ih => have := ih h; have := parseFrame_lt hp; omega
  | case4 => cases h
  | case5 => cases h

theorem next_lt {m : Mind} {bs : Bytes} {x : OwnedMsg} (h : (m.next bs).1 = .message x) : (m.next bs).2.2.length < bs.length := by
  cases m with
  | blocking r =>
    simp only [Mind.next] at h ⊢
    unfold Receiver.recvBytes at h ⊢
    cases hp : pLoop r.cfg r.buffer (heldLen r.buffer) bs with
    | msg fs b rest => exact pLoop_msg_lt hp
    | fail e b rest => rw [hp] at h; cases e <;> cases h
    | bad e b c rest => rw [hp] at h; cases e <;> cases h
    | more b c l => rw [hp] at h; cases h
  | async c =>
    simp only [Mind.next] at h ⊢
    have := (msgDecoder_shrinking c bs).2
    unfold decNext at h ⊢
    split at h
    · next a c' rest q => rw [q] at this; exact this a rfl
    · split at h <;> cases h
    · cases h
    · cases h

theorem hears_stop (k : Nat) : ∀ (m : Mind) (bs : Bytes), bs.length ≤ k → ∃ n, n ≤ k ∧ ∀ x, m.hears n bs ≠ .message x := by
  induction k with
  | zero =>
    intro m bs hk
    refine ⟨0, Nat.le_refl _, fun x hx => ?_⟩
    have := next_lt (m := m) (bs := bs) (x := x) hx
    omega
  | succ k ih =>
    intro m bs hk
    by_cases h : ∃ x, (m.next bs).1 = .message x
    · obtain ⟨x, hx⟩ := h
      obtain ⟨n, h1, h2⟩ := ih (m.next bs).2.1 (m.next bs).2.2 (by have := next_lt hx; omega)
      exact ⟨n + 1, by omega, h2⟩
    · exact ⟨0, by omega, fun x hx => h ⟨x, hx⟩⟩

def Mind.Fit : Mind → Prop
  | .blocking r => WS.Fit r
  | .async c => FitAsync c

theorem next_fit {m : Mind} {bs : Bytes} {x : OwnedMsg} (hf : m.Fit) (h : (m.next bs).1 = .message x) : (m.next bs).2.1.Fit ∧ x.spec.Sendable isizeMax := by
  cases m with
  | blocking r =>
    have hu : u32Max ≤ isizeMax := by decide
    obtain ⟨s', -, h2, -⟩ := recvMessage_clean r (Nat.le_trans hf.1.1 hu) (allOf bs) (clean_of_chunks (allOf_chunks bs))
    have := (fit_step hf (allOf bs)).2 x
    rw [h2, allOf_flat] at this
    simp only [Mind.next] at h ⊢
    refine this ?_
    cases hq : (r.recvBytes bs).1 with
    | ok y => rw [hq] at h; cases h; rfl
    | err e => rw [hq] at h; cases e <;> cases h
    | panic e => rw [hq] at h; cases h
  | async c =>
    have := msgDecoder_good c bs hf
    simp only [Mind.next] at h ⊢
    unfold decNext at h ⊢
    split at h
    · next a c' rest q =>
      rw [q] at this
      cases h
      exact this
    · split at h <;> cases h
    · cases h
    · cases h

theorem hears_fit (n : Nat) : ∀ (m : Mind) (bs : Bytes), m.Fit → (∀ i, i < n → ∃ x, m.hears i bs = .message x) → ∀ x, m.hears n bs = .message x → x.spec.Sendable isizeMax := by
  induction n with
  | zero => exact fun m bs hf _ x hx => (next_fit hf hx).2
  | succ n ih =>
    intro m bs hf ha x hx
    obtain ⟨y, hy⟩ := ha 0 (by omega)
    exact ih _ _ (next_fit hf hy).1 (fun i hi => ha (i + 1) (by omega)) x hx

theorem stands_stop {B p mask hearing} (h : Stands B p mask hearing) : ∃ n, n ≤ B.length ∧ ∀ x, hearing n ≠ .message x := by
  cases h with
  | blocking isServer maxDf maxMsg w hw =>
    obtain ⟨n, h1, h2⟩ := hears_stop B.length (.blocking (Receiver.newWithLimits isServer maxDf maxMsg)) B (Nat.le_refl _)
    exact ⟨n, h1, fun x => by rw [← blockingHears_eq]; exact h2 x⟩
  | async ctx maxDf maxMsg w hw hl =>
    obtain ⟨n, h1, h2⟩ := hears_stop B.length (.async (MsgCodec.newWithLimits ctx maxDf maxMsg)) B (Nat.le_refl _)
    exact ⟨n, h1, fun x => by rw [← asyncHears_eq (calm_new hl)]; exact h2 x⟩

theorem stands_fit {B p mask hearing} (h : Stands B p mask hearing) {n : Nat} {x : OwnedMsg} (ha : ∀ i, i < n → ∃ y, hearing i = .message y) (hx : hearing n = .message x) :
    x.spec.Sendable isizeMax := by
  cases h with
  | blocking isServer maxDf maxMsg w hw =>
    refine hears_fit n (.blocking (Receiver.newWithLimits isServer maxDf maxMsg)) B (fit_new _ _ _) (fun i hi => ?_) x (by rw [blockingHears_eq]; exact hx)
    obtain ⟨y, hy⟩ := ha i hi
    exact ⟨y, by rw [blockingHears_eq]; exact hy⟩
  | async ctx maxDf maxMsg w hw hl =>
    refine hears_fit n (.async (MsgCodec.newWithLimits ctx maxDf maxMsg)) B (fitAsync_new _ _ _) (fun i hi => ?_) x (by rw [asyncHears_eq (calm_new hl)]; exact hx)
    obtain ⟨y, hy⟩ := ha i hi
    exact ⟨y, by rw [asyncHears_eq (calm_new hl)]; exact hy⟩

/-! ## The server of the example -/

/-- The first receiving calls returned these messages. -/
def Told (hearing : Nat → Heard) (ms : List OwnedMsg) : Prop := ∀ i, (h : i < ms.length) → hearing i = .message ms[i]

theorem Told.snoc {hearing ms m} (h : Told hearing ms) (hm : hearing ms.length = .message m) : Told hearing (ms ++ [m]) := by
  intro i hi
  by_cases hl : i < ms.length
  · rw [List.getElem_append_left hl]; exact h i hl
  · have : i = ms.length := by simp at hi; omega
    subst this
    simpa using hm

/-- Where the thread of examples/server.rs is. -/
inductive Attends (hearing : Nat → Heard) : List Event → Prop
  | new : Attends hearing []
  | spoke {b m} (hm : m.isClose = false) (hg : NoClose (gotIn b)) (ht : Told hearing (gotIn b)) (hn : hearsIn b = (gotIn b).length)
    (hs : saidIn (b ++ [.said m true]) = hello :: (gotIn b).map answerTo) : Attends hearing (b ++ [.said m true])
  | bye {b c g} (hb : gotIn b = g ++ [.close c]) (hg : NoClose g) (ht : Told hearing (gotIn b)) (hn : hearsIn b = (gotIn b).length)
    (hs : saidIn (b ++ [.said (.close none) true]) = hello :: (gotIn b).map answerTo) : Attends hearing (b ++ [.said (.close none) true])
  | got {b m} (hg : NoClose (gotIn b)) (ht : Told hearing (gotIn b ++ [m])) (hn : hearsIn b = (gotIn b).length)
    (hs : saidIn b = hello :: (gotIn b).map answerTo) : Attends hearing (b ++ [.heard (.message m)])
  | lost {b x} (hx : ∀ m, x ≠ .message m) (hh : hearing (gotIn b).length = x) (hg : NoClose (gotIn b)) (ht : Told hearing (gotIn b)) (hn : hearsIn b = (gotIn b).length)
    (hs : saidIn b = hello :: (gotIn b).map answerTo) : Attends hearing (b ++ [.heard x])

theorem serverPlan_lost {b : List Event} {x : Heard} (hx : ∀ m, x ≠ .message m) : serverPlan (b ++ [.heard x]) = none := by
  unfold serverPlan
  rw [List.getLast?_concat]
  cases x with
  | message m => exact absurd rfl (hx m)
  | ended => rfl
  | failed => rfl

theorem answer_may {m : OwnedMsg} (h : m.spec.Sendable isizeMax) : mayBeSent (answerTo m) = true := by
  rcases m with b | b | (_ | c) | b | b
  · rfl
  · rfl
  · rfl
  · rfl
  · exact decide_eq_true h.1
  · exact decide_eq_true h.1

theorem attends_of {hearing : Nat → Heard} (hf : ∀ {ms m}, Told hearing (ms ++ [m]) → m.spec.Sendable isizeMax) {past} (h : Heeds serverPlan hearing past) : Attends hearing past := by
  induction h with
  | start => exact .new
  | @said past m h hm ih =>
    cases ih with
    | new =>
      simp only [serverPlan, List.getLast?_nil, Option.some.injEq, Deed.say.injEq] at hm
      subst hm
      exact .spoke (b := []) rfl (by intro m hm; cases hm) (by intro i hi; cases hi) rfl rfl
    | @spoke b m' hm' hg ht hn hs => rw [serverPlan_said hm'] at hm; cases hm
    | bye hb hg ht hn hs => rw [serverPlan_bye] at hm; cases hm
    | lost hx hh hg ht hn hs => rw [serverPlan_lost hx] at hm; cases hm
    | @got b m' hg ht hn hs =>
      rw [serverPlan_got] at hm
      simp only [Option.some.injEq, Deed.say.injEq] at hm
      subst hm
      rw [answer_may (hf ht)]
      have e1 : gotIn (b ++ [.heard (.message m')]) = gotIn b ++ [m'] := by rw [gotIn_append]; rfl
      have e2 : hearsIn (b ++ [.heard (.message m')]) = (gotIn (b ++ [.heard (.message m')])).length := by
        rw [e1, hearsIn_append, hn]; simp [hearsIn]
      have e3 : saidIn (b ++ [.heard (.message m')] ++ [.said (answerTo m') true]) = hello :: (gotIn (b ++ [.heard (.message m')])).map answerTo := by
        rw [e1, saidIn_append, saidIn_append, hs]; simp [saidIn]
      cases hc : m'.isClose with
      | true =>
        obtain ⟨c, rfl⟩ := isClose_iff.mp hc
        exact .bye e1 hg (by rw [e1]; exact ht) e2 e3
      | false =>
        refine .spoke (by rw [answer_close]; exact hc) ?_ (by rw [e1]; exact ht) e2 e3
        rw [e1]
        intro x hx
        rcases List.mem_append.mp hx with hx | hx
        · exact hg x hx
        · rw [List.mem_singleton.mp hx]; exact hc
  | @heard past h hm ih =>
    cases ih with
    | new => simp only [serverPlan, List.getLast?_nil, Option.some.injEq, reduceCtorEq] at hm
    | bye hb hg ht hn hs => rw [serverPlan_bye] at hm; cases hm
    | lost hx hh hg ht hn hs => rw [serverPlan_lost hx] at hm; cases hm
    | got hg ht hn hs => rw [serverPlan_got] at hm; cases hm
    | @spoke b m' hm' hg ht hn hs =>
      have e1 : gotIn (b ++ [.said m' true]) = gotIn b := by rw [gotIn_append]; simp [gotIn]
      have e2 : hearsIn (b ++ [.said m' true]) = hearsIn b := by rw [hearsIn_append]; simp [hearsIn]
      rw [e2, hn]
      cases hx : hearing (gotIn b).length with
      | message m => exact .got (by rw [e1]; exact hg) (by rw [e1]; exact ht.snoc hx) (by rw [e1, e2]; exact hn) (by rw [e1]; exact hs)
      | ended => exact .lost nofun (by rw [e1]; exact hx) (by rw [e1]; exact hg) (by rw [e1]; exact ht) (by rw [e1, e2]; exact hn) (by rw [e1]; exact hs)
      | failed => exact .lost nofun (by rw [e1]; exact hx) (by rw [e1]; exact hg) (by rw [e1]; exact ht) (by rw [e1, e2]; exact hn) (by rw [e1]; exact hs)

theorem told_fit {B p mask hearing} (h : Stands B p mask hearing) {ms m} (ht : Told hearing (ms ++ [m])) : m.spec.Sendable isizeMax := by
  refine stands_fit h (n := ms.length) (fun i hi => ⟨_, ht i (by simp; omega)⟩) ?_
  have := ht ms.length (by simp)
  simpa using this

/-- Everything that was got came from the first receiving calls. -/
theorem attends_got {hearing past} (h : Attends hearing past) :
    Told hearing (gotIn past) ∧ NoClose (gotIn past).dropLast ∧ saidIn past <+: hello :: (gotIn past).map answerTo ∧ past.length ≤ 2 * (gotIn past).length + 2 ∧
      (serverPlan past = none → saidIn past = hello :: (gotIn past).map answerTo ∧ ((∃ g c, gotIn past = g ++ [.close c]) ∨ ∀ m, hearing (gotIn past).length ≠ .message m)) := by
  have noDrop : ∀ {l : List OwnedMsg}, NoClose l → NoClose l.dropLast := fun hl m hm => hl m (List.dropLast_subset _ hm)
  cases h with
  | new =>
    refine ⟨?_, ?_, List.nil_prefix, by simp, fun h => by simp [serverPlan] at h⟩
    · intro i hi; simp [gotIn] at hi
    · intro m hm; simp [gotIn] at hm
  | @spoke b m hm hg ht hn hs =>
    have e1 : gotIn (b ++ [.said m true]) = gotIn b := by rw [gotIn_append]; simp [gotIn]
    refine ⟨by rw [e1]; exact ht, by rw [e1]; exact noDrop hg, by rw [e1, hs]; exact List.prefix_refl _, ?_, fun h => by rw [serverPlan_said hm] at h; cases h⟩
    rw [events_length, hs, e1, hearsIn_append, hn]; simp [hearsIn]; omega
  | @bye b c g hb hg ht hn hs =>
    have e1 : gotIn (b ++ [.said (.close none) true]) = gotIn b := by rw [gotIn_append]; simp [gotIn]
    refine ⟨by rw [e1]; exact ht, by rw [e1, hb, List.dropLast_concat]; exact hg, by rw [e1, hs]; exact List.prefix_refl _, ?_, fun _ => ⟨by rw [e1, hs], .inl ⟨g, c, by rw [e1, hb]⟩⟩⟩
    rw [events_length, hs, e1, hearsIn_append, hn]; simp [hearsIn]; omega
  | @got b m hg ht hn hs =>
    have e1 : gotIn (b ++ [.heard (.message m)]) = gotIn b ++ [m] := by rw [gotIn_append]; rfl
    have e2 : saidIn (b ++ [.heard (.message m)]) = saidIn b := by rw [saidIn_append]; simp [saidIn]
    refine ⟨by rw [e1]; exact ht, by rw [e1, List.dropLast_concat]; exact hg, ?_, ?_, fun h => by rw [serverPlan_got] at h; cases h⟩
    · rw [e1, e2, hs, List.map_append, ← List.cons_append]; exact List.prefix_append _ _
    · rw [events_length, e2, e1, hs, hearsIn_append, hn]; simp [hearsIn]; omega
  | @lost b x hx hh hg ht hn hs =>
    have e1 : gotIn (b ++ [.heard x]) = gotIn b := by
      rw [gotIn_append]
      cases x with
      | message m => exact absurd rfl (hx m)
      | ended => simp [gotIn]
      | failed => simp [gotIn]
    have e2 : saidIn (b ++ [.heard x]) = saidIn b := by rw [saidIn_append]; simp [saidIn]
    refine ⟨by rw [e1]; exact ht, by rw [e1]; exact noDrop hg, by rw [e1, e2, hs]; exact List.prefix_refl _, ?_, fun _ => ⟨by rw [e1, e2, hs], .inr ?_⟩⟩
    · rw [events_length, e2, e1, hs, hearsIn_append, hn]; simp [hearsIn]; omega
    · intro m; rw [e1, hh]; exact hx m

theorem attends_count {hearing past} (h : Attends hearing past) : (gotIn past).length ≤ (saidIn past).length := by
  cases h with
  | new => simp [gotIn]
  | @spoke b m hm hg ht hn hs => rw [gotIn_append, hs]; simp [gotIn]
  | @bye b c g hb hg ht hn hs => rw [gotIn_append, hs]; simp [gotIn]
  | @got b m hg ht hn hs => rw [gotIn_append, saidIn_append, hs]; simp [gotIn]
  | @lost b x hx hh hg ht hn hs =>
    rw [gotIn_append, saidIn_append, hs]
    cases x with
    | message m => exact absurd rfl (hx m)
    | ended => simp [gotIn, saidIn]
    | failed => simp [gotIn, saidIn]

/-- All sends of the server succeed. -/
theorem attends_sent {hearing : Nat → Heard} (hf : ∀ {ms m}, Told hearing (ms ++ [m]) → m.spec.Sendable isizeMax) {past} (h : Heeds serverPlan hearing past) : sentIn past = saidIn past := by
  induction h with
  | start => rfl
  | @said past m h hm ih =>
    have ha := attends_of hf (Heeds.said h hm)
    have : mayBeSent m = true := by
      generalize hq : past ++ [.said m (mayBeSent m)] = q at ha
      cases ha with
      | new => simp at hq
      | spoke =>
        have := List.append_inj_right' hq rfl
        simp only [List.cons.injEq, Event.said.injEq, and_true] at this
        exact this.2
      | bye =>
        have := List.append_inj_right' hq rfl
        simp only [List.cons.injEq, Event.said.injEq, and_true] at this
        exact this.2
      | got =>
        have := List.append_inj_right' hq rfl
        simp at this
      | lost =>
        have := List.append_inj_right' hq rfl
        simp at this
    rw [sentIn_append, saidIn_append, ih, this]
    rfl
  | @heard past h hm ih => rw [sentIn_append, saidIn_append, ih]; rfl

theorem attends_typed {B p mask hearing} (h : Stands B p mask hearing) : serverPlan.Typed hearing := by
  intro past m hh hm
  have ha := attends_of (told_fit h) hh
  cases ha with
  | new =>
    simp only [serverPlan, List.getLast?_nil, Option.some.injEq, Deed.say.injEq] at hm
    subst hm
    refine ⟨(utf8Valid_iff _).mp (by decide +kernel), fun b hb => ?_⟩
    rcases hb with hb | hb
    · cases hb; decide
    · cases hb
  | spoke hm' => rw [serverPlan_said hm'] at hm; cases hm
  | bye => rw [serverPlan_bye] at hm; cases hm
  | lost hx => rw [serverPlan_lost hx] at hm; cases hm
  | @got b m' hg ht hn hs =>
    rw [serverPlan_got] at hm
    simp only [Option.some.injEq, Deed.say.injEq] at hm
    subst hm
    have := told_fit h ht
    rcases m' with b | b | (_ | c) | b | b
    · exact ⟨this.1, fun x hx => by rcases hx with hx | hx <;> cases hx; exact this.2⟩
    · exact ⟨trivial, fun x hx => by rcases hx with hx | hx <;> cases hx; exact this⟩
    · exact ⟨trivial, fun x hx => by rcases hx with hx | hx <;> cases hx⟩
    · exact ⟨trivial, fun x hx => by rcases hx with hx | hx <;> cases hx⟩
    · exact ⟨trivial, fun x hx => by rcases hx with hx | hx <;> cases hx⟩
    · exact ⟨trivial, fun x hx => by rcases hx with hx | hx <;> cases hx⟩

theorem came_after (fs gs : List Brings) (h : finished fs = true) : came (fs ++ gs) = came fs ∧ finished (fs ++ gs) = true := by
  induction fs with
  | nil => cases h
  | cons x fs ih => cases x <;> simp_all [came, finished]

/-! ## Short streams do not reach the message limit -/

theorem isFrame_takes {f : Spec.Frame} {key : Option Key4} {bs : Bytes} (h : IsFrame f (key.map Key4.toBytes) bs) : f.payload.length + 2 ≤ bs.length := by
  obtain ⟨b0, b1, l7, ext, body, h1, -, -, -, -, -, h2⟩ := h
  rw [h1]
  have := masked_length h2
  simp only [List.length_append, List.length_cons, List.length_nil]
  omega

theorem decode_takes {c : DfCodec} (hc : c.maxDf ≤ u32Max) {src rest : Bytes} {f : DataFrame} (h : c.decode src = (.ok (some f), rest)) : f.data.length + 2 + rest.length ≤ src.length := by
  have hd := DfCodec.decode_eq c hc src
  rw [h] at hd
  split at hd
  · next g r hp =>
    cases hd
    obtain ⟨-, -, key, pre, h1, -, h2⟩ := (parseFrame_ok_iff (Nat.lt_of_le_of_lt hc (by decide))).mp hp
    have := isFrame_takes h2
    rw [h1, List.length_append]
    have e : f.spec.payload = f.data := rfl
    rw [e] at this
    omega
  · cases hd
  · cases hd

theorem parseFrame_no_limit {m : Bool} {lim : Nat} {bs rest : Bytes} : parseFrame m lim bigErr bs ≠ .err msgLimitErr rest := by
  intro h
  unfold parseFrame at h
  rw [Ps.bind_def] at h
  split at h
  · split at h
    · simp [bigErr, msgLimitErr] at h
    · rw [Ps.bind_def] at h
      split at h
      · unfold bodyPs at h
        split at h
        · cases h
        · next e hb => 
          have := body_err hb
          cases h
          cases m <;> simp [maskErr, msgLimitErr] at this
        · simp [msgLimitErr] at h
      · next e r hp => unfold Ps.take at hp; split at hp <;> simp at hp
      · simp at h
  · next e r hp => 
    rcases parseHeader_err hp with rfl | rfl | rfl <;> simp [msgLimitErr] at h
  · cases h

theorem fromDataframes_no_limit {fs : List FrameView} (h : OwnedMsg.fromDataframes fs = .err msgLimitErr) : False := by
  have collect : ∀ (first : Bool) (data : Bytes) (gs : List FrameView), collectFrames first data gs ≠ .err msgLimitErr := by
    intro first data gs
    induction gs generalizing first data with
    | nil => simp [collectFrames]
    | cons f gs ih =>
      unfold collectFrames
      split
      · simp [msgLimitErr]
      · split
        · simp [msgLimitErr]
        · exact ih _ _
  unfold OwnedMsg.fromDataframes at h
  cases hm : Msg.fromDataframes fs with
  | ok m => rw [hm] at h; cases h
  | panic e => rw [hm] at h; cases h
  | err e =>
    rw [hm] at h
    have h : e = msgLimitErr := by cases h; rfl
    subst h
    unfold Msg.fromDataframes at hm
    split at hm
    · simp [msgLimitErr] at hm
    · next first rest =>
      simp only at hm
      split at hm
      · cases hm
      · cases hc : collectFrames true [] (first :: rest) with
        | err e =>
          rw [hc] at hm
          have : e = msgLimitErr := by cases hm; rfl
          subst this
          exact collect _ _ _ hc
        | panic e => rw [hc] at hm; cases hm
        | ok data =>
          rw [hc] at hm
          have hm : (match Opcode.new first.opcode with
            | some .text => if utf8Valid data then Res.ok ⟨.text, none, data⟩ else .err .utf8
            | some .binary => .ok (Msg.binary data)
            | some .close =>
              if data = [] then .ok Msg.closeEmpty
              else
                if data.length < 2 then .err (.ofIo .unexpectedEof)
                else if 2 > data.length then .panic "range start index out of range"
                else if utf8Valid (data.drop 2) then
                  .ok (Msg.closeBecause (UInt16.ofNat (beNat (data.take 2))) (data.drop 2))
                else .err .utf8
            | some .ping => .ok (Msg.ping data)
            | some .pong => .ok (Msg.pong data)
            | _ => .err (.protocol "Unsupported opcode received") : Res Msg) = .err msgLimitErr := hm
          repeat' split at hm
          all_goals simp [msgLimitErr, WsErr.ofIo] at hm

theorem held_snoc (b : List DataFrame) (f : DataFrame) : heldLen (b ++ [f]) = heldLen b + f.data.length := by simp [heldLen]

theorem onFrame_quiet {maxMsg cur : Nat} {b b' : List DataFrame} {f : DataFrame} {r : Res (Option OwnedMsg)} (h : MsgCodec.onFrame maxMsg b cur f = .done r b')
    (hm : cur + (f.data.length + overhead) ≤ maxMsg) : r ≠ .err msgLimitErr ∧ heldLen b' ≤ heldLen b + f.data.length := by
  have hb : ∀ {fs : List FrameView}, (do let m ← OwnedMsg.fromDataframes fs; pure (some m) : Res (Option OwnedMsg)) ≠ .err msgLimitErr := by
    intro fs he
    cases hq : OwnedMsg.fromDataframes fs with
    | ok m => rw [hq] at he; cases he
    | panic m => rw [hq] at he; cases he
    | err e =>
      rw [hq] at he
      have : e = msgLimitErr := by cases he; rfl
      subst this
      exact fromDataframes_no_limit hq
  unfold MsgCodec.onFrame at h
  simp only at h
  split at h
  · cases h; exact ⟨by simp [msgLimitErr], by omega⟩
  · split at h
    · cases h; exact ⟨hb, by omega⟩
    · split at h
      · cases h; exact ⟨by simp [msgLimitErr], by omega⟩
      · split at h
        · cases h; exact ⟨hb, by simp [heldLen]⟩
        · split at h
          · cases h; exact ⟨by simp [msgLimitErr], by rw [held_snoc]; omega⟩
          · split at h
            · omega
            · cases h

theorem onFrame_next {maxMsg cur cur' : Nat} {b b' : List DataFrame} {f : DataFrame} (h : MsgCodec.onFrame maxMsg b cur f = .next b' cur') :
    cur' = cur + (f.data.length + overhead) ∧ heldLen b' = heldLen b + f.data.length := by
  unfold MsgCodec.onFrame at h
  simp only at h
  repeat' split at h
  all_goals first | (cases h; exact ⟨rfl, held_snoc _ _⟩) | cases h

theorem dfDecode_calm {c : DfCodec} (hc : c.maxDf ≤ u32Max) (src : Bytes) : (c.decode src).1 ≠ .err msgLimitErr ∧ (c.decode src).2.length ≤ src.length := by
  have hd := DfCodec.decode_eq c hc src
  split at hd
  · next f rest hp => rw [hd]; exact ⟨by simp, Nat.le_of_lt (DfCodec.decode_lt hd)⟩
  · rw [hd]; exact ⟨by simp, Nat.le_refl _⟩
  · next e rest hp =>
    rw [hd]
    refine ⟨fun he => ?_, ?_⟩
    · have : e = msgLimitErr := by cases he; rfl
      subst this
      exact parseFrame_no_limit hp
    · have := parseFrame_err_len hp
      show (if _ then rest else src).length ≤ _
      split <;> omega

/-- The decoder does not count more than 32 times the bytes that came. -/
theorem loop_calm (c : MsgCodec) (cur : Nat) (src : Bytes) (hc : c.df.maxDf ≤ u32Max) (h1 : heldLen c.buffer ≤ cur) (h2 : cur + 32 * src.length ≤ c.maxMsg) :
    (c.loop cur src).1 ≠ .err msgLimitErr ∧ (c.loop cur src).2.1.df = c.df ∧ (c.loop cur src).2.1.maxMsg = c.maxMsg ∧
      heldLen (c.loop cur src).2.1.buffer + 32 * (c.loop cur src).2.2.length ≤ c.maxMsg := by
  have ho : overhead = 64 := rfl
  fun_induction MsgCodec.loop c cur src with
  | case1 c cur src f src' h r buffer hs =>
    have ht := decode_takes hc h
    obtain ⟨g1, g2⟩ := onFrame_quiet hs (by omega)
    exact ⟨g1, rfl, rfl, by simp only; omega⟩
  | case2 c cur src f src' h buffer cur' hs ih =>
    have ht := decode_takes hc h
    obtain ⟨g1, g2⟩ := onFrame_next hs
    exact ih hc (by simp only; omega) (by simp only; omega)
  | case3 c cur src src' h =>
    have := dfDecode_calm hc src
    rw [h] at this
    have h3 : src'.length ≤ src.length := this.2
    exact ⟨nofun, rfl, rfl, by simp only; omega⟩
  | case4 c cur src e src' h =>
    have := dfDecode_calm hc src
    rw [h] at this
    have h3 : src'.length ≤ src.length := this.2
    exact ⟨fun he => this.1 (by cases he; rfl), rfl, rfl, by simp only; omega⟩
  | case5 c cur src e src' h =>
    have := dfDecode_calm hc src
    rw [h] at this
    have h3 : src'.length ≤ src.length := this.2
    exact ⟨nofun, rfl, rfl, by simp only; omega⟩

theorem decMany_calm (n : Nat) (c : MsgCodec) (bs : Bytes) (hc : c.df.maxDf ≤ u32Max) (h : heldLen c.buffer + 32 * bs.length ≤ c.maxMsg) :
    .err msgLimitErr ∉ (decMany msgDecoder n c bs).1 := by
  induction n generalizing c bs with
  | zero => simp [decMany]
  | succ n ih =>
    obtain ⟨h1, h2, h3, h4⟩ := loop_calm c (heldLen c.buffer) bs hc (Nat.le_refl _) h
    simp only [decMany, List.mem_cons, not_or]
    have e : msgDecoder c bs = c.loop (heldLen c.buffer) bs := rfl
    generalize c.loop (heldLen c.buffer) bs = z at *
    obtain ⟨r, c', rest⟩ := z
    have hn : (decNext msgDecoder c bs).2 = (c', rest) ∧ (decNext msgDecoder c bs).1 ≠ .err msgLimitErr := by
      unfold decNext
      rw [e]
      rcases r with (_ | a) | e' | e'
      · refine ⟨rfl, ?_⟩
        show (if rest = [] then _ else _) ≠ _
        split <;> simp [bytesRemaining, msgLimitErr]
      · exact ⟨rfl, nofun⟩
      · exact ⟨rfl, fun he => h1 (by cases he; rfl)⟩
      · exact ⟨rfl, nofun⟩
    refine ⟨fun he => hn.2 he.symm, ?_⟩
    show .err msgLimitErr ∉ (decMany msgDecoder n (decNext msgDecoder c bs).2.1 (decNext msgDecoder c bs).2.2).1
    rw [hn.1]
    exact ih c' rest (by simp only at h2; rw [h2]; exact hc) (by simp only at h3 h4 ⊢; omega)

theorem nextMany_calm {ctx : Context} {maxDf maxMsg : Nat} {B : Bytes} (h : 32 * B.length ≤ min maxMsg u32Max) (n : Nat) :
    .err msgLimitErr ∉ ((Framed.new (MsgCodec.newWithLimits ctx maxDf maxMsg)).nextMany msgDecoder n (allOf B)).1 := by
  have hc := MsgCodec.wf_new ctx maxDf maxMsg
  have hd := decMany_calm n (MsgCodec.newWithLimits ctx maxDf maxMsg) B hc.1 (by simpa [heldLen, MsgCodec.newWithLimits] using h)
  have hb : (Framed.new (MsgCodec.newWithLimits ctx maxDf maxMsg)).buf ++ Src.flat (allOf B) = B := allOf_flat B
  obtain ⟨xs, fr', s', g1, -, -, g4⟩ := nextMany_spec msgDecoder_chunkable n (allOf B) (Framed.new (MsgCodec.newWithLimits ctx maxDf maxMsg))
    (msg_live_new _ hc [] _ (ready_of_chunks (allOf_chunks B))) hc.1 (by rw [hb]; exact goodMany_of_items n _ _ hd)
  rw [hb, show (Framed.new (MsgCodec.newWithLimits ctx maxDf maxMsg)).codec = MsgCodec.newWithLimits ctx maxDf maxMsg from rfl] at g4
  rw [g4] at hd
  rw [g1]
  exact hd

end WS
