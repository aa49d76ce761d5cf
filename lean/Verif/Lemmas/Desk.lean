import Verif.Spec.Desk
import Verif.Lemmas.Reception
import Verif.Lemmas.AsyncWhole
/-!
# Lemmas for C88
-/

namespace WS
open Spec

/-! ## One poll of a stream -/

theorem pollRead_suffix {σ α} (dec : Decoder σ α) (s : Src) (fr : Framed σ) : (fr.pollRead dec s).2.2 <:+ s := by
  induction s generalizing fr with
  | nil => unfold Framed.pollRead; exact List.suffix_refl _
  | cons e s ih =>
    cases e with
    | error k =>
      unfold Framed.pollRead
      split <;> exact List.suffix_cons _ _
    | chunk b =>
      unfold Framed.pollRead
      split
      · exact List.suffix_cons _ _
      · split
        · exact List.suffix_cons _ _
        · exact (ih _).trans (List.suffix_cons _ _)
        · exact List.suffix_cons _ _
        · exact List.suffix_cons _ _

theorem poll_suffix {σ α} (dec : Decoder σ α) (s : Src) (fr : Framed σ) : (fr.poll dec s).2.2 <:+ s := by
  unfold Framed.poll
  split
  · split
    · exact List.suffix_refl _
    · split
      · exact List.suffix_refl _
      · exact pollRead_suffix dec s _
      · exact List.suffix_refl _
      · exact List.suffix_refl _
  · exact pollRead_suffix dec s _

theorem pollRead_closes {σ α} (dec : Decoder σ α) (s : Src) (fr : Framed σ) (h : (fr.pollRead dec s).1 = .ready .done) : (fr.pollRead dec s).2.1.eof = true := by
  induction s generalizing fr with
  | nil =>
    unfold Framed.pollRead Framed.pollEof
    simp only
    split <;> rfl
  | cons e s ih =>
    cases e with
    | error k =>
      unfold Framed.pollRead at h
      split at h <;> cases h
    | chunk b =>
      unfold Framed.pollRead at h ⊢
      split at h
      · next hb =>
        rw [if_pos hb]
        unfold Framed.pollEof
        simp only
        split <;> rfl
      · next hb =>
        rw [if_neg hb]
        split at h
        · cases h
        · exact ih _ h
        · cases h
        · cases h

theorem poll_closes {σ α} (dec : Decoder σ α) (s : Src) (fr : Framed σ) (h : (fr.poll dec s).1 = .ready .done) : (fr.poll dec s).2.1.eof = true := by
  unfold Framed.poll at h ⊢
  split at h
  · next hr =>
    rw [if_pos hr]
    split at h
    · next he =>
      rw [if_pos he]
      unfold Framed.pollEof
      simp only
      split <;> exact he
    · next he =>
      rw [if_neg he]
      split at h
      · cases h
      · exact pollRead_closes dec s _ h
      · cases h
      · cases h
  · next hr =>
    rw [if_neg hr]
    exact pollRead_closes dec s _ h

theorem pollRead_sleeps {σ α} (dec : Decoder σ α) (s : Src) (fr : Framed σ) (hr : fr.readable = false) (h : (fr.pollRead dec s).1 = .notReady) : (fr.pollRead dec s).2.1.readable = false := by
  induction s generalizing fr with
  | nil => unfold Framed.pollRead at h; cases h
  | cons e s ih =>
    cases e with
    | error k =>
      unfold Framed.pollRead
      split <;> exact hr
    | chunk b =>
      unfold Framed.pollRead at h ⊢
      split at h
      · cases h
      · next hb =>
        rw [if_neg hb]
        split at h
        · cases h
        · exact ih _ rfl h
        · cases h
        · cases h

theorem poll_sleeps {σ α} (dec : Decoder σ α) (s : Src) (fr : Framed σ) (h : (fr.poll dec s).1 = .notReady) : (fr.poll dec s).2.1.readable = false := by
  unfold Framed.poll at h ⊢
  split at h
  · next hr =>
    rw [if_pos hr]
    split at h
    · cases h
    · next he =>
      rw [if_neg he]
      split at h
      · cases h
      · exact pollRead_sleeps dec s _ rfl h
      · cases h
      · cases h
  · next hr =>
    rw [if_neg hr]
    exact pollRead_sleeps dec s _ (by simpa using hr) h

theorem flat_suffix {s s' : Src} (h : s' <:+ s) : ∃ p, s.flat = p ++ s'.flat := by
  obtain ⟨p, rfl⟩ := h
  exact ⟨Src.flat p, flat_app _ _⟩

theorem offered_flat (w : Bytes) (n : Nat) (e : Bool) : (offered w n e).flat = w.take n := by
  unfold offered
  split
  · simp [Src.flat]
  · next h =>
    have h : w.take n = [] := Classical.not_not.mp h
    rw [h]
    split <;> simp [Src.flat]

/-- What is left of what has come. -/
theorem waiting_left {w : Bytes} {n : Nat} {e : Bool} {s' : Src} (h : s' <:+ offered w n e) : w.drop (used (offered w n e) s') = s'.flat ++ w.drop n := by
  obtain ⟨p, hp⟩ := flat_suffix h
  have hl : used (offered w n e) s' = p.length := by
    unfold used
    rw [hp, List.length_append]; omega
  rw [hl]
  rw [offered_flat] at hp
  conv => lhs; rw [← List.take_append_drop n w, hp, List.append_assoc, List.drop_left]

theorem offered_ready (w : Bytes) (n : Nat) (e : Bool) : (offered w n e).Ready := by
  unfold offered
  split
  · next h => exact ⟨h, rfl, trivial⟩
  · split
    · trivial
    · exact ⟨rfl, trivial⟩

/-- The end of the stream is seen, or the read finds nothing more for now. -/
theorem offered_cases (w : Bytes) (n : Nat) (e : Bool) : (offered w n e = [] ∧ e = true ∧ w = [] ∧ 0 < n) ∨ .error .wouldBlock ∈ offered w n e := by
  unfold offered
  split
  · right; simp
  · split
    · next h => exact .inl ⟨rfl, h⟩
    · right; simp

/-- A stream of messages that is polled: it goes on waiting, or says what it would say if everything were there. -/
theorem desk_hear {fr : Framed MsgCodec} {w : Bytes} {ended : Bool} {R : Bytes} (n : Nat) (hs : Ear.Sane ended (.async fr) (allOf w)) (hR : ended = true → R = [])
    (hc : (Mind.async fr.codec).Calm (fr.buf ++ w ++ R)) {x : Poll OwnedMsg} {fr' : Framed MsgCodec} {s' : Src} (hq : fr.poll msgDecoder (offered w n ended) = (x, fr', s')) :
    Ear.Sane ended (.async fr') (allOf (w.drop (used (offered w n ended) s'))) ∧
    (Mind.async fr'.codec).Calm (fr'.buf ++ w.drop (used (offered w n ended) s') ++ R) ∧
    match x with
    | .notReady => (Mind.async fr'.codec).next (fr'.buf ++ w.drop (used (offered w n ended) s') ++ R) = (Mind.async fr.codec).next (fr.buf ++ w ++ R)
    | .ready y => (Mind.async fr.codec).next (fr.buf ++ w ++ R) = (.ofItem y, .async fr'.codec, fr'.buf ++ w.drop (used (offered w n ended) s') ++ R) ∧ (y = .done → ended = true) := by
  have hsuf := poll_suffix msgDecoder (offered w n ended) fr
  rw [hq] at hsuf
  simp only at hsuf
  rw [waiting_left hsuf]
  obtain ⟨hP, -, hst⟩ := hs
  have hg := (hc 1).1
  have hdone : x = .ready .done → fr'.eof = true := fun h => by
    have := poll_closes msgDecoder (offered w n ended) fr
    rw [hq] at this
    exact this h
  rcases Bool.eq_false_or_eq_true fr.eof with he | he
  · obtain ⟨hen, hrd, hw⟩ : ended = true ∧ fr.readable = true ∧ w = [] := by
      rcases hst with ⟨h, -⟩ | ⟨h1, -, h2, h3⟩
      · rw [he] at h; cases h
      · refine ⟨h1, h2, ?_⟩
        rw [← allOf_flat w, h3]; rfl
    subst hen hw
    obtain rfl := hR rfl
    have hp := poll_spec msgDecoder_chunkable [] fr (.inr ⟨he, hrd, rfl⟩) hP (by simpa [Src.flat] using hg)
    have hsf : s'.flat = [] := by
      obtain ⟨p, hp⟩ := flat_suffix hsuf
      rw [offered_flat, List.take_nil] at hp
      exact (List.append_eq_nil_iff.mp hp.symm).2
    have hpoll : fr.poll msgDecoder [] = (x, fr', []) ∧ ∃ y, x = .ready y := by
      unfold Framed.poll at hq ⊢
      simp only [hrd, he, if_true, Prod.mk.injEq] at hq ⊢
      exact ⟨⟨hq.1, hq.2.1, trivial⟩, _, hq.1.symm⟩
    obtain ⟨hpoll, y, rfl⟩ := hpoll
    rw [hpoll] at hp
    simp only at hp
    obtain ⟨p1, p2, p3⟩ := hp
    simp only [hsf, List.drop_nil, List.append_nil, Src.flat] at p1 hc ⊢
    refine ⟨⟨p3, nofun, ?_⟩, ?_, ?_, fun _ => trivial⟩
    · rcases p2 with ⟨h1, -, h2⟩ | ⟨h1, h2, h3⟩
      · exact .inl ⟨h1, h2⟩
      · exact .inr ⟨rfl, h1, h2, rfl⟩
    · have := calm_next hc
      simp only [Mind.next, ← p1] at this
      exact this
    · simp only [Mind.next, ← p1]
  · obtain hi : fr.readable = false → msgDecoder fr.codec fr.buf = (.ok none, fr.codec, fr.buf) := by
      rcases hst with ⟨-, h⟩ | ⟨-, h, -⟩
      · exact h
      · rw [he] at h; cases h
    rcases offered_cases w n ended with ⟨h0, hen, hw, hn⟩ | hwb
    · subst hen hw
      obtain rfl := hR rfl
      rw [h0] at hq hsuf
      obtain rfl : s' = [] := by simpa using hsuf
      have hp := poll_spec msgDecoder_chunkable [] fr (.inl ⟨he, trivial, hi⟩) hP (by simpa [Src.flat] using hg)
      rw [hq] at hp
      cases x with
      | notReady => exact absurd (poll_block hq) (by simp)
      | ready y =>
        simp only at hp
        obtain ⟨p1, p2, p3⟩ := hp
        simp only [List.drop_nil, List.append_nil, Src.flat] at p1 hc ⊢
        refine ⟨⟨p3, nofun, ?_⟩, ?_, ?_, fun _ => trivial⟩
        · rcases p2 with ⟨h1, -, h2⟩ | ⟨h1, h2, h3⟩
          · exact .inl ⟨h1, h2⟩
          · exact .inr ⟨rfl, h1, h2, rfl⟩
        · have := calm_next hc
          simp only [Mind.next, ← p1] at this
          exact this
        · simp only [Mind.next, ← p1]
    · have ho := poll_open msgDecoder (offered w n ended) (offered_ready w n ended) hwb fr he
      rw [hq] at ho
      simp only at ho
      have hpr := poll_prompt fr fr' _ s' (allOf (w.drop n ++ R)) x hq ho
      have hfl : Src.flat (offered w n ended ++ allOf (w.drop n ++ R)) = w ++ R := by
        rw [flat_app, allOf_flat, offered_flat, ← List.append_assoc, List.take_append_drop]
      have hp := poll_spec msgDecoder_chunkable (offered w n ended ++ allOf (w.drop n ++ R)) fr
        (.inl ⟨he, ready_append (offered_ready w n ended) (ready_of_chunks (allOf_chunks _)), hi⟩) hP (by rw [hfl, ← List.append_assoc]; exact hg)
      rw [hpr, hfl, ← List.append_assoc] at hp
      cases x with
      | notReady =>
        simp only at hp
        obtain ⟨p1, p2, p3⟩ := hp
        rw [flat_app, allOf_flat, ← List.append_assoc] at p3
        simp only [List.append_assoc] at p3 hc ⊢
        refine ⟨⟨p2, allOf_chunks _, ?_⟩, calm_same p3.symm hc, ?_⟩
        · rcases p1 with ⟨h1, -, h2⟩ | ⟨h1, h2, h3⟩
          · exact .inl ⟨h1, h2⟩
          · rw [ho] at h1; cases h1
        · simp only [Mind.next, decNext, p3]
      | ready y =>
        simp only at hp
        obtain ⟨p1, p2, p3⟩ := hp
        rw [flat_app, allOf_flat, ← List.append_assoc] at p1
        simp only [List.append_assoc] at p1 hc ⊢
        refine ⟨⟨p3, allOf_chunks _, ?_⟩, ?_, ?_, fun hy => ?_⟩
        · rcases p2 with ⟨h1, -, h2⟩ | ⟨h1, h2, h3⟩
          · exact .inl ⟨h1, h2⟩
          · rw [ho] at h1; cases h1
        · have := calm_next hc
          simp only [Mind.next, ← p1] at this
          exact this
        · simp only [Mind.next, ← p1]
        · rw [hdone (by rw [hy])] at ho; cases ho

/-- A poll that waits has read all that it was offered. -/
theorem poll_takes {σ α} {dec : Decoder σ α} {fr fr' : Framed σ} {w : Bytes} {n : Nat} {e : Bool} {s' : Src} (h : fr.poll dec (offered w n e) = (.notReady, fr', s')) : s' = [] := by
  have one : ∀ (fr : Framed σ), fr.pollRead dec (offered w n e) = (.notReady, fr', s') → s' = [] := by
    intro fr h
    unfold offered at h
    split at h
    · next hb =>
      unfold Framed.pollRead at h
      rw [if_neg hb] at h
      split at h
      · cases h
      · unfold Framed.pollRead at h
        simp only [if_true, Prod.mk.injEq] at h
        exact h.2.2.symm
      · cases h
      · cases h
    · split at h
      · unfold Framed.pollRead at h; cases h
      · unfold Framed.pollRead at h
        simp only [if_true, Prod.mk.injEq] at h
        exact h.2.2.symm
  unfold Framed.poll at h
  split at h
  · split at h
    · cases h
    · split at h
      · cases h
      · exact one _ h
      · cases h
      · cases h
  · exact one _ h

/-! ## The head -/

/-- What a poll of the stream of heads comes to, when `A` has come and has not been taken. -/
inductive Readout (p : ReqParser) (A : Bytes) (fin : Bool) : Poll Request → Framed Unit → Bytes → Prop
  | waits (fr : Framed Unit) (w : Bytes) (he : fr.eof = false) (hr : fr.readable = false) (hn : splitOffHttp fr.buf = none) (ha : fr.buf ++ w = A) : Readout p A fin .notReady fr w
  | item (fr : Framed Unit) (w : Bytes) (m : Request) (n : Nat) (head : Bytes) (hs : splitOffHttp A = some (head, fr.buf ++ w)) (hp : p.parse head = .complete m n) :
    Readout p A fin (.ready (.item m)) fr w
  | fails (fr : Framed Unit) (w : Bytes) (y : Item Request) (head rest : Bytes) (hy : ∀ m, y ≠ .item m) (hs : splitOffHttp A = some (head, rest)) (hp : p.parse head = .error) :
    Readout p A fin (.ready y) fr w
  | ends (fr : Framed Unit) (w : Bytes) (y : Item Request) (hy : ∀ m, y ≠ .item m) (hf : fin = true) (hs : splitOffHttp A = none) : Readout p A fin (.ready y) fr w

theorem decode_headless {p : ReqParser} {src : Bytes} (h : splitOffHttp src = none) : httpDecoder p () src = (.ok none, (), src) := by
  unfold httpDecoder
  rw [h]

theorem desk_read {p : ReqParser} {fr : Framed Unit} {w R : Bytes} {ended : Bool} (n : Nat) (he : fr.eof = false) (hi : fr.readable = false → splitOffHttp fr.buf = none)
    (hB : Clearcut p (fr.buf ++ w ++ R)) {x : Poll Request} {fr' : Framed Unit} {s' : Src} (hq : fr.poll (httpDecoder p) (offered w n ended) = (x, fr', s')) :
    Readout p (fr.buf ++ w) ended x fr' (w.drop (used (offered w n ended) s')) := by
  have hsuf := poll_suffix (httpDecoder p) (offered w n ended) fr
  rw [hq] at hsuf
  simp only at hsuf
  rw [waiting_left hsuf]
  have found : ∀ {a z head rest : Bytes}, a ++ z = fr.buf ++ w → splitOffHttp a = some (head, rest) →
      splitOffHttp (fr.buf ++ w) = some (head, rest ++ z) ∧ p.parse head ≠ .part := by
    intro a z head rest ha hs
    have h1 : splitOffHttp (fr.buf ++ w) = some (head, rest ++ z) := by rw [← ha]; exact splitOff_more z hs
    exact ⟨h1, clearcut_prefix p hB (List.prefix_append _ _) h1⟩
  have reads : ∀ fr0 : Framed Unit, fr0.buf = fr.buf → fr0.eof = false → fr0.readable = false → splitOffHttp fr.buf = none → fr0.pollRead (httpDecoder p) (offered w n ended) = (x, fr', s') →
      Readout p (fr.buf ++ w) ended x fr' (s'.flat ++ w.drop n) := by
    intro fr0 hb0 he0 hr0 hn hq
    unfold offered at hq
    split at hq
    · next hne =>
      unfold Framed.pollRead at hq
      rw [if_neg hne, hb0] at hq
      cases hs : splitOffHttp (fr.buf ++ w.take n) with
      | none =>
        rw [decode_headless hs] at hq
        simp only at hq
        unfold Framed.pollRead at hq
        simp only [if_true, Prod.mk.injEq] at hq
        obtain ⟨rfl, rfl, rfl⟩ := hq
        refine .waits _ _ he0 rfl hs ?_
        show fr.buf ++ w.take n ++ ([] ++ w.drop n) = _
        rw [List.nil_append, List.append_assoc, List.take_append_drop]
      | some q =>
        obtain ⟨head, rest⟩ := q
        obtain ⟨h1, h2⟩ := found (z := w.drop n) (by rw [List.append_assoc, List.take_append_drop]) hs
        rw [decode_head p hs] at hq
        unfold headAnswer at hq
        cases hy : p.parse head with
        | part => exact absurd hy h2
        | complete m k =>
          rw [hy] at hq
          simp only [Prod.mk.injEq] at hq
          obtain ⟨rfl, rfl, rfl⟩ := hq
          exact .item _ _ m k head (by simpa [Src.flat] using h1) hy
        | error =>
          rw [hy] at hq
          simp only [Prod.mk.injEq] at hq
          obtain ⟨rfl, rfl, rfl⟩ := hq
          exact .fails _ _ _ head _ nofun h1 hy
    · next hne =>
      have ht : w.take n = [] := Classical.not_not.mp hne
      split at hq
      · next hx =>
        obtain ⟨x1, x2, x3⟩ := hx
        unfold Framed.pollRead Framed.pollEof at hq
        simp only [hb0] at hq
        rw [decode_headless hn] at hq
        simp only [Prod.mk.injEq] at hq
        obtain ⟨rfl, rfl, rfl⟩ := hq
        refine .ends _ _ _ ?_ x1 (by rw [x2, List.append_nil]; exact hn)
        intro m
        split <;> nofun
      · unfold Framed.pollRead at hq
        simp only [if_true, Prod.mk.injEq] at hq
        obtain ⟨rfl, rfl, rfl⟩ := hq
        refine .waits _ _ he0 hr0 (by rw [hb0]; exact hn) ?_
        rw [hb0]
        congr 1
        show [] ++ w.drop n = w
        conv => rhs; rw [← List.take_append_drop n w, ht]
  unfold Framed.poll at hq
  split at hq
  · rw [if_neg (by simp [he])] at hq
    cases hs : splitOffHttp fr.buf with
    | none =>
      rw [decode_headless hs] at hq
      exact reads { fr with readable := false } rfl he rfl hs hq
    | some q =>
      obtain ⟨head, rest⟩ := q
      obtain ⟨h1, h2⟩ := found (z := w) rfl hs
      rw [decode_head p hs] at hq
      unfold headAnswer at hq
      have hfl : (offered w n ended).flat ++ w.drop n = w := by rw [offered_flat, List.take_append_drop]
      cases hy : p.parse head with
      | part => exact absurd hy h2
      | complete m k =>
        rw [hy] at hq
        simp only [Prod.mk.injEq] at hq
        obtain ⟨rfl, rfl, rfl⟩ := hq
        exact .item _ _ m k head (by rw [hfl]; exact h1) hy
      | error =>
        rw [hy] at hq
        simp only [Prod.mk.injEq] at hq
        obtain ⟨rfl, rfl, rfl⟩ := hq
        exact .fails _ _ _ head _ nofun h1 hy
  · next hr =>
    have hr : fr.readable = false := by simpa using hr
    exact reads fr rfl he hr (hi hr) hq

/-! ## The sending half -/

/-- `L` has been said behind `base`; some of it may still be in the sink. -/
structure Queued (base : Bytes) (L : List Message) (o : Outbox) : Prop where
  wf : o.sink.buf.WF
  role : o.sink.isServer = true
  total : ∃ out, o.wire ++ o.sink.buf.data = base ++ out ∧ Says false L out

theorem granted_patient (wire : Bytes) (k : Nat) : Sink.Patient ⟨wire, granted k k⟩ := by
  unfold granted
  split <;> intro e he <;> simp at he
  · subst he; exact .inl rfl
  · rcases he with rfl | rfl
    · exact .inr ⟨k, by omega, rfl⟩
    · exact .inl rfl

theorem flush_poll (o : Outbox) (script : List WEv) : ∃ w, o.sink.pollComplete ⟨o.wire, script⟩ = ((o.flush script).1, (o.flush script).2.sink, w) ∧ w.wire = (o.flush script).2.wire := by
  unfold Outbox.flush
  exact ⟨_, rfl, rfl⟩

theorem Queued.flush {base : Bytes} {L : List Message} {o : Outbox} (h : Queued base L o) (k : Nat) :
    ∃ o', (o.flush (granted k k) = (.ready, o') ∧ o'.sink.buf.data = [] ∨ o.flush (granted k k) = (.notReady, o') ∧ (0 < k → o'.sink.buf.data.length < o.sink.buf.data.length)) ∧
      Queued base L o' ∧ o.wire <+: o'.wire ∧ o'.sink.buf.data.length ≤ o.sink.buf.data.length := by
  refine ⟨(o.flush (granted k k)).2, ?_, ?_⟩
  · rw [flush_granted]
    simp only [Nat.min_self]
    by_cases hk : o.sink.buf.data.length ≤ k
    · left
      simp only [if_pos hk, true_and]
      simp only [BytesMut.advance]
      rw [Nat.min_eq_right hk, List.drop_length]
    · right
      simp only [if_neg hk, true_and]
      simp only [BytesMut.advance, List.length_drop]
      omega
  · rw [flush_granted]
    refine ⟨⟨?_, h.role, ?_⟩, ⟨_, rfl⟩, ?_⟩
    · have := h.wf
      simp only [BytesMut.WF, BytesMut.advance, List.length_drop] at this ⊢
      omega
    · simp only [BytesMut.advance]
      rw [List.append_assoc, List.take_append_drop]
      exact h.total
    · simp only [BytesMut.advance, List.length_drop]
      omega

theorem Queued.push {base : Bytes} {L : List Message} {o : Outbox} (h : Queued base L o) {m : OwnedMsg} (hm : m.spec.Sendable isizeMax) (k : Nat) :
    ∃ o', (o.push m (granted k k) = (.ready, o') ∧ Queued base (L ++ [m.spec]) o' ∨
        o.push m (granted k k) = (.notReady, o') ∧ Queued base L o' ∧ (0 < k → o'.sink.buf.data.length < o.sink.buf.data.length)) ∧ o.wire <+: o'.wire := by
  obtain ⟨out, ho, hL⟩ := h.total
  have hp := startSend_patient o.sink ⟨o.wire, granted k k⟩ (granted_patient _ _) h.wf isize_lt hm (o.keys 0) o.extra
  have hless : (o.sink.startSend m.view (o.keys 0) o.extra ⟨o.wire, granted k k⟩).1 = .notReady → 0 < k →
      (o.sink.startSend m.view (o.keys 0) o.extra ⟨o.wire, granted k k⟩).2.1.buf.data.length < o.sink.buf.data.length := by
    intro hn hk
    unfold FramedWrite.startSend at hn ⊢
    obtain ⟨w, hw, -⟩ := flush_poll o (granted k k)
    rw [flush_granted] at hw
    simp only [Nat.min_self] at hw
    simp only [hw] at hn ⊢
    by_cases h8 : o.sink.buf.data.length ≥ 8 * 1024
    · rw [if_pos h8] at hn ⊢
      have hd : (o.sink.buf.advance (min k o.sink.buf.data.length)).data.length < o.sink.buf.data.length := by
        simp only [BytesMut.advance, List.length_drop]
        omega
      by_cases hk' : o.sink.buf.data.length ≤ k
      · simp only [if_pos hk'] at hn ⊢
        split at hn
        · next hq => rw [if_pos hq]; exact hd
        · next hq => split at hn <;> cases hn
      · simp only [if_neg hk'] at hn ⊢
        split at hn
        · next hq => rw [if_pos hq]; exact hd
        · next hq => split at hn <;> cases hn
    · rw [if_neg h8] at hn
      split at hn <;> cases hn
  unfold Outbox.push
  cases hx : o.sink.startSend m.view (o.keys 0) o.extra ⟨o.wire, granted k k⟩ with
  | mk r q =>
    obtain ⟨fw, w⟩ := q
    rw [hx] at hp hless
    simp only at hp hless
    obtain ⟨p1, p2, p3, p4, ⟨rfl, p6⟩ | ⟨rfl, bs, p6, p7⟩⟩ := hp
    · exact ⟨_, .inr ⟨rfl, ⟨p2, p3.trans h.role, out, p6.trans ho, hL⟩, hless rfl⟩, p4⟩
    · refine ⟨_, .inl ⟨rfl, p2, p3.trans h.role, out ++ bs, ?_, ?_⟩, p4⟩
      · rw [← List.append_assoc, ← ho]; exact p7
      · rw [h.role] at p6; exact says_append hL p6

theorem Queued.says {base : Bytes} {L : List Message} {o : Outbox} (h : Queued base L o) : ∃ out, Says false L out ∧ o.wire <+: base ++ out := by
  obtain ⟨out, ho, hL⟩ := h.total
  exact ⟨out, hL, _, ho⟩

theorem Queued.head {o : Outbox} (hw : o.wire = []) (hd : o.sink.buf.data = []) (hf : o.sink.buf.WF) (hr : o.sink.isServer = true) (b : Bytes) : Queued b [] (o.head b) := by
  obtain ⟨h1, h2⟩ := httpEncode_data b o.extra o.sink.buf
  refine ⟨h2 hf, hr, [], ?_, says_nil _⟩
  show o.wire ++ (httpEncode b o.extra o.sink.buf).data = _
  rw [h1, hw, hd]
  simp

/-! ## The request -/

section
variable [B64]

theorem desk_asked {preq : ReqParser} {B rest head buf : Bytes} {m : Request} {n : Nat} (hs : splitOffHttp B = some (head, rest)) (hp : preq.parse head = .complete m n) (x : Desk) :
    asyncReception preq B = .drops ∧ x.asked m buf = x.drops ∨
    (∃ w, asyncReception preq B = .rejects w ∧ x.asked m buf = { x with door := .answering false, task := { x.task with out := x.task.out.head w } }) ∨
    ∃ w, asyncReception preq B = .serves w rest ∧ x.asked m buf = { x with door := .answering true, task := { x.task with
      read := Framed.fromParts (MsgCodec.newWithLimits .server (100 * 2 ^ 20) (200 * 2 ^ 20)) buf, out := x.task.out.head w } } := by
  unfold asyncReception
  rw [hs]
  simp only [hp]
  unfold Desk.asked
  cases hv : validate m.subject.method m.version m.headers with
  | error e => exact .inl ⟨by cases m.headers.getKey <;> rfl, rfl⟩
  | ok q =>
    cases q
    obtain ⟨key, hk⟩ := validate_key hv
    rw [hk]
    simp only
    generalize hu : (⟨[], ⟨[], ⟨[], []⟩⟩, m, buf⟩ : AsyncUpgrade) = u
    have hu0 : u.headers = [] := by rw [← hu]
    have hur : u.request = m := by rw [← hu]
    have hub : u.buffer = buf := by rw [← hu]
    have hpr : u.protocols = m.headers.getProtocol.getD [] := by
      rw [← hur]
      rfl
    rw [hpr]
    by_cases hin : rustWebsocket ∈ m.headers.getProtocol.getD []
    · right; right
      rw [if_pos hin, if_pos hin]
      have hprep := prepare_some (u.run [.useProtocol rustWebsocket]) none (key := key) (by show u.request.headers.getKey = _; rw [hur]; exact hk)
      have hwr := text_prepare (run_text [.useProtocol rustWebsocket] (by rw [hu0]; exact text_nil) : TextHeaders (u.run [.useProtocol rustWebsocket]).headers) (custom := none)
        (fun c h => by cases h) _ _ hprep
      rw [show (Upgrade.useProtocol rustWebsocket u).prepareHeaders none = _ from hprep]
      simp only
      rw [if_neg (by rw [hwr]; simp), fmt_response_101, responseLines_eq u hu0 [.useProtocol rustWebsocket] none key]
      have e1 : ((u.run [.useProtocol rustWebsocket]).accepted none key).buffer = buf := hub
      have e2 : ((u.run [.useProtocol rustWebsocket]).accepted none key).request.version = m.version := by
        show u.request.version = _
        rw [hur]
      rw [e1, e2]
      exact ⟨_, rfl, rfl⟩
    · right; left
      rw [if_neg hin, if_neg hin, fmt_response_400, hu0, hur]
      exact ⟨_, rfl, rfl⟩

end

/-! ## Behind the handshake -/

/-- What the task has still to hear is what is left of all it has to hear. -/
structure DeskEar (rest R : Bytes) (x : Desk) : Prop where
  sane : Ear.Sane x.ended (.async x.task.read) (allOf x.waiting)
  calm : (Mind.async x.task.read.codec).Calm (x.task.read.buf ++ x.waiting ++ R)
  fit : (Mind.async x.task.read.codec).Fit
  hears : ∀ n, (Mind.async x.task.read.codec).hears n (x.task.read.buf ++ x.waiting ++ R) = deskHears rest (x.task.heard.length + n)
  open_ : ¬ Parted x.task.heard

/-- There is nothing more to hear. -/
def Silenced (rest : Bytes) (x : Desk) : Prop := Parted x.task.heard ∨ (deskHears rest x.task.heard.length = .ended ∧ x.ended = true)

/-- How far the task is. -/
def ServesInv (w rest R : Bytes) (x : Desk) : Prop :=
  Course (deskHears rest) x.task.heard ∧
  match x.task.phase with
  | .greet => DeskEar rest R x ∧ x.task.heard = [] ∧ Queued w [] x.task.out
  | .greeting => DeskEar rest R x ∧ x.task.heard = [] ∧ Queued w [.text (ascii "Hello World!")] x.task.out
  | .forward b => DeskEar rest R x ∧ (∃ L, Queued w L x.task.out ∧ L ++ b.toList.map OwnedMsg.spec = welcome (x.task.heard.map OwnedMsg.spec)) ∧ ∀ m ∈ b, m.spec.Sendable isizeMax
  | .closing => Silenced rest x ∧ Queued w (welcome (x.task.heard.map OwnedMsg.spec)) x.task.out
  | .part => Silenced rest x ∧ Queued w (welcome (x.task.heard.map OwnedMsg.spec)) x.task.out
  | .parting => Silenced rest x ∧ Queued w (welcome (x.task.heard.map OwnedMsg.spec) ++ [.close]) x.task.out
  | .over .returned => Silenced rest x ∧ Queued w (welcome (x.task.heard.map OwnedMsg.spec) ++ [.close]) x.task.out ∧ x.task.out.sink.buf.data = []
  | .over _ => ¬ Parted x.task.heard ∧ deskHears rest x.task.heard.length = .failed ∧ Queued w (welcome (x.task.heard.map OwnedMsg.spec)) x.task.out

theorem sendable_hello : (OwnedMsg.text (ascii "Hello World!")).spec.Sendable isizeMax := by
  exact ⟨isUtf8_ascii (by decide), by decide⟩

theorem DeskEar.out {rest R : Bytes} {x : Desk} (h : DeskEar rest R x) (o : Outbox) (p : ServePhase) : DeskEar rest R { x with task := { x.task with out := o, phase := p } } :=
  ⟨h.sane, h.calm, h.fit, h.hears, h.open_⟩

theorem welcome_snoc (ms : List OwnedMsg) (m : OwnedMsg) : welcome ((ms ++ [m]).map OwnedMsg.spec) = welcome (ms.map OwnedMsg.spec) ++ m.spec.reply.toList := by
  unfold welcome
  rw [List.map_append, List.filterMap_append, List.cons_append]
  cases h : m.spec.reply <;> simp [h]

theorem desk_turn {w rest R : Bytes} {x : Desk} (h : ServesInv w rest R x) (hR : x.ended = true → R = []) (n k : Nat) :
    ServesInv w rest R { x with
      task := (x.task.turn (offered x.waiting n x.ended) (granted k k)).1,
      waiting := x.waiting.drop (used (offered x.waiting n x.ended) (x.task.turn (offered x.waiting n x.ended) (granted k k)).2) } := by
  have hstay : x.waiting.drop (used (offered x.waiting n x.ended) (offered x.waiting n x.ended)) = x.waiting := by simp [used]
  obtain ⟨hc, h⟩ := h
  unfold ServeTask.turn
  cases hp : x.task.phase with
  | over e =>
    simp only [hstay]
    exact ⟨hc, by simpa only [hp] using h⟩
  | greet =>
    simp only [hp] at h
    obtain ⟨h1, h2, h3⟩ := h
    obtain ⟨o', ⟨q1, q2⟩ | ⟨q1, q2, -⟩, -⟩ := h3.push sendable_hello k
    · simp only [q1, ServeTask.after, hstay]
      exact ⟨hc, h1.out _ _, h2, q2⟩
    · simp only [q1, ServeTask.after, hstay]
      refine ⟨hc, ?_⟩
      simp only [hp]
      exact ⟨⟨h1.sane, h1.calm, h1.fit, h1.hears, h1.open_⟩, h2, q2⟩
  | greeting =>
    simp only [hp] at h
    obtain ⟨h1, h2, h3⟩ := h
    obtain ⟨o', ⟨q1, -⟩ | ⟨q1, -⟩, q2, -⟩ := h3.flush k
    · simp only [q1, ServeTask.after, hstay]
      refine ⟨hc, h1.out _ _, ⟨_, q2, ?_⟩, nofun⟩
      rw [h2]
      rfl
    · simp only [q1, ServeTask.after, hstay]
      refine ⟨hc, ?_⟩
      simp only [hp]
      exact ⟨⟨h1.sane, h1.calm, h1.fit, h1.hears, h1.open_⟩, h2, q2⟩
  | closing =>
    simp only [hp] at h
    obtain ⟨h1, h2⟩ := h
    obtain ⟨o', ⟨q1, -⟩ | ⟨q1, -⟩, q2, -⟩ := h2.flush k
    · simp only [q1, ServeTask.after, hstay]
      exact ⟨hc, h1, q2⟩
    · simp only [q1, ServeTask.after, hstay]
      refine ⟨hc, ?_⟩
      simp only [hp]
      exact ⟨h1, q2⟩
  | part =>
    simp only [hp] at h
    obtain ⟨h1, h2⟩ := h
    obtain ⟨o', ⟨q1, q2⟩ | ⟨q1, q2, -⟩, -⟩ := h2.push (sendable_close isizeMax) k
    · simp only [q1, ServeTask.after, hstay]
      exact ⟨hc, h1, q2⟩
    · simp only [q1, ServeTask.after, hstay]
      refine ⟨hc, ?_⟩
      simp only [hp]
      exact ⟨h1, q2⟩
  | parting =>
    simp only [hp] at h
    obtain ⟨h1, h2⟩ := h
    obtain ⟨o', ⟨q1, q3⟩ | ⟨q1, -⟩, q2, -⟩ := h2.flush k
    · simp only [q1, ServeTask.after, hstay]
      exact ⟨hc, h1, q2, q3⟩
    · simp only [q1, ServeTask.after, hstay]
      refine ⟨hc, ?_⟩
      simp only [hp]
      exact ⟨h1, q2⟩
  | forward b =>
    simp only [hp] at h
    obtain ⟨h1, ⟨L, h2, h3⟩, h4⟩ := h
    cases b with
    | some m =>
      obtain ⟨o', ⟨q1, q2⟩ | ⟨q1, q2, -⟩, -⟩ := h2.push (h4 m rfl) k
      · simp only [q1, ServeTask.after, hstay]
        refine ⟨hc, h1.out _ _, ⟨_, q2, ?_⟩, nofun⟩
        simpa using h3
      · simp only [q1, ServeTask.after, hstay]
        refine ⟨hc, ?_⟩
        simp only [hp]
        exact ⟨⟨h1.sane, h1.calm, h1.fit, h1.hears, h1.open_⟩, ⟨L, q2, h3⟩, h4⟩
    | none =>
      have hL : L = welcome (x.task.heard.map OwnedMsg.spec) := by simpa using h3
      subst hL
      simp only
      cases hq : x.task.read.poll msgDecoder (offered x.waiting n x.ended) with
      | mk y q =>
        obtain ⟨fr, s'⟩ := q
        obtain ⟨g1, g2, g3⟩ := desk_hear n h1.sane hR h1.calm hq
        have h0 := h1.hears 0
        simp only [Mind.hears, Nat.add_zero] at h0
        cases y with
        | notReady =>
          simp only at g3
          obtain ⟨o', ho, q2, -⟩ := h2.flush k
          have key : DeskEar rest R { x with task := { x.task with read := fr, out := o' }, waiting := x.waiting.drop (used (offered x.waiting n x.ended) s') } := by
            refine ⟨g1, g2, ?_, ?_, h1.open_⟩
            · have := poll_good msgDecoder_good (offered x.waiting n x.ended) x.task.read h1.fit
              rw [hq] at this
              exact this
            · intro i
              rw [← h1.hears i]
              cases i with
              | zero => simp only [Mind.hears]; rw [g3]
              | succ i => simp only [Mind.hears]; rw [g3]
          rcases ho with ⟨q1, -⟩ | ⟨q1, -⟩
          · simp only [q1, ServeTask.after]
            exact ⟨hc, ⟨key.sane, key.calm, key.fit, key.hears, key.open_⟩, ⟨_, q2, by simp⟩, nofun⟩
          · simp only [q1, ServeTask.after]
            refine ⟨hc, ?_⟩
            simp only [hp]
            exact ⟨⟨key.sane, key.calm, key.fit, key.hears, key.open_⟩, ⟨_, q2, by simp⟩, nofun⟩
        | ready y =>
          simp only at g3
          obtain ⟨g3, g4⟩ := g3
          rw [g3] at h0
          simp only at h0
          cases y with
          | item m =>
            have h0 : Heard.message m = deskHears rest x.task.heard.length := h0
            have hf := next_fit h1.fit (x := m) (by rw [g3]; rfl)
            rw [g3] at hf
            obtain ⟨f1, f2⟩ := hf
            have hc' := course_snoc hc h1.open_ h0.symm
            simp only
            by_cases hm : m.isClose = true
            · simp only [if_pos hm]
              refine ⟨hc', .inl (parted_snoc.mpr hm), ?_⟩
              rw [welcome_snoc]
              have : m.spec.reply = none := by
                cases m with
                | close c => cases c <;> rfl
                | _ => cases hm
              rw [this]
              simpa using h2
            · simp only [if_neg hm]
              refine ⟨hc', ⟨g1, g2, f1, ?_, fun h => hm (parted_snoc.mp h)⟩, ⟨_, h2, ?_⟩, ?_⟩
              · intro i
                have := h1.hears (i + 1)
                simp only [Mind.hears] at this
                rw [g3] at this
                simp only at this
                rw [this]
                simp only [List.length_append, List.length_cons, List.length_nil]
                congr 1
                omega
              · rw [welcome_snoc, filterReply_spec m (by simpa using hm)]
                cases filterReply m <;> rfl
              · intro a ha
                exact filterReply_sendable f2 ha
          | done =>
            exact ⟨hc, .inr ⟨h0.symm, g4 rfl⟩, h2⟩
          | err e => exact ⟨hc, h1.open_, h0.symm, h2⟩
          | panic e => exact ⟨hc, h1.open_, h0.symm, h2⟩

theorem ServesInv.door {w rest R : Bytes} {x : Desk} (h : ServesInv w rest R x) (d : DoorPhase) : ServesInv w rest R { x with door := d } := by
  obtain ⟨hc, h⟩ := h
  refine ⟨hc, ?_⟩
  simp only
  split at h
  all_goals first
    | exact ⟨⟨h.1.sane, h.1.calm, h.1.fit, h.1.hears, h.1.open_⟩, h.2⟩
    | exact h

/-! ## From the first byte on -/

section
variable [B64]

/-- How far the connection is, when `B` is everything that is to come and `R` has not come yet. -/
inductive DeskInv (preq : ReqParser) (B R : Bytes) (x : Desk) : Prop
  | reading (fr : Framed Unit) (hd : x.door = .reading fr) (he : fr.eof = false) (hi : fr.readable = false → splitOffHttp fr.buf = none) (hb : fr.buf ++ x.waiting ++ R = B)
      (hp : x.task.phase = .greet) (hh : x.task.heard = []) (hw : x.task.out.wire = []) (hz : x.task.out.sink.buf.data = []) (hf : x.task.out.sink.buf.WF) (hr : x.task.out.sink.isServer = true)
  | rejecting (w : Bytes) (hd : x.door = .answering false) (ha : asyncReception preq B = .rejects w) (hp : x.task.phase = .greet) (hq : Queued w [] x.task.out)
  | accepting (w rest : Bytes) (hd : x.door = .answering true) (ha : asyncReception preq B = .serves w rest) (hp : x.task.phase = .greet) (hs : ServesInv w rest R x)
  | serving (w rest : Bytes) (hd : x.door = .through) (ha : asyncReception preq B = .serves w rest) (hs : ServesInv w rest R x)
  | late (hd : x.door = .dropped) (ha : asyncReception preq B = .waits) (he : x.ended = true) (hw : x.task.out.wire = []) (hp : x.task.phase = .over .returned)
  | bad (hd : x.door = .dropped) (ha : asyncReception preq B = .drops) (hw : x.task.out.wire = []) (hp : x.task.phase = .over .returned)
  | rejected (w : Bytes) (hd : x.door = .dropped) (ha : asyncReception preq B = .rejects w) (hw : x.task.out.wire = w) (hp : x.task.phase = .over .returned)

theorem reception_none {preq : ReqParser} {B : Bytes} (h : splitOffHttp B = none) : asyncReception preq B = .waits := by
  unfold asyncReception
  rw [h]

theorem reception_error {preq : ReqParser} {B head rest : Bytes} (h : splitOffHttp B = some (head, rest)) (hp : preq.parse head = .error) : asyncReception preq B = .drops := by
  unfold asyncReception
  rw [h]
  simp only [hp]

theorem desk_poll {preq : ReqParser} {B R : Bytes} (hB : Unmistakable preq B) {x : Desk} (h : DeskInv preq B R x) (hR : x.ended = true → R = []) (n k : Nat) : DeskInv preq B R (x.poll preq n k) := by
  cases h with
  | reading fr hd he hi hb hp hh hw hz hf hr =>
    unfold Desk.poll
    rw [hd]
    simp only
    cases hq : fr.poll (httpDecoder preq) (offered x.waiting n x.ended) with
    | mk y q =>
      obtain ⟨fr', s'⟩ := q
      have hread := desk_read (R := R) n he hi (by rw [hb]; exact hB.head) hq
      cases hread with
      | waits _ _ h1 h2 h3 h4 => exact .reading fr' rfl h1 (fun _ => h3) (by simp only; rw [h4, hb]) hp hh hw hz hf hr
      | item _ _ m i head h1 h2 =>
        have hB' : splitOffHttp B = some (head, fr'.buf ++ x.waiting.drop (used (offered x.waiting n x.ended) s') ++ R) := by rw [← hb]; exact splitOff_more R h1
        simp only
        rcases desk_asked (buf := fr'.buf) hB' h2 { x with door := .reading fr, waiting := x.waiting.drop (used (offered x.waiting n x.ended) s') } with ⟨a1, a2⟩ | ⟨w, a1, a2⟩ | ⟨w, a1, a2⟩
        · rw [a2]; exact .bad rfl a1 hw rfl
        · rw [a2]; exact .rejecting w rfl a1 hp (Queued.head hw hz hf hr w)
        · rw [a2]
          have hcalm := calm_new (hB.calm _ _ a1)
          refine .accepting w _ rfl a1 hp ⟨?_, ?_⟩
          · simp only [hh]
            exact ⟨nofun, nofun⟩
          · simp only [hp]
            refine ⟨⟨async_sane rfl (by decide) (allOf_chunks _) _, hcalm, fitAsync_new _ _ _, ?_, ?_⟩, hh, Queued.head hw hz hf hr w⟩
            · intro i
              simp only [hh, List.length_nil, Nat.zero_add]
              exact asyncHears_eq hcalm i
            · simp only [hh]
              rintro ⟨m, hm, -⟩
              cases hm
      | fails _ _ y head rest hy h1 h2 =>
        have hx : DeskInv preq B R (Desk.drops { x with waiting := x.waiting.drop (used (offered x.waiting n x.ended) s') }) :=
          .bad rfl (reception_error (by rw [← hb]; exact splitOff_more R h1) h2) hw rfl
        cases y with
        | item m => exact absurd rfl (hy m)
        | done => exact hx
        | err e => exact hx
        | panic e => exact hx
      | ends _ _ y hy h1 h2 =>
        obtain rfl := hR h1
        have hx : DeskInv preq B [] (Desk.drops { x with waiting := x.waiting.drop (used (offered x.waiting n x.ended) s') }) :=
          .late rfl (reception_none (by rw [← hb, List.append_nil]; exact h2)) h1 hw rfl
        cases y with
        | item m => exact absurd rfl (hy m)
        | done => exact hx
        | err e => exact hx
        | panic e => exact hx
  | rejecting w hd ha hp hq =>
    unfold Desk.poll
    rw [hd]
    simp only
    obtain ⟨o', ⟨q1, q3⟩ | ⟨q1, -⟩, q2, -⟩ := hq.flush k
    · rw [q1]
      simp only [Bool.false_eq_true, if_false]
      refine .rejected w rfl ha ?_ rfl
      obtain ⟨out, t1, t2⟩ := q2.total
      obtain rfl := says_once t2 (says_nil _)
      simpa [q3, Desk.drops] using t1
    · rw [q1]
      exact .rejecting w rfl ha hp q2
  | accepting w rest hd ha hp hs =>
    unfold Desk.poll
    rw [hd]
    simp only
    obtain ⟨hc, hs⟩ := hs
    simp only [hp] at hs
    obtain ⟨h1, h2, h3⟩ := hs
    obtain ⟨o', ho, q2, -⟩ := h3.flush k
    have key : ServesInv w rest R { x with task := { x.task with out := o' } } := by
      refine ⟨hc, ?_⟩
      simp only [hp]
      exact ⟨⟨h1.sane, h1.calm, h1.fit, h1.hears, h1.open_⟩, h2, q2⟩
    rcases ho with ⟨q1, -⟩ | ⟨q1, -⟩
    · rw [q1]
      refine .serving w rest rfl ha ⟨key.1, ?_⟩
      have := key.2
      simp only [hp, if_true] at this ⊢
      exact ⟨⟨h1.sane, h1.calm, h1.fit, h1.hears, h1.open_⟩, h2, q2⟩
    · rw [q1]
      exact .accepting w rest rfl ha hp (key.door _)
  | serving w rest hd ha hs =>
    unfold Desk.poll
    rw [hd]
    exact .serving w rest rfl ha ((desk_turn hs hR n k).door _)
  | late hd ha he hw hp => unfold Desk.poll; rw [hd]; exact .late hd ha he hw hp
  | bad hd ha hw hp => unfold Desk.poll; rw [hd]; exact .bad hd ha hw hp
  | rejected w hd ha hw hp => unfold Desk.poll; rw [hd]; exact .rejected w hd ha hw hp

omit [B64] in
theorem ear_bytes {rest R b : Bytes} {x : Desk} (h : DeskEar rest (b ++ R) x) (he : x.ended = false) : DeskEar rest R { x with waiting := x.waiting ++ b } := by
  obtain ⟨h1, h2, h3, h4, h5⟩ := h
  obtain ⟨s1, s2, s3⟩ := h1
  have hb : x.task.read.buf ++ (x.waiting ++ b) ++ R = x.task.read.buf ++ x.waiting ++ (b ++ R) := by simp
  refine ⟨⟨s1, allOf_chunks _, ?_⟩, by simp only; rw [hb]; exact h2, h3, fun i => by simp only; rw [hb]; exact h4 i, h5⟩
  rcases s3 with s3 | ⟨s3, -⟩
  · exact .inl s3
  · rw [he] at s3; cases s3

omit [B64] in
theorem desk_bytes {w rest R b : Bytes} {x : Desk} (h : ServesInv w rest (b ++ R) x) (he : x.ended = false) : ServesInv w rest R { x with waiting := x.waiting ++ b } := by
  obtain ⟨hc, h⟩ := h
  refine ⟨hc, ?_⟩
  simp only
  split at h
  all_goals first
    | exact ⟨ear_bytes h.1 he, h.2⟩
    | exact h

omit [B64] in
theorem ear_finish {rest R : Bytes} {x : Desk} (h : DeskEar rest R x) : DeskEar rest R { x with ended := true } := by
  obtain ⟨⟨s1, s2, s3⟩, h2, h3, h4, h5⟩ := h
  refine ⟨⟨s1, s2, ?_⟩, h2, h3, h4, h5⟩
  rcases s3 with s3 | ⟨-, s3⟩
  · exact .inl s3
  · exact .inr ⟨rfl, s3⟩

omit [B64] in
theorem silenced_finish {rest : Bytes} {x : Desk} (h : Silenced rest x) : Silenced rest { x with ended := true } := by
  rcases h with h | ⟨h, -⟩
  · exact .inl h
  · exact .inr ⟨h, rfl⟩

omit [B64] in
theorem desk_finish {w rest R : Bytes} {x : Desk} (h : ServesInv w rest R x) : ServesInv w rest R { x with ended := true } := by
  obtain ⟨hc, h⟩ := h
  refine ⟨hc, ?_⟩
  simp only
  split at h
  all_goals first
    | exact ⟨ear_finish h.1, h.2⟩
    | exact ⟨silenced_finish h.1, h.2⟩
    | exact h

theorem poll_ended {preq : ReqParser} (x : Desk) (n k : Nat) : (x.poll preq n k).ended = x.ended := by
  unfold Desk.poll Desk.asked Desk.drops
  repeat' split
  all_goals first | rfl | (simp only []; repeat' split) <;> rfl

/-- Whatever happens. -/
theorem desk_endures {preq : ReqParser} {B : Bytes} (hB : Unmistakable preq B) (es : List Befalls) (x : Desk) (h : DeskInv preq B (if x.ended then [] else brought es) x) :
    DeskInv preq B [] (x.endures preq es) ∧ (x.endures preq es).ended = (x.ended || endedBy es) := by
  induction es generalizing x with
  | nil =>
    refine ⟨?_, by simp [Desk.endures, endedBy]⟩
    show DeskInv preq B [] x
    cases hx : x.ended <;> simpa [hx, brought] using h
  | cons e es ih =>
    show DeskInv preq B [] (Desk.endures preq (x.meets preq e) es) ∧ (Desk.endures preq (x.meets preq e) es).ended = _
    have stay := poll_ended (preq := preq) x
    cases e with
    | poll n k =>
      have h' : DeskInv preq B (if x.ended then [] else brought es) x := h
      have := ih (x.poll preq n k) (by rw [stay]; exact desk_poll hB h' (fun he => by simp [he]) n k)
      rw [stay] at this
      exact this
    | bytes b =>
      rcases Bool.eq_false_or_eq_true x.ended with he | he
      · have hm : x.meets preq (.bytes b) = x := by simp [Desk.meets, he]
        rw [hm]
        exact ih x (by simpa [he] using h)
      · have hm : x.meets preq (.bytes b) = { x with waiting := x.waiting ++ b } := by simp [Desk.meets, he]
        rw [hm]
        refine ih _ ?_
        simp only [he, Bool.false_eq_true, if_false, brought] at h
        rw [if_neg (by simp [he])]
        cases h with
        | reading fr hd a1 a2 hb a3 a4 a5 a6 a7 a8 => exact .reading fr hd a1 a2 (by rw [← hb]; simp) a3 a4 a5 a6 a7 a8
        | rejecting w hd ha hp hq => exact .rejecting w hd ha hp hq
        | accepting w rest hd ha hp hs => exact .accepting w rest hd ha hp (desk_bytes hs he)
        | serving w rest hd ha hs => exact .serving w rest hd ha (desk_bytes hs he)
        | late hd ha he' hw hp => rw [he] at he'; cases he'
        | bad hd ha hw hp => exact .bad hd ha hw hp
        | rejected w hd ha hw hp => exact .rejected w hd ha hw hp
    | finish =>
      have hm : x.meets preq .finish = { x with ended := true } := rfl
      rw [hm]
      have := ih { x with ended := true } (by
        have h : DeskInv preq B [] x := by cases hx : x.ended <;> simpa [hx, brought] using h
        simp only [if_true]
        cases h with
        | reading fr hd a1 a2 hb a3 a4 a5 a6 a7 a8 => exact .reading fr hd a1 a2 hb a3 a4 a5 a6 a7 a8
        | rejecting w hd ha hp hq => exact .rejecting w hd ha hp hq
        | accepting w rest hd ha hp hs => exact .accepting w rest hd ha hp (desk_finish hs)
        | serving w rest hd ha hs => exact .serving w rest hd ha (desk_finish hs)
        | late hd ha he' hw hp => exact .late hd ha rfl hw hp
        | bad hd ha hw hp => exact .bad hd ha hw hp
        | rejected w hd ha hw hp => exact .rejected w hd ha hw hp)
      simpa [endedBy] using this

theorem desk_start {preq : ReqParser} (keys : Nat → Key4) (extra : Nat) (es : List Befalls) : DeskInv preq (brought es) (brought es) (Desk.start keys extra) :=
  .reading _ rfl rfl (fun h => by revert h; decide) (by simp [Desk.start, Framed.new]) rfl rfl rfl rfl (Nat.zero_le _) rfl

theorem desk_inv {preq : ReqParser} (keys : Nat → Key4) (extra : Nat) (es : List Befalls) (hB : Unmistakable preq (brought es)) :
    DeskInv preq (brought es) [] ((Desk.start keys extra).endures preq es) ∧ ((Desk.start keys extra).endures preq es).ended = endedBy es := by
  have := desk_endures hB es (Desk.start keys extra) (desk_start keys extra es)
  simpa [Desk.start] using this

end

/-! ## It gets there -/

theorem poll_shrinks {σ α} {dec : Decoder σ α} (hd : Shrinking dec) {fr fr' : Framed σ} {w : Bytes} {n : Nat} {e : Bool} {s' : Src} (h : fr.poll dec (offered w n e) = (.notReady, fr', s')) :
    fr'.buf.length ≤ fr.buf.length + (w.take n).length := by
  have one : ∀ (fr : Framed σ), fr.pollRead dec (offered w n e) = (.notReady, fr', s') → fr'.buf.length ≤ fr.buf.length + (w.take n).length := by
    intro fr h
    unfold offered at h
    split at h
    · next hb =>
      unfold Framed.pollRead at h
      rw [if_neg hb] at h
      split at h
      · cases h
      · next c' b' q =>
        unfold Framed.pollRead at h
        simp only [if_true, Prod.mk.injEq] at h
        have := (hd fr.codec (fr.buf ++ w.take n)).1
        rw [q, List.length_append] at this
        rw [← h.2.1]
        exact this
      · cases h
      · cases h
    · split at h
      · unfold Framed.pollRead at h; cases h
      · unfold Framed.pollRead at h
        simp only [if_true, Prod.mk.injEq] at h
        rw [← h.2.1]
        omega
  unfold Framed.poll at h
  split at h
  · split at h
    · cases h
    · split at h
      · cases h
      · next c' b' q =>
        have h1 := one _ h
        have h2 := (hd fr.codec fr.buf).1
        rw [q] at h2
        exact Nat.le_trans h1 (Nat.add_le_add_right h2 _)
      · cases h
      · cases h
  · exact one _ h

theorem poll_still {σ α} {dec : Decoder σ α} {fr : Framed σ} (hr : fr.readable = false) (n : Nat) : fr.poll dec (offered [] n false) = (.notReady, fr, []) := by
  unfold offered Framed.poll
  rw [if_neg (by simp [hr]), if_neg (by simp), if_neg (by simp)]
  unfold Framed.pollRead
  simp

theorem poll_ends {σ α} {dec : Decoder σ α} {fr fr' : Framed σ} {n : Nat} {s' : Src} (hr : fr.readable = false) (hn : 0 < n) : fr.poll dec (offered [] n true) ≠ (.notReady, fr', s') := by
  unfold offered Framed.poll
  rw [if_neg (by simp [hr]), if_neg (by simp), if_pos (by simpa using hn)]
  unfold Framed.pollRead
  intro h
  cases h

def doorRank : DoorPhase → Nat
  | .reading _ => 3
  | .answering _ => 2
  | .through => 1
  | .dropped => 0

def phaseRank : ServePhase → Nat
  | .greet => 6
  | .greeting => 5
  | .forward _ => 4
  | .closing => 3
  | .part => 2
  | .parting => 1
  | .over _ => 0

def carrying : ServePhase → Nat
  | .forward (some _) => 1
  | _ => 0

def Desk.bit (x : Desk) : Nat :=
  match x.door with
  | .reading fr => fr.readable.toNat
  | _ => x.task.read.readable.toNat

/-- A poll has made less of something, and not more of what goes before it. -/
def Below (x y : Desk) : Prop :=
  doorRank x.door < doorRank y.door ∨ doorRank x.door = doorRank y.door ∧ (phaseRank x.task.phase < phaseRank y.task.phase ∨ phaseRank x.task.phase = phaseRank y.task.phase ∧
    (x.task.read.buf.length + x.waiting.length < y.task.read.buf.length + y.waiting.length ∨ x.task.read.buf.length + x.waiting.length = y.task.read.buf.length + y.waiting.length ∧
      (carrying x.task.phase < carrying y.task.phase ∨ carrying x.task.phase = carrying y.task.phase ∧
        (x.task.out.sink.buf.data.length < y.task.out.sink.buf.data.length ∨ x.task.out.sink.buf.data.length = y.task.out.sink.buf.data.length ∧ x.waiting.length + x.bit < y.waiting.length + y.bit))))

def Desk.rank (x : Desk) : Nat × Nat × Nat × Nat × Nat × Nat :=
  (doorRank x.door, phaseRank x.task.phase, x.task.read.buf.length + x.waiting.length, carrying x.task.phase, x.task.out.sink.buf.data.length, x.waiting.length + x.bit)

theorem below_wf : WellFounded Below := by
  refine Subrelation.wf (r := InvImage WellFoundedRelation.rel Desk.rank) ?_ (InvImage.wf _ WellFoundedRelation.wf)
  intro x y h
  show Prod.Lex _ _ (doorRank x.door, phaseRank x.task.phase, x.task.read.buf.length + x.waiting.length, carrying x.task.phase, x.task.out.sink.buf.data.length, x.waiting.length + x.bit)
    (doorRank y.door, phaseRank y.task.phase, y.task.read.buf.length + y.waiting.length, carrying y.task.phase, y.task.out.sink.buf.data.length, y.waiting.length + y.bit)
  rcases h with h | ⟨e, h⟩
  · exact .left _ _ h
  rw [e]
  refine .right _ ?_
  rcases h with h | ⟨e, h⟩
  · exact .left _ _ h
  rw [e]
  refine .right _ ?_
  rcases h with h | ⟨e, h⟩
  · exact .left _ _ h
  rw [e]
  refine .right _ ?_
  rcases h with h | ⟨e, h⟩
  · exact .left _ _ h
  rw [e]
  refine .right _ ?_
  rcases h with h | ⟨e, h⟩
  · exact .left _ _ h
  rw [e]
  exact .right _ h

/-- Nothing happens any more unless something comes. -/
inductive DeskRest (x : Desk) : Prop
  | idle (fr : Framed Unit) (hd : x.door = .reading fr) (hr : fr.readable = false) (hw : x.waiting = []) (he : x.ended = false)
  | open_ (hd : x.door = .through) (hp : x.task.phase = .forward none) (hz : x.task.out.sink.buf.data = []) (hw : x.waiting = []) (hr : x.task.read.readable = false) (he : x.ended = false)
  | dropped (hd : x.door = .dropped)
  | over (e : Ending) (hd : x.door = .through) (hp : x.task.phase = .over e)

section
variable [B64]

theorem rest_poll {preq : ReqParser} {x : Desk} (h : DeskRest x) (n k : Nat) : x.poll preq n k = x := by
  obtain ⟨door, task, waiting, ended⟩ := x
  cases h with
  | idle fr hd hr hw he =>
    simp only at hd hw he
    subst hd hw he
    unfold Desk.poll
    simp only [poll_still hr]
    simp [used]
  | open_ hd hp hz hw hr he =>
    simp only at hd hp hz hw hr he
    subst hd hw he
    unfold Desk.poll ServeTask.turn
    simp only [hp, poll_still hr, flush_granted, hz, ServeTask.after]
    obtain ⟨phase, read, ⟨sink, wire, keys, extra⟩, heard⟩ := task
    simp only at hp hz ⊢
    subst hp
    simp [used, BytesMut.advance, hz]
    obtain ⟨r, d, c⟩ := sink
    simp_all
  | dropped hd =>
    simp only at hd
    subst hd
    rfl
  | over e hd hp =>
    simp only at hd hp
    subst hd
    unfold Desk.poll ServeTask.turn
    simp only [hp]
    simp [used]

omit [B64] in
theorem wait_length {σ α} {dec : Decoder σ α} {fr fr' : Framed σ} {w : Bytes} {n : Nat} {e : Bool} {s' : Src} (h : fr.poll dec (offered w n e) = (.notReady, fr', s')) :
    (w.drop (used (offered w n e) s')).length = w.length - n ∧ (w.take n).length = min n w.length := by
  obtain rfl := poll_takes h
  rw [waiting_left (List.nil_suffix)]
  simp [Src.flat]

theorem asked_rank (x : Desk) (m : Request) (b : Bytes) : doorRank (x.asked m b).door < 3 := by
  have hd : doorRank x.drops.door < 3 := by simp [Desk.drops, doorRank]
  unfold Desk.asked
  cases validate m.subject.method m.version m.headers with
  | error e => exact hd
  | ok q =>
    simp only
    split
    · split
      · split
        · exact hd
        · simp [doorRank]
      · exact hd
    · simp [doorRank]

theorem desk_progress {preq : ReqParser} {B : Bytes} (hB : Unmistakable preq B) {x : Desk} (h : DeskInv preq B [] x) {n k : Nat} (hn : 0 < n) (hk : 0 < k) :
    DeskRest x ∨ Below (x.poll preq n k) x := by
  have hInv := desk_poll hB h (fun _ => rfl) n k
  obtain ⟨door, task, waiting, ended⟩ := x
  cases h with
  | reading fr hd he hi hb hp hh hw hz hf hr =>
    simp only at hd
    subst hd
    have drop : ∀ y : Desk, doorRank y.door < 3 → Below y ⟨.reading fr, task, waiting, ended⟩ := fun y hy => .inl hy
    unfold Desk.poll at hInv ⊢
    simp only at hInv ⊢
    cases hq : fr.poll (httpDecoder preq) (offered waiting n ended) with
    | mk y q =>
      obtain ⟨fr', s'⟩ := q
      rw [hq] at hInv
      cases y with
      | notReady =>
        obtain ⟨l1, l2⟩ := wait_length hq
        have hsl := poll_sleeps (httpDecoder preq) (offered waiting n ended) fr
        rw [hq] at hsl
        have hsl : fr'.readable = false := hsl rfl
        by_cases hw0 : waiting = []
        · subst hw0
          rcases Bool.eq_false_or_eq_true fr.readable with hre | hre
          · right
            refine .inr ⟨rfl, .inr ⟨rfl, .inr ⟨?_, .inr ⟨rfl, .inr ⟨rfl, ?_⟩⟩⟩⟩⟩
            · simp
            · simp [Desk.bit, hre, hsl]
          · cases ended with
            | true => exact absurd hq (poll_ends hre hn)
            | false => exact .inl (.idle fr rfl hre rfl rfl)
        · right
          have := List.length_pos_iff.mpr hw0
          refine .inr ⟨rfl, .inr ⟨rfl, .inl ?_⟩⟩
          simp only [l1]
          omega
      | ready y =>
        right
        refine drop _ ?_
        cases y with
        | item m =>
          simp only at hInv ⊢
          exact asked_rank _ _ _
        | _ => simp [Desk.drops, doorRank]
  | rejecting w hd ha hp hq =>
    simp only at hd
    subst hd
    unfold Desk.poll
    simp only
    obtain ⟨o', ⟨q1, q3⟩ | ⟨q1, q3⟩, q2, -⟩ := hq.flush k
    · right; rw [q1]; left; simp [Desk.drops, doorRank]
    · right
      rw [q1]
      refine .inr ⟨rfl, .inr ⟨rfl, .inr ⟨rfl, .inr ⟨rfl, .inl (q3 hk)⟩⟩⟩⟩
  | accepting w rest hd ha hp hs =>
    simp only at hd
    subst hd
    obtain ⟨-, hs⟩ := hs
    simp only at hp
    simp only [hp] at hs
    unfold Desk.poll
    simp only
    obtain ⟨o', ⟨q1, q3⟩ | ⟨q1, q3⟩, q2, -⟩ := hs.2.2.flush k
    · right; rw [q1]; left; simp [doorRank]
    · right
      rw [q1]
      refine .inr ⟨rfl, .inr ⟨rfl, .inr ⟨rfl, .inr ⟨rfl, .inl (q3 hk)⟩⟩⟩⟩
  | late hd => exact .inl (.dropped hd)
  | bad hd => exact .inl (.dropped hd)
  | rejected w hd => exact .inl (.dropped hd)
  | serving w rest hd ha hs =>
    simp only at hd
    subst hd
    obtain ⟨phase, read, out, heard⟩ := task
    have hstay : waiting.drop (used (offered waiting n ended) (offered waiting n ended)) = waiting := by simp [used]
    obtain ⟨hc, hs⟩ := hs
    unfold Desk.poll ServeTask.turn
    cases phase with
    | over e => exact .inl (.over e rfl rfl)
    | greet =>
      right
      simp only at hs
      obtain ⟨o', ⟨q1, q2⟩ | ⟨q1, q2, q3⟩, -⟩ := hs.2.2.push sendable_hello k
      · simp only [q1, ServeTask.after, hstay]
        exact .inr ⟨rfl, .inl (by simp [phaseRank])⟩
      · simp only [q1, ServeTask.after, hstay]
        exact .inr ⟨rfl, .inr ⟨rfl, .inr ⟨rfl, .inr ⟨rfl, .inl (q3 hk)⟩⟩⟩⟩
    | greeting =>
      right
      simp only at hs
      obtain ⟨o', ⟨q1, -⟩ | ⟨q1, q3⟩, q2, -⟩ := hs.2.2.flush k
      · simp only [q1, ServeTask.after, hstay]
        exact .inr ⟨rfl, .inl (by simp [phaseRank])⟩
      · simp only [q1, ServeTask.after, hstay]
        exact .inr ⟨rfl, .inr ⟨rfl, .inr ⟨rfl, .inr ⟨rfl, .inl (q3 hk)⟩⟩⟩⟩
    | closing =>
      right
      simp only at hs
      obtain ⟨o', ⟨q1, -⟩ | ⟨q1, q3⟩, q2, -⟩ := hs.2.flush k
      · simp only [q1, ServeTask.after, hstay]
        exact .inr ⟨rfl, .inl (by simp [phaseRank])⟩
      · simp only [q1, ServeTask.after, hstay]
        exact .inr ⟨rfl, .inr ⟨rfl, .inr ⟨rfl, .inr ⟨rfl, .inl (q3 hk)⟩⟩⟩⟩
    | part =>
      right
      simp only at hs
      obtain ⟨o', ⟨q1, q2⟩ | ⟨q1, q2, q3⟩, -⟩ := hs.2.push (sendable_close isizeMax) k
      · simp only [q1, ServeTask.after, hstay]
        exact .inr ⟨rfl, .inl (by simp [phaseRank])⟩
      · simp only [q1, ServeTask.after, hstay]
        exact .inr ⟨rfl, .inr ⟨rfl, .inr ⟨rfl, .inr ⟨rfl, .inl (q3 hk)⟩⟩⟩⟩
    | parting =>
      right
      simp only at hs
      obtain ⟨o', ⟨q1, -⟩ | ⟨q1, q3⟩, q2, -⟩ := hs.2.flush k
      · simp only [q1, ServeTask.after, hstay]
        exact .inr ⟨rfl, .inl (by simp [phaseRank])⟩
      · simp only [q1, ServeTask.after, hstay]
        exact .inr ⟨rfl, .inr ⟨rfl, .inr ⟨rfl, .inr ⟨rfl, .inl (q3 hk)⟩⟩⟩⟩
    | forward b =>
      simp only at hs
      obtain ⟨h1, ⟨L, h2, h3⟩, h4⟩ := hs
      cases b with
      | some m =>
        right
        obtain ⟨o', ⟨q1, q2⟩ | ⟨q1, q2, q3⟩, -⟩ := h2.push (h4 m rfl) k
        · simp only [q1, ServeTask.after, hstay]
          exact .inr ⟨rfl, .inr ⟨rfl, .inr ⟨rfl, .inl (by simp [carrying])⟩⟩⟩
        · simp only [q1, ServeTask.after, hstay]
          exact .inr ⟨rfl, .inr ⟨rfl, .inr ⟨rfl, .inr ⟨rfl, .inl (q3 hk)⟩⟩⟩⟩
      | none =>
        simp only
        cases hq : read.poll msgDecoder (offered waiting n ended) with
        | mk y q =>
          obtain ⟨fr, s'⟩ := q
          cases y with
          | notReady =>
            obtain ⟨l1, l2⟩ := wait_length hq
            have l3 := poll_shrinks msgDecoder_shrinking hq
            have hsl := poll_sleeps msgDecoder (offered waiting n ended) read
            rw [hq] at hsl
            have hsl : fr.readable = false := hsl rfl
            have less : ∀ (o : Outbox) (p : ServePhase), phaseRank p = 4 → carrying p = 0 → o.sink.buf.data.length ≤ out.sink.buf.data.length →
                (o.sink.buf.data.length < out.sink.buf.data.length ∨ waiting ≠ [] ∨ read.readable = true) →
                Below ⟨.through, ⟨p, fr, o, heard⟩, waiting.drop (used (offered waiting n ended) s'), ended⟩ ⟨.through, ⟨.forward none, read, out, heard⟩, waiting, ended⟩ := by
              intro o p p1 p2 p3 p4
              have hb : Bool.toNat false = 0 := rfl
              have hb' : read.readable.toNat ≤ 1 := Bool.toNat_le _
              have p4' : o.sink.buf.data.length < out.sink.buf.data.length ∨ 0 < waiting.length ∨ read.readable.toNat = 1 := by
                rcases p4 with p4 | p4 | p4
                · exact .inl p4
                · exact .inr (.inl (List.length_pos_iff.mpr p4))
                · exact .inr (.inr (by rw [p4]; rfl))
              rw [l2] at l3
              refine .inr ⟨rfl, .inr ⟨p1, ?_⟩⟩
              simp only [l1, Desk.bit, hsl, hb]
              by_cases hlt : fr.buf.length + (waiting.length - n) < read.buf.length + waiting.length
              · exact .inl hlt
              · refine .inr ⟨by omega, .inr ⟨p2, ?_⟩⟩
                omega
            obtain ⟨o', ho, q2, -, q4⟩ := h2.flush k
            by_cases hrest : out.sink.buf.data = [] ∧ waiting = [] ∧ read.readable = false
            · obtain ⟨r1, r2, r3⟩ := hrest
              subst r2
              cases ended with
              | true => exact absurd hq (poll_ends r3 hn)
              | false => exact .inl (.open_ rfl rfl r1 rfl r3 rfl)
            · right
              have hcase : o'.sink.buf.data.length < out.sink.buf.data.length ∨ waiting ≠ [] ∨ read.readable = true := by
                by_cases a1 : out.sink.buf.data = []
                · by_cases a2 : waiting = []
                  · right; right
                    cases a3 : read.readable with
                    | true => rfl
                    | false => exact absurd ⟨a1, a2, a3⟩ hrest
                  · exact .inr (.inl a2)
                · left
                  have := List.length_pos_iff.mpr a1
                  rcases ho with ⟨-, q3⟩ | ⟨-, q3⟩
                  · rw [q3]; exact this
                  · exact q3 hk
              rcases ho with ⟨q1, -⟩ | ⟨q1, -⟩
              · simp only [q1, ServeTask.after]
                exact less o' _ rfl rfl q4 hcase
              · simp only [q1, ServeTask.after]
                exact less o' _ rfl rfl q4 hcase
          | ready y =>
            right
            obtain ⟨g1, g2, g3, g4⟩ := desk_hear (R := []) n h1.sane (fun _ => rfl) h1.calm hq
            cases y with
            | item m =>
              have hlt := next_lt (m := Mind.async read.codec) (bs := read.buf ++ waiting ++ []) (x := m) (by rw [g3]; rfl)
              rw [g3] at hlt
              simp only [List.append_nil, List.length_append] at hlt
              simp only
              by_cases hm : m.isClose = true
              · simp only [if_pos hm]
                exact .inr ⟨rfl, .inl (by simp [phaseRank])⟩
              · simp only [if_neg hm]
                exact .inr ⟨rfl, .inr ⟨rfl, .inl hlt⟩⟩
            | _ => exact .inr ⟨rfl, .inl (by simp [phaseRank])⟩

theorem rest_endures {preq : ReqParser} {x : Desk} (h : DeskRest x) (f : Nat → Nat × Nat) (j : Nat) : x.endures preq (polledBy f j) = x := by
  unfold polledBy Desk.endures
  rw [List.foldl_map]
  induction j with
  | zero => rfl
  | succ j ih =>
    rw [List.range_succ, List.foldl_append, ih]
    exact rest_poll h _ _

theorem desk_settles {preq : ReqParser} {B : Bytes} (hB : Unmistakable preq B) {x : Desk} (h : DeskInv preq B [] x) (f : Nat → Nat × Nat) (hf : ∀ i, 0 < (f i).1 ∧ 0 < (f i).2) :
    ∃ N y, DeskInv preq B [] y ∧ DeskRest y ∧ y.ended = x.ended ∧ ∀ j, N ≤ j → x.endures preq (polledBy f j) = y := by
  induction x using below_wf.induction generalizing f with
  | _ x ih =>
    rcases desk_progress hB h (hf 0).1 (hf 0).2 with hr | hlt
    · exact ⟨0, x, h, hr, rfl, fun j _ => rest_endures hr f j⟩
    · obtain ⟨N, y, h1, h2, h3, h4⟩ := ih _ hlt (desk_poll hB h (fun _ => rfl) _ _) (fun i => f (i + 1)) (fun i => hf (i + 1))
      refine ⟨N + 1, y, h1, h2, ?_, ?_⟩
      · rw [h3]
        exact poll_ended _ _ _
      · intro j hj
        obtain ⟨j, rfl⟩ : ∃ i, j = i + 1 := ⟨j - 1, by omega⟩
        rw [← h4 j (by omega)]
        unfold polledBy Desk.endures
        rw [List.range_succ_eq_map, List.map_cons, List.foldl_cons, List.map_map]
        rfl

end

end WS
