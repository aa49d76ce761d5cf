import Verif.Spec.Doorstep
import Verif.Lemmas.Opening
import Verif.Lemmas.Memory
import Verif.Lemmas.Stranger
import Verif.Lemmas.Encounter
import Verif.Lemmas.Gone
/-!
# Lemmas for C84

What a blocking program makes of a head depends on the first 2^19 bytes alone (`parseHead_settled`, `parseHead_unsettled`); an async one looks at what comes before the first blank line (`nexts_none`, `nexts_some`).
`Judges` says what the four calls have in common; `DStage` is how far a program has come.
-/

namespace WS
open Spec

section
variable {R : Type} [HasSrc R]

omit [HasSrc R] in
/-- How much hyper's buffer holds when it does not grow any more. -/
theorem reserve_room {b : BufReader R} (hw : b.WF) (hpos : b.pos = 0) (hz : b.buf.length ∈ bufferSizes) (hl : b.window.length < 2 ^ 19) :
    b.maybeReserve.cap < b.maybeReserve.buf.length := by
  have hwl := window_length hw
  obtain ⟨m1, m3, m4, m5, m6, m7⟩ := maybeReserve_spec hw
  have hs := hz
  simp only [bufferSizes, List.mem_cons, List.not_mem_nil, or_false] at hs
  have hm : maxBufferSize = 417792 := rfl
  by_cases hc : b.cap < b.buf.length
  · omega
  · have := hw.2
    have := m7 (by omega) (by omega)
    omega

theorem readIntoBuf_goes {b : BufReader R} (hw : b.WF) (hpos : b.pos = 0) (hz : b.buf.length ∈ bufferSizes) (hl : b.window.length < 2 ^ 19)
    (hc : (HasSrc.get b.inner).Chunks) (hne : (HasSrc.get b.inner).flat ≠ []) : ∃ n b', b.readIntoBuf = (.ok n, b') ∧ n ≠ 0 ∧ (HasSrc.get b'.inner).Chunks := by
  have hroom := reserve_room hw hpos hz hl
  obtain ⟨bs, s', hr1, hr2, hr3⟩ := read1_chunks (n := b.maybeReserve.buf.length - b.maybeReserve.cap) (by omega) hc hne
  unfold BufReader.readIntoBuf
  simp only [maybeReserve_inner]
  rw [if_pos (by omega), hr1]
  refine ⟨_, _, rfl, fun h => hr2 (List.length_eq_zero_iff.mp h), ?_⟩
  simp only [HasSrc.get_set]; exact hr3

theorem readIntoBuf_full {b : BufReader R} (hw : b.WF) (hpos : b.pos = 0) (hz : b.buf.length ∈ bufferSizes) (hl : 2 ^ 19 ≤ b.window.length) : b.readIntoBuf = (.ok 0, b) := by
  have hwl := window_length hw
  have hs := sizes_le hz
  have := hw.2
  have hm : maxBufferSize = 417792 := rfl
  have e : b.maybeReserve = b := by
    unfold BufReader.maybeReserve
    rw [if_neg (by omega)]
  unfold BufReader.readIntoBuf
  simp only [e]
  rw [if_neg (by omega)]

/-- What is undecided as a whole is undecided in each of its beginnings. -/
theorem part_prefix {σ line ok} (p : HeadParser σ line ok) {a b : Bytes} (h : a <+: b) (hb : p.parse b = .part) : p.parse a = .part := by
  obtain ⟨t, rfl⟩ := h
  cases hx : p.parse a with
  | part => rfl
  | error => rw [p.error_mono _ _ hx] at hb; cases hb
  | complete m k => rw [p.complete_mono _ _ _ _ hx] at hb; cases hb

theorem decided_prefix {σ line ok} (p : HeadParser σ line ok) {a b : Bytes} (h : a <+: b) (ha : p.parse a ≠ .part) : p.parse b = p.parse a := by
  obtain ⟨t, rfl⟩ := h
  cases hx : p.parse a with
  | part => exact absurd hx ha
  | error => exact p.error_mono _ _ hx
  | complete m k => exact p.complete_mono _ _ _ _ hx

omit [HasSrc R] in
theorem window_le {b : BufReader R} (hw : b.WF) (hz : b.buf.length ∈ bufferSizes) : b.window.length ≤ 2 ^ 19 := by
  have := window_length hw
  have := sizes_le hz
  have := hw.2
  omega

theorem prefix_taken {a b : Bytes} {n : Nat} (h : a.length ≤ n) : a <+: (a ++ b).take n := by
  rw [List.take_append, List.take_of_length_le h]
  exact List.prefix_append _ _

/-- Reading a head when the first 2^19 bytes settle what it is. -/
theorem parseHead_settled {σ line ok} (p : HeadParser σ line ok) (n : Nat) : ∀ (b : BufReader R), (HasSrc.get b.inner).measure ≤ n → b.WF → b.pos = 0 → b.buf.length ∈ bufferSizes →
    (HasSrc.get b.inner).Chunks → p.parse ((b.window ++ (HasSrc.get b.inner).flat).take (2 ^ 19)) ≠ .part →
    (HasSrc.get (parseHead p b).2.inner).Chunks ∧
    match p.parse ((b.window ++ (HasSrc.get b.inner).flat).take (2 ^ 19)) with
    | .complete m _ => (parseHead p b).1 = .ok m
    | .error => (parseHead p b).1 = .error .http
    | .part => False := by
  induction n using Nat.strongRecOn with
  | ind n ih =>
    intro b hn hw hpos hz hc hd
    have hpre : b.window <+: (b.window ++ (HasSrc.get b.inner).flat).take (2 ^ 19) := by
      exact prefix_taken (window_le hw hz)
    cases hx : p.parse b.window with
    | complete m k =>
      have := decided_prefix p hpre (by rw [hx]; nofun)
      rw [this, hx]
      rw [parseHead.eq_def, hx]
      exact ⟨by simp only [(consume_buf b k).2]; exact hc, rfl⟩
    | error =>
      have := decided_prefix p hpre (by rw [hx]; nofun)
      rw [this, hx]
      rw [parseHead.eq_def, hx]
      exact ⟨hc, rfl⟩
    | part =>
      have hne : (HasSrc.get b.inner).flat ≠ [] := by
        intro h
        rw [h, List.append_nil, List.take_of_length_le (window_le hw hz)] at hd
        exact hd hx
      have hlt : b.window.length < 2 ^ 19 := by
        refine Nat.lt_of_not_le fun hge => hd ?_
        rw [List.take_append_of_le_length hge]
        exact part_prefix p (List.take_prefix _ _) hx
      obtain ⟨k, b', h1, h2, h3⟩ := readIntoBuf_goes hw hpos hz hlt hc hne
      have hs := readIntoBuf_spec hw
      have hz' := readIntoBuf_size hw hz
      rw [h1] at hs hz'
      simp only at hs hz'
      have hm := readIntoBuf_measure h1 h2
      have := ih _ (by omega) b' (Nat.le_refl _) hs.1 (hs.2.1.trans hpos) hz' h3 (by rw [hs.2.2.2.2]; exact hd)
      rw [hs.2.2.2.2] at this
      rw [parseHead.eq_def, hx]
      simp only
      split
      · next k' b2 h => rw [h1] at h; cases h
      · next k' b2 h =>
        rw [h1] at h
        cases h
        rw [dif_neg h2]
        exact this

/-- Reading a head when they do not. -/
theorem parseHead_unsettled {σ line ok} (p : HeadParser σ line ok) (n : Nat) : ∀ (b : BufReader R), (HasSrc.get b.inner).measure ≤ n → b.WF → b.pos = 0 → b.buf.length ∈ bufferSizes →
    (HasSrc.get b.inner).Chunks → p.parse ((b.window ++ (HasSrc.get b.inner).flat).take (2 ^ 19)) = .part →
    (∃ e, (parseHead p b).1 = .error e) ∧
    ((b.window ++ (HasSrc.get b.inner).flat).length < 2 ^ 19 → ∃ e, (parseHead p (b.later [mark])).1 = .error e ∧ HasSrc.get (parseHead p (b.later [mark])).2.inner = []) ∧
    (2 ^ 19 ≤ (b.window ++ (HasSrc.get b.inner).flat).length → ∀ t, ∃ e, ∃ b' : BufReader R, parseHead p (b.later t) = (.error e, b'.later t)) := by
  induction n using Nat.strongRecOn with
  | ind n ih =>
    intro b hn hw hpos hz hc hd
    have hx : p.parse b.window = .part := by
      exact part_prefix p (prefix_taken (window_le hw hz)) hd
    by_cases hge : 2 ^ 19 ≤ b.window.length
    · have hf := readIntoBuf_full hw hpos hz hge
      have hf' : ∀ t, (b.later t).readIntoBuf = (.ok 0, b.later t) := fun t => readIntoBuf_full (b := b.later t) hw hpos hz hge
      have key : ∀ t, ∃ e, parseHead p (b.later t) = (.error e, b.later t) := by
        intro t
        rw [parseHead.eq_def, show (b.later t).window = b.window from rfl, hx]
        simp only
        split
        · next k b' h => rw [hf'] at h; cases h
        · next k b' h => 
          rw [hf'] at h
          cases h
          rw [dif_pos rfl]
          split
          · exact ⟨_, rfl⟩
          · exact ⟨_, rfl⟩
      refine ⟨?_, fun h => ?_, fun _ t => ?_⟩
      · obtain ⟨e, he⟩ := key []
        have : b.later [] = b := by unfold BufReader.later; rw [List.append_nil, HasSrc.set_get]
        rw [this] at he
        exact ⟨e, by rw [he]⟩
      · rw [List.length_append] at h; omega
      · obtain ⟨e, he⟩ := key t; exact ⟨e, b, he⟩
    · by_cases hne : (HasSrc.get b.inner).flat = []
      · have hs := chunks_nil_of_flat hc hne
        have hroom := reserve_room hw hpos hz (by omega)
        refine ⟨?_, fun _ => ?_, fun h => ?_⟩
        · have hr : b.readIntoBuf.1 = .ok 0 := by
            unfold BufReader.readIntoBuf
            simp only [maybeReserve_inner, hs]
            rw [if_pos hroom]
            rfl
          rw [parseHead.eq_def, hx]
          simp only
          split
          · next k b' h => exact ⟨_, rfl⟩
          · next k b' h =>
            rw [h] at hr
            cases hr
            rw [dif_pos rfl]
            split
            · exact ⟨_, rfl⟩
            · exact ⟨_, rfl⟩
        · have hr : (b.later [mark]).readIntoBuf = (.error .wouldBlock, { b.maybeReserve.later [mark] with inner := HasSrc.set (b.maybeReserve.later [mark]).inner [] }) := by
            unfold BufReader.readIntoBuf
            simp only [later_reserve]
            rw [if_pos (show (b.maybeReserve.later [mark]).cap < (b.maybeReserve.later [mark]).buf.length from hroom)]
            have : HasSrc.get (b.maybeReserve.later [mark]).inner = [mark] := by
              unfold BufReader.later
              rw [HasSrc.get_set, maybeReserve_inner, hs]; rfl
            rw [this]
            rfl
          rw [parseHead.eq_def, show (b.later [mark]).window = b.window from rfl, hx]
          simp only
          split
          · next k b' h => rw [hr] at h; cases h; exact ⟨_, rfl, HasSrc.get_set _ _⟩
          · next k b' h => rw [hr] at h; cases h
        · rw [hne, List.append_nil] at h; omega
      · obtain ⟨k, b', h1, h2, h3⟩ := readIntoBuf_goes hw hpos hz (by omega) hc hne
        have hs := readIntoBuf_spec hw
        have hz' := readIntoBuf_size hw hz
        rw [h1] at hs hz'
        simp only at hs hz'
        have hm := readIntoBuf_measure h1 h2
        obtain ⟨i1, i2, i3⟩ := ih _ (by omega) b' (Nat.le_refl _) hs.1 (hs.2.1.trans hpos) hz' h3 (by rw [hs.2.2.2.2]; exact hd)
        rw [hs.2.2.2.2] at i2 i3
        have step : ∀ t, parseHead p (b.later t) = parseHead p (b'.later t) := by
          intro t
          have hb' := readIntoBuf_prompt b b' t _ h1 (by intro h; cases h; exact h2 rfl)
          rw [parseHead.eq_def, show (b.later t).window = b.window from rfl, hx]
          simp only
          split
          · next k' b2 h => rw [hb'] at h; cases h
          · next k' b2 h =>
            rw [hb'] at h
            cases h
            rw [dif_neg h2]
        have e0 : ∀ c : BufReader R, c.later [] = c := by intro c; unfold BufReader.later; rw [List.append_nil, HasSrc.set_get]
        refine ⟨?_, fun h => ?_, fun h t => ?_⟩
        · rw [← e0 b, step, e0]; exact i1
        · rw [step]; exact i2 h
        · rw [step]; exact i3 h t

end

/-! ## The calls -/

/-- A call that opens a connection and does with what comes what `ruling` says; `mind` is the receiving half it makes. -/
structure Judges [B64] (preq : ReqParser) (pres : ResParser) (how : Opening) (first : Sink) (before : Bytes) (mask : Bool) (mind : Mind) (ruling : Bytes → Ruling) (B : Bytes) : Prop where
  waits : ∀ s : Src, s.Chunks → s.flat <+: B → ruling s.flat = .waits →
    (how.attempt preq pres ⟨s ++ [mark], first⟩).rest = [] ∧ (how.attempt preq pres ⟨s ++ [mark], first⟩).wrote.wire = before
  stops : ∀ s : Src, s.Chunks → s.flat <+: B → ruling s.flat = .waits →
    (how.attempt preq pres ⟨s, first⟩).line = none ∧ (how.attempt preq pres ⟨s, first⟩).wrote.wire = before
  refuses : ∀ s t : Src, s.Chunks → Marked t → s.flat <+: B → ruling s.flat = .refuses →
    (t = [mark] → mark ∈ (how.attempt preq pres ⟨s ++ t, first⟩).rest) ∧
    (how.attempt preq pres ⟨s ++ t, first⟩).line = none ∧ (how.attempt preq pres ⟨s ++ t, first⟩).wrote.wire = before
  opens : ∀ (s t : Src) (written rest : Bytes), s.Chunks → Marked t → s.flat <+: B → ruling s.flat = .opens written rest →
    (t = [mark] → mark ∈ (how.attempt preq pres ⟨s ++ t, first⟩).rest) ∧
    ∃ c, (how.attempt preq pres ⟨s ++ t, first⟩).line = some c ∧ c.ear.mind = mind ∧ c.ear.Sane false c.arrived ∧ c.ear.Sane true c.arrived ∧ c.ear.buf ++ c.arrived.flat = rest ∧
      c.output.wire = written ∧ c.voice.Good mask c.output
  refused : ∀ a z : Bytes, a ++ z <+: B → ruling a = .refuses → ruling (a ++ z) = .refuses
  opened : ∀ a z written rest : Bytes, a ++ z <+: B → ruling a = .opens written rest → ruling (a ++ z) = .opens written (rest ++ z)

theorem take_prefix_take {a z : Bytes} (n : Nat) : a.take n <+: (a ++ z).take n := by
  rw [List.take_append]; exact List.prefix_append _ _

section
variable {σ : Type} {line : HttpVersion → σ → Bytes} {ok : HttpVersion → σ → Prop} (p : HeadParser σ line ok) (answer : HttpHead σ → Option Bytes)

theorem headRuling_refused (a z : Bytes) (h : headRuling p answer a = .refuses) : headRuling p answer (a ++ z) = .refuses := by
  unfold headRuling at h ⊢
  have hpre : a.take (2 ^ 19) <+: (a ++ z).take (2 ^ 19) := take_prefix_take _
  cases hx : p.parse (a.take (2 ^ 19)) with
  | complete m n =>
    rw [decided_prefix p hpre (by rw [hx]; nofun)]
    rw [hx] at h
    simp only [hx] at h ⊢
    cases ha : answer m with
    | none => rfl
    | some w => rw [ha] at h; cases h
  | error =>
    rw [decided_prefix p hpre (by rw [hx]; nofun), hx]
  | part =>
    rw [hx] at h
    simp only at h
    split at h
    · next hl =>
      rw [List.take_append_of_le_length hl, hx]
      simp only
      rw [if_pos (by rw [List.length_append]; omega)]
    · cases h

theorem headRuling_opened (a z written rest : Bytes) (h : headRuling p answer a = .opens written rest) : headRuling p answer (a ++ z) = .opens written (rest ++ z) := by
  unfold headRuling at h ⊢
  have hpre : a.take (2 ^ 19) <+: (a ++ z).take (2 ^ 19) := take_prefix_take _
  cases hx : p.parse (a.take (2 ^ 19)) with
  | complete m n =>
    rw [decided_prefix p hpre (by rw [hx]; nofun)]
    rw [hx] at h
    simp only [hx] at h ⊢
    have hn := (p.complete_len _ _ _ hx).2
    have hn' : n ≤ a.length := Nat.le_trans hn (by rw [List.length_take]; omega)
    cases ha : answer m with
    | none => rw [ha] at h; cases h
    | some w =>
      rw [ha] at h
      simp only [Option.elim, Ruling.opens.injEq] at h ⊢
      rw [List.drop_append_of_le_length hn', h.1, h.2]
      exact ⟨rfl, rfl⟩
  | error => rw [hx] at h; cases h
  | part =>
    rw [hx] at h
    simp only at h
    split at h <;> cases h

/-- What a blocking program makes of what has come. -/
theorem reads_head (s t : Src) (w : Sink) (hc : s.Chunks) (ht : Marked t) :
    match p.parse (s.flat.take (2 ^ 19)) with
    | .complete m n => ∃ b' : BufReader Duplex, parseHead p (BufReader.new (⟨s ++ t, w⟩ : Duplex)) = (.ok m, b'.later t) ∧ b'.inner.output = w ∧ b'.inner.input.Chunks ∧
        b'.window ++ b'.inner.input.flat = s.flat.drop n
    | .error => ∃ e, ∃ b' : BufReader Duplex, parseHead p (BufReader.new (⟨s ++ t, w⟩ : Duplex)) = (.error e, b'.later t) ∧ b'.inner.output = w
    | .part =>
      if 2 ^ 19 ≤ s.flat.length then ∃ e, ∃ b' : BufReader Duplex, parseHead p (BufReader.new (⟨s ++ t, w⟩ : Duplex)) = (.error e, b'.later t) ∧ b'.inner.output = w
      else ∃ e, ∃ b' : BufReader Duplex, parseHead p (BufReader.new (⟨s ++ t, w⟩ : Duplex)) = (.error e, b') ∧ b'.inner.output = w ∧ (t = [mark] → b'.inner.input = []) := by
  have hflat : (BufReader.new (⟨s, w⟩ : Duplex)).window ++ (HasSrc.get (BufReader.new (⟨s, w⟩ : Duplex)).inner).flat = s.flat := by rw [new_window]; rfl
  have hout : ∀ x : Src, (parseHead p (BufReader.new (⟨x, w⟩ : Duplex))).2.inner.output = w := by
    intro x
    obtain ⟨s', h⟩ := parseHead_inner p (BufReader.new (⟨x, w⟩ : Duplex))
    rw [h]; rfl
  have hw := new_wf (⟨s, w⟩ : Duplex)
  have hs := parseHead_settled p _ (BufReader.new (⟨s, w⟩ : Duplex)) (Nat.le_refl _) hw rfl (new_size _) hc
  have hu := parseHead_unsettled p _ (BufReader.new (⟨s, w⟩ : Duplex)) (Nat.le_refl _) hw rfl (new_size _) hc
  have hcs := (parseHead_conserves p (BufReader.new (⟨s, w⟩ : Duplex)) hw).2
  have ho := hout s
  rw [hflat] at hs hu
  rw [new_later]
  cases hq : parseHead p (BufReader.new (⟨s, w⟩ : Duplex)) with
  | mk r b' =>
    rw [hq] at hs hu hcs ho
    simp only at hcs ho
    cases hx : p.parse (s.flat.take (2 ^ 19)) with
    | complete m n =>
      rw [hx] at hs
      obtain ⟨h1, h2⟩ := hs nofun
      simp only at h1 h2
      subst h2
      refine ⟨b', parseHead_prompt p _ b' t _ hq trivial, ho, h1, ?_⟩
      obtain ⟨n', g1, g2⟩ := hcs
      rw [hflat] at g1 g2
      have := p.complete_mono _ _ _ (s.flat.drop (2 ^ 19)) hx
      rw [List.take_append_drop] at this
      rw [this] at g1
      cases g1
      exact g2
    | error =>
      rw [hx] at hs
      obtain ⟨h1, h2⟩ := hs nofun
      simp only at h1 h2
      subst h2
      exact ⟨_, b', parseHead_prompt p _ b' t _ hq trivial, ho⟩
    | part =>
      obtain ⟨h1, h2, h3⟩ := hu hx
      simp only
      split
      · next hl =>
        obtain ⟨e, b2, h4⟩ := h3 hl t
        refine ⟨e, b2, h4, ?_⟩
        have := hout (s ++ t)
        rw [new_later, h4] at this
        exact this
      · next hl =>
        have := hout (s ++ t)
        rw [new_later] at this
        rcases ht with rfl | rfl
        · have e0 : ∀ c : BufReader Duplex, c.later [] = c := by intro c; unfold BufReader.later; rw [List.append_nil, HasSrc.set_get]
          obtain ⟨e, h4⟩ := h1
          simp only at h4
          rw [e0, hq, h4]
          exact ⟨e, b', rfl, ho, nofun⟩
        · obtain ⟨e, h4, h5⟩ := h2 (by omega)
          refine ⟨e, _, Prod.ext h4 rfl, this, fun _ => h5⟩

end
section
variable [B64] (preq : ReqParser) (pres : ResParser)

omit [B64] in
theorem elim_refuses {σ : Type} {answer : HttpHead σ → Option Bytes} {m : HttpHead σ} {B : Bytes} {n : Nat} (h : (answer m).elim Ruling.refuses (fun written => .opens written (B.drop n)) = .refuses) : answer m = none := by
  cases ha : answer m with
  | none => rfl
  | some w => rw [ha] at h; cases h

omit [B64] in
theorem elim_opens {σ : Type} {answer : HttpHead σ → Option Bytes} {m : HttpHead σ} {B written rest : Bytes} {n : Nat}
    (h : (answer m).elim Ruling.refuses (fun written => .opens written (B.drop n)) = .opens written rest) : answer m = some written ∧ rest = B.drop n := by
  cases ha : answer m with
  | none => rw [ha] at h; cases h
  | some w => rw [ha] at h; cases h; exact ⟨rfl, rfl⟩

omit [B64] in
theorem elim_waits {σ : Type} {answer : HttpHead σ → Option Bytes} {m : HttpHead σ} {B : Bytes} {n : Nat} (h : (answer m).elim Ruling.refuses (fun written => .opens written (B.drop n)) = .waits) : False := by
  cases ha : answer m with
  | none => rw [ha] at h; cases h
  | some w => rw [ha] at h; cases h

theorem judges_server {custom : Option Headers} (htx : TextCustom custom) (w : Sink) (hw : w.Willing) (h0 : w.wire = []) (sops : List UpgradeOp) (maxDf maxMsg : Nat) (B : Bytes) :
    Judges preq pres (.server (Upgrade.run · sops) custom maxDf maxMsg) w [] false (.blocking (Receiver.newWithLimits true maxDf maxMsg))
      (headRuling preq (serverAnswer sops custom)) B := by
  refine ⟨fun s hc _ hr => ?_, fun s hc _ hr => ?_, fun s t hc ht _ hr => ?_, fun s t written rest hc ht _ hr => ?_, fun a z _ => headRuling_refused _ _ a z, fun a z b c _ => headRuling_opened _ _ a z b c⟩
  · have h := reads_head preq s [mark] w hc (.inr rfl)
    unfold headRuling at hr
    cases hx : preq.parse (s.flat.take (2 ^ 19)) with
    | complete m n => rw [hx] at hr; exact (elim_waits hr).elim
    | error => rw [hx] at hr; cases hr
    | part =>
      rw [hx] at hr h
      simp only at hr h
      split at hr
      · cases hr
      · next hl =>
        rw [if_neg hl] at h
        obtain ⟨e, b', h1, h2, h3⟩ := h
        unfold Opening.attempt intoWs
        rw [h1]
        exact ⟨h3 trivial, by show b'.inner.output.wire = []; rw [h2]; exact h0⟩
  · have h := reads_head preq s [] w hc (.inl rfl)
    rw [List.append_nil] at h
    unfold headRuling at hr
    cases hx : preq.parse (s.flat.take (2 ^ 19)) with
    | complete m n => rw [hx] at hr; exact (elim_waits hr).elim
    | error => rw [hx] at hr; cases hr
    | part =>
      rw [hx] at hr h
      simp only at hr h
      split at hr
      · cases hr
      · next hl =>
        rw [if_neg hl] at h
        obtain ⟨e, b', h1, h2, h3⟩ := h
        unfold Opening.attempt intoWs
        rw [h1]
        exact ⟨rfl, by show b'.inner.output.wire = []; rw [h2]; exact h0⟩
  · have h := reads_head preq s t w hc ht
    have fin : ∀ e, ∀ b' : BufReader Duplex, parseHead preq (BufReader.new (⟨s ++ t, w⟩ : Duplex)) = (.error e, b'.later t) → b'.inner.output = w → 
        (t = [mark] → mark ∈ (Opening.attempt preq pres ⟨s ++ t, w⟩ (.server (Upgrade.run · sops) custom maxDf maxMsg)).rest) ∧
        (Opening.attempt preq pres ⟨s ++ t, w⟩ (.server (Upgrade.run · sops) custom maxDf maxMsg)).line = none ∧
        (Opening.attempt preq pres ⟨s ++ t, w⟩ (.server (Upgrade.run · sops) custom maxDf maxMsg)).wrote.wire = [] := by
      intro e b' h1 h2
      unfold Opening.attempt intoWs
      rw [h1]
      refine ⟨fun q => ?_, rfl, by show b'.inner.output.wire = []; rw [h2]; exact h0⟩
      show mark ∈ b'.inner.input ++ t
      rw [q]; simp
    unfold headRuling at hr
    cases hx : preq.parse (s.flat.take (2 ^ 19)) with
    | complete m n =>
      rw [hx] at hr h
      have ha := elim_refuses hr
      obtain ⟨b', h1, h2, h3, h4⟩ := h
      unfold serverAnswer at ha
      unfold Opening.attempt intoWs
      rw [h1]
      simp only [BufReader.intoParts]
      cases hv : validate m.subject.method m.version m.headers with
      | error e =>
        simp only
        refine ⟨fun q => ?_, trivial, by show b'.inner.output.wire = []; rw [h2]; exact h0⟩
        show mark ∈ b'.inner.input ++ t
        rw [q]; simp
      | ok u =>
        rw [hv] at ha
        obtain ⟨k, hk⟩ := validate_key hv
        rw [hk] at ha
        cases ha
    | error =>
      rw [hx] at h
      obtain ⟨e, b', h1, h2⟩ := h
      exact fin e b' h1 h2
    | part =>
      rw [hx] at hr h
      simp only at hr h
      split at hr
      · next hl =>
        rw [if_pos hl] at h
        obtain ⟨e, b', h1, h2⟩ := h
        exact fin e b' h1 h2
      · cases hr
  · have h := reads_head preq s t w hc ht
    unfold headRuling at hr
    cases hx : preq.parse (s.flat.take (2 ^ 19)) with
    | complete m n =>
      rw [hx] at hr h
      obtain ⟨ha, rfl⟩ := elim_opens hr
      obtain ⟨b', h1, h2, h3, h4⟩ := h
      unfold serverAnswer at ha
      cases hv : validate m.subject.method m.version m.headers with
      | error e => rw [hv] at ha; cases ha
      | ok u =>
        rw [hv] at ha
        simp only at ha
        cases hg : m.headers.getKey with
        | none => rw [hg] at ha; cases ha
        | some key =>
          rw [hg] at ha
          simp only [Option.map_some, Option.some.injEq] at ha
          subst ha
          have hiw : intoWs preq ⟨s ++ t, w⟩ = .ok ⟨[], (b'.later t).inner, m, some ⟨(b'.later t).buf, (b'.later t).pos, (b'.later t).cap⟩⟩ := by
            unfold intoWs
            rw [h1]
            simp only [BufReader.intoParts, hv]
          unfold Opening.attempt
          rw [hiw]
          simp only
          refine ⟨fun q => by show mark ∈ b'.inner.input ++ t; rw [q]; simp, ?_⟩
          obtain ⟨-, h8⟩ := C35_server_answers ⟨[], (b'.later t).inner, m, some ⟨(b'.later t).buf, (b'.later t).pos, (b'.later t).cap⟩⟩ key sops custom maxDf maxMsg rfl hg htx
          have hou : (b'.later t).inner.output = w := h2
          simp only [hou] at h8
          have hwa := writeAll_willing (head101 m.version (responseLines sops custom key)) w hw
          rcases h8 with ⟨k, hk, _⟩ | ⟨c, g1, g2, g3, g4, g5⟩
          · rw [hwa.1] at hk; cases hk
          · have hlm := C39_server_limits _ custom maxDf maxMsg c g1
            have hin := accept_input _ custom maxDf maxMsg c g1
            rw [(run_facts _ sops (by simp [Headers.Unique])).2.2.1] at hin
            have hin1 : c.stream.inner.input = b'.inner.input ++ t := hin.1
            have hin2 : c.stream.inner.output.script <:+ w.script := by
              have := hin.2
              simp only [hou] at this
              exact this
            rw [g1]
            obtain ⟨k1, k2⟩ := src_left hin1 h3 ht
            have hrc := receiver_eq hlm.1 g4
            have hsane : ∀ q, Ear.Sane q c.line.ear c.line.arrived := by
              intro q
              have hr := Receiver.wf_new true maxDf maxMsg
              have hu : u32Max ≤ isizeMax := by decide
              refine ⟨?_, k1⟩
              rw [hrc]
              exact Nat.le_trans hr.1 hu
            refine ⟨_, rfl, ?_, hsane _, hsane _, ?_, ?_, g5, hw.suffix hin2⟩
            · show Mind.blocking c.receiver = _
              rw [hrc]
            · show [] ++ c.stream.src.left.flat = _
              rw [List.nil_append, k2, ← h4]
              have hun : unread (some ⟨(b'.later t).buf, (b'.later t).pos, (b'.later t).cap⟩ : Option Buffer) = b'.window := rfl
              rw [hun] at g3
              have : (b'.later t).inner.input = b'.inner.input ++ t := rfl
              rw [this, flat_tail ht] at g3
              unfold Client.pending at g3
              rw [hin1, flat_tail ht] at g3
              exact g3
            · show c.stream.inner.output.wire = _
              rw [g2, h0]; rfl
    | error => rw [hx] at hr; cases hr
    | part =>
      rw [hx] at hr
      simp only at hr
      split at hr <;> cases hr

/-- The client's request as `format!` makes it is on the wire, and the reading of the answer begins. -/
theorem judges_client (url : Url) (ops : List BOp) (fresh : WsKey) (htx : ∀ op ∈ ops, GivesText op) (w : Sink) (hw : w.Willing) (h0 : w.wire = []) (B : Bytes) :
    Judges preq pres (.client ((Builder.init url).run ops) fresh) w (Head (requestStart url) (requestLines url ops fresh)) true
      (.blocking (Receiver.newWithLimits false (lastSet setsDf (100 * 2 ^ 20) ops) (lastSet setsDf (100 * 2 ^ 20) ops)))
      (headRuling pres (clientAnswer url ops fresh)) B := by
  have hd := request_data url ops fresh
  have hwa := writeAll_willing (Head (requestStart url) (requestLines url ops fresh)) w hw
  cases hw' : Sink.writeAll (Head (requestStart url) (requestLines url ops fresh)) w with
  | mk r w' =>
  rw [hw'] at hwa
  simp only at hwa
  obtain ⟨rfl, hwill⟩ := hwa
  have hwire : w'.wire = Head (requestStart url) (requestLines url ops fresh) := by rw [writeAll_ok hw', h0, List.nil_append]
  have hlim := (build_keeps ((Builder.init url).run ops) fresh).1.trans (builder_limits url ops).1
  have heq : ∀ x : Src, ((Builder.init url).run ops).connectOn pres fresh ⟨x, w⟩ =
      match parseHead pres (BufReader.new (⟨x, w'⟩ : Duplex)) with
      | (.error e, reader) => (.err (some reader.inner) (.http e), (((Builder.init url).run ops).buildRequest fresh).2)
      | (.ok response, reader) =>
        match (((Builder.init url).run ops).buildRequest fresh).2.validate response with
        | .error e => (.err (some reader.inner) e, (((Builder.init url).run ops).buildRequest fresh).2)
        | .ok () => (.client (Client.uncheckedWithLimits reader response.headers true false (lastSet setsDf (100 * 2 ^ 20) ops) (lastSet setsDf (100 * 2 ^ 20) ops)), (((Builder.init url).run ops).buildRequest fresh).2) := by
    intro x
    rw [connect_text pres fresh _ _ (writable_request url ops htx fresh)]
    unfold Builder.connectText
    simp only [hd, hw', hlim]
    rfl
  have fin : ∀ (x : Src) e, ∀ b' : BufReader Duplex, parseHead pres (BufReader.new (⟨x, w'⟩ : Duplex)) = (.error e, b') → b'.inner.output = w' → 
      Opening.attempt preq pres ⟨x, w⟩ (.client ((Builder.init url).run ops) fresh) = ⟨b'.inner.input, w', none⟩ := by
    intro x e b' h1 h2
    unfold Opening.attempt
    simp only [heq, h1, h2]
  refine ⟨fun s hc _ hr => ?_, fun s hc _ hr => ?_, fun s t hc ht _ hr => ?_, fun s t written rest hc ht _ hr => ?_, fun a z _ => headRuling_refused _ _ a z, fun a z b c _ => headRuling_opened _ _ a z b c⟩
  · have h := reads_head pres s [mark] w' hc (.inr rfl)
    unfold headRuling at hr
    cases hx : pres.parse (s.flat.take (2 ^ 19)) with
    | complete m n => rw [hx] at hr; exact (elim_waits hr).elim
    | error => rw [hx] at hr; cases hr
    | part =>
      rw [hx] at hr h
      simp only at hr h
      split at hr
      · cases hr
      · next hl =>
        rw [if_neg hl] at h
        obtain ⟨e, b', h1, h2, h3⟩ := h
        rw [fin _ e b' h1 h2]
        exact ⟨h3 trivial, hwire⟩
  · have h := reads_head pres s [] w' hc (.inl rfl)
    rw [List.append_nil] at h
    unfold headRuling at hr
    cases hx : pres.parse (s.flat.take (2 ^ 19)) with
    | complete m n => rw [hx] at hr; exact (elim_waits hr).elim
    | error => rw [hx] at hr; cases hr
    | part =>
      rw [hx] at hr h
      simp only at hr h
      split at hr
      · cases hr
      · next hl =>
        rw [if_neg hl] at h
        obtain ⟨e, b', h1, h2, h3⟩ := h
        rw [fin _ e b' h1 h2]
        exact ⟨rfl, hwire⟩
  · have h := reads_head pres s t w' hc ht
    have mk : ∀ b' : BufReader Duplex, t = [mark] → mark ∈ (b'.later t).inner.input := by
      intro b' q
      show mark ∈ b'.inner.input ++ t
      rw [q]; simp
    unfold headRuling at hr
    cases hx : pres.parse (s.flat.take (2 ^ 19)) with
    | complete m n =>
      rw [hx] at hr h
      have ha := elim_refuses hr
      obtain ⟨b', h1, h2, h3, h4⟩ := h
      unfold clientAnswer at ha
      cases hv : (((Builder.init url).run ops).buildRequest fresh).2.validate m with
      | ok u => rw [hv] at ha; cases ha
      | error e =>
        have : Opening.attempt preq pres ⟨s ++ t, w⟩ (.client ((Builder.init url).run ops) fresh) = ⟨(b'.later t).inner.input, w', none⟩ := by
          unfold Opening.attempt
          simp only [heq, h1, hv]
          rw [show (b'.later t).inner.output = w' from h2]
        rw [this]
        exact ⟨mk b', rfl, hwire⟩
    | error =>
      rw [hx] at h
      obtain ⟨e, b', h1, h2⟩ := h
      rw [fin _ e _ h1 h2]
      exact ⟨mk b', rfl, hwire⟩
    | part =>
      rw [hx] at hr h
      simp only at hr h
      split at hr
      · next hl =>
        rw [if_pos hl] at h
        obtain ⟨e, b', h1, h2⟩ := h
        rw [fin _ e _ h1 h2]
        exact ⟨mk b', rfl, hwire⟩
      · cases hr
  · have h := reads_head pres s t w' hc ht
    unfold headRuling at hr
    cases hx : pres.parse (s.flat.take (2 ^ 19)) with
    | complete m n =>
      rw [hx] at hr h
      obtain ⟨ha, rfl⟩ := elim_opens hr
      obtain ⟨b', h1, h2, h3, h4⟩ := h
      unfold clientAnswer at ha
      cases hv : (((Builder.init url).run ops).buildRequest fresh).2.validate m with
      | error e => rw [hv] at ha; cases ha
      | ok u =>
        rw [hv] at ha
        simp only [Option.some.injEq] at ha
        subst ha
        have hat : Opening.attempt preq pres ⟨s ++ t, w⟩ (.client ((Builder.init url).run ops) fresh) =
            ⟨(b'.later t).inner.input, w', some (Client.uncheckedWithLimits (b'.later t) m.headers true false (lastSet setsDf (100 * 2 ^ 20) ops) (lastSet setsDf (100 * 2 ^ 20) ops)).line⟩ := by
          unfold Opening.attempt
          simp only [heq, h1, hv]
          rw [show (Client.uncheckedWithLimits (b'.later t) m.headers true false (lastSet setsDf (100 * 2 ^ 20) ops) (lastSet setsDf (100 * 2 ^ 20) ops)).stream = b'.later t from rfl, show (b'.later t).inner.output = w' from h2]
        rw [hat]
        refine ⟨fun q => by show mark ∈ b'.inner.input ++ t; rw [q]; simp, _, rfl, rfl, ?_⟩
        obtain ⟨k1, k2⟩ := src_left (b := b'.later t) (s := b'.inner.input) (t := t) rfl h3 ht
        have hsane : ∀ q, Ear.Sane q (.blocking (Receiver.newWithLimits false (lastSet setsDf (100 * 2 ^ 20) ops) (lastSet setsDf (100 * 2 ^ 20) ops))) (b'.later t).src.left := by
          intro q
          have hr := Receiver.wf_new false (lastSet setsDf (100 * 2 ^ 20) ops) (lastSet setsDf (100 * 2 ^ 20) ops)
          have hu : u32Max ≤ isizeMax := by decide
          exact ⟨Nat.le_trans hr.1 hu, k1⟩
        refine ⟨hsane _, hsane _, ?_, ?_, rfl, ?_⟩
        · show [] ++ (b'.later t).src.left.flat = _
          rw [List.nil_append, k2, ← h4]
          rfl
        · show (b'.later t).inner.output.wire = _
          rw [show (b'.later t).inner.output = w' from h2]
          exact hwire
        · show Sink.Willing (b'.later t).inner.output
          rw [show (b'.later t).inner.output = w' from h2]
          exact hwill
    | error => rw [hx] at hr; cases hr
    | part =>
      rw [hx] at hr
      simp only at hr
      split at hr <;> cases hr

end

/-! ## How far the program has come -/

section
variable [B64] {preq : ReqParser} {pres : ResParser}

/-- How far a program has come that opens its connection; `R` is what has not come yet of `B`. -/
inductive DStage (plan : Plan) (keys : Nat → Key4) (extra : Nat → Nat) (how : Opening) (first : Sink) (before : Bytes) (mask : Bool) (mind : Mind) (ruling : Bytes → Ruling) (B : Bytes) : Visitor → Bytes → Prop
  | opening (w : Sink) (s : Src) (ended : Bool) (R : Bytes) (hw : w.wire = [] ∨ w.wire = before) (hc : s.Chunks) (hf : s.flat ++ R = B) (he : ended = true → R = []) :
    DStage plan keys extra how first before mask mind ruling B ⟨plan, keys, extra, [], .opening ⟨how, firstCall plan keys extra, s, ended, first, w, 0⟩⟩ R
  | failed (l : Lobby) (R : Bytes) (hw : l.output.wire = before) (hr : ∀ w r, ruling B ≠ .opens w r) (he : l.ended = true → R = []) :
    DStage plan keys extra how first before mask mind ruling B ⟨plan, keys, extra, [], .failed l⟩ R
  | talking (a : Actor) (written rest R : Bytes) (hr : ruling B = .opens written rest) (h : Enduring plan (fun n => mind.hears n rest) mask written a R) :
    DStage plan keys extra how first before mask mind ruling B a.visitor R

variable {plan : Plan} {keys : Nat → Key4} {extra : Nat → Nat} {how : Opening} {first : Sink} {before : Bytes} {mask : Bool} {mind : Mind} {ruling : Bytes → Ruling} {B : Bytes}

/-- Opening, and nothing can come of it yet. -/
def Visitor.isOpening (v : Visitor) : Bool :=
  match v.agent with
  | .opening _ => true
  | _ => false

theorem turn_dstage (hj : Judges preq pres how first before mask mind ruling B) (hcalm : ∀ w r, ruling B = .opens w r → mind.Calm r) {v : Visitor} {R : Bytes}
    (h : DStage plan keys extra how first before mask mind ruling B v R) :
    DStage plan keys extra how first before mask mind ruling B (v.act preq pres) R ∧ (v.act preq pres).agent.closed = v.agent.closed ∧
      (∀ A, B = A ++ R → (ruling A ≠ .waits ∨ v.agent.closed = true → (v.act preq pres).isOpening = false) ∧
        (ruling A = .waits → v.agent.closed = false → v.isOpening = true → (v.act preq pres).isOpening = true)) := by
  cases h with
  | failed l R hw hr he => exact ⟨.failed l R hw hr he, rfl, fun _ _ => ⟨fun _ => rfl, fun _ _ h => by cases h⟩⟩
  | talking a written rest R hr h =>
    obtain ⟨h1, h2, -⟩ := act_enduring h
    exact ⟨.talking a.act written rest R hr h1, h2, fun _ _ => ⟨fun _ => rfl, fun _ _ h => by cases h⟩⟩
  | opening w s ended R hw hc hf he =>
    have hA : ∀ A, B = A ++ R → A = s.flat := fun A h => List.append_cancel_right (h.symm.trans hf.symm)
    have hpre : s.flat <+: B := ⟨R, hf⟩
    show DStage plan keys extra how first before mask mind ruling B ⟨plan, keys, extra, [], Lobby.act preq pres _⟩ R ∧ (Lobby.act preq pres _).closed = _ ∧ _
    have key : ∀ t : Src, Lobby.readable ⟨how, firstCall plan keys extra, s, ended, first, w, 0⟩ = s ++ t → Marked t → (ended = false → t = [mark]) → (ended = true → t = []) →
        (ended = false ∧ ruling s.flat = .waits ∧ ∃ w', Lobby.act preq pres ⟨how, firstCall plan keys extra, s, ended, first, w, 0⟩ = .opening ⟨how, firstCall plan keys extra, s, ended, first, w', 0⟩ ∧ w'.wire = before) ∨
        ((ended = true ∧ ruling s.flat = .waits ∨ ruling s.flat = .refuses) ∧ ∃ w', Lobby.act preq pres ⟨how, firstCall plan keys extra, s, ended, first, w, 0⟩ = .failed ⟨how, firstCall plan keys extra, s, ended, first, w', 0⟩ ∧ w'.wire = before) ∨
        (∃ written rest, ruling s.flat = .opens written rest ∧ ∃ c : Line, Lobby.act preq pres ⟨how, firstCall plan keys extra, s, ended, first, w, 0⟩ = .talking (c.party ⟨how, firstCall plan keys extra, s, ended, first, w, 0⟩) ∧
          c.ear.mind = mind ∧ c.ear.Sane false c.arrived ∧ c.ear.Sane true c.arrived ∧ c.ear.buf ++ c.arrived.flat = rest ∧ c.output.wire = written ∧ c.voice.Good mask c.output) := by
      intro t e ht he1 he2
      cases hr : ruling s.flat with
      | waits =>
        cases ended with
        | false =>
          obtain rfl := he1 rfl
          obtain ⟨g1, g2⟩ := hj.waits s hc hpre hr
          refine .inl ⟨rfl, rfl, _, ?_, g2⟩
          unfold Lobby.act
          simp only [e]
          rw [if_pos ⟨trivial, by rw [g1]; simp⟩]
        | true =>
          obtain rfl := he2 rfl
          obtain ⟨g1, g2⟩ := hj.stops s hc hpre hr
          refine .inr (.inl ⟨.inl ⟨rfl, rfl⟩, _, ?_, g2⟩)
          unfold Lobby.act
          rw [List.append_nil] at e
          simp only [e, g1]
          rw [if_neg (by simp)]
      | refuses =>
        obtain ⟨g0, g1, g2⟩ := hj.refuses s t hc ht hpre hr
        refine .inr (.inl ⟨.inr rfl, _, ?_, g2⟩)
        unfold Lobby.act
        simp only [e, g1]
        rw [if_neg]
        rintro ⟨h4, h5⟩
        exact h5 (g0 (he1 h4))
      | opens written rest =>
        obtain ⟨g0, c, g1, g2⟩ := hj.opens s t written rest hc ht hpre hr
        refine .inr (.inr ⟨written, rest, rfl, c, ?_, g2⟩)
        unfold Lobby.act
        simp only [e, g1]
        rw [if_neg]
        rintro ⟨h4, h5⟩
        exact h5 (g0 (he1 h4))
    have key' := by
      cases hb : ended with
      | false => exact key [mark] (by simp [Lobby.readable, hb]) (.inr rfl) (fun _ => rfl) (fun x => by rw [hb] at x; cases x)
      | true => exact key [] (by simp [Lobby.readable, hb]) (.inl rfl) (fun x => by rw [hb] at x; cases x) fun _ => rfl
    rcases key' with ⟨h1, h2, w', h3, h4⟩ | ⟨h2, w', h3, h4⟩ | ⟨written, rest, h2, c, h3, k1, k2, k3, k4, k5, k6⟩
    · refine ⟨?_, ?_, fun A hA' => ?_⟩
      · rw [h3]; exact .opening w' s ended R (.inr h4) hc hf he
      · rw [h3]; rfl
      · obtain rfl := hA A hA'
        refine ⟨fun h => ?_, fun _ _ _ => ?_⟩
        · rcases h with h | h
          · exact absurd h2 h
          · have h : ended = true := h
            rw [h1] at h; cases h
        · show Visitor.isOpening ⟨_, _, _, _, Lobby.act preq pres _⟩ = true
          rw [h3]; rfl
    · refine ⟨?_, ?_, fun A hA' => ?_⟩
      · rw [h3]
        refine .failed _ R h4 ?_ he
        rcases h2 with ⟨h1, h2⟩ | h2
        · have hR := he h1
          rw [hR, List.append_nil] at hf
          rw [← hf, h2]
          nofun
        · have := hj.refused s.flat R (by rw [hf]; exact List.prefix_refl _) h2
          rw [hf] at this
          rw [this]; nofun
      · rw [h3]; rfl
      · obtain rfl := hA A hA'
        refine ⟨fun h => ?_, fun h1 h5 _ => ?_⟩
        · show Visitor.isOpening ⟨_, _, _, _, Lobby.act preq pres _⟩ = false
          rw [h3]; rfl
        · rcases h2 with ⟨h6, -⟩ | h2
          · have h5 : ended = false := h5
            rw [h6] at h5; cases h5
          · rw [h2] at h1; cases h1
    · have hB := hj.opened s.flat R written rest (by rw [hf]; exact List.prefix_refl _) h2
      rw [hf] at hB
      refine ⟨?_, ?_, fun A hA' => ?_⟩
      · rw [h3]
        refine .talking ⟨plan, keys, extra, [], c.party ⟨how, firstCall plan keys extra, s, ended, first, w, 0⟩⟩ written (rest ++ R) R hB ?_
        have ec := (actor_list_new (a := ⟨plan, keys, extra, [], c.party ⟨how, firstCall plan keys extra, s, ended, first, w, 0⟩⟩) rfl).2
        refine ⟨rfl, ec.symm, .start, ?_, he, ?_, fun n => ?_, k6, [], ?_, fun _ => ⟨[], .nil, rfl, by simp⟩⟩
        · show c.ear.Sane ended c.arrived
          cases ended
          · exact k2
          · exact k3
        · show c.ear.mind.Calm (c.ear.buf ++ c.arrived.flat ++ R)
          rw [k1, k4]
          exact hcalm _ _ hB
        · show c.ear.mind.hears n (c.ear.buf ++ c.arrived.flat ++ R) = mind.hears (0 + n) (rest ++ R)
          rw [k1, k4, Nat.zero_add]
        · show c.output.wire = written ++ []
          rw [k5, List.append_nil]
      · rw [h3]; rfl
      · obtain rfl := hA A hA'
        refine ⟨fun h => ?_, fun h1 h5 _ => ?_⟩
        · show Visitor.isOpening ⟨_, _, _, _, Lobby.act preq pres _⟩ = false
          rw [h3]; rfl
        · rw [h2] at h1; cases h1

theorem meets_bytes (v : Visitor) (b : Bytes) : v.meets preq pres (.bytes b) = if v.agent.closed = true ∨ b = [] then v else { v with agent := v.agent.receive b } := rfl

omit [B64] in
theorem actor_meets_bytes (a : Actor) (b : Bytes) : a.meets (.bytes b) = if a.party.ended = true ∨ b = [] then a else { a with party := { a.party with arrived := a.party.arrived ++ [.chunk b] } } := rfl

theorem bytes_dstage {v : Visitor} {b R : Bytes} (h : DStage plan keys extra how first before mask mind ruling B v (b ++ R)) :
    DStage plan keys extra how first before mask mind ruling B (v.meets preq pres (.bytes b)) R ∧ (v.meets preq pres (.bytes b)).agent.closed = v.agent.closed := by
  cases h with
  | failed l _ hw hr he =>
    rw [meets_bytes]
    split
    · exact ⟨.failed l R hw hr fun h => (List.append_eq_nil_iff.mp (he h)).2, rfl⟩
    · exact ⟨.failed _ R hw hr fun h => (List.append_eq_nil_iff.mp (he h)).2, rfl⟩
  | talking a written rest _ hr h =>
    obtain ⟨h1, h2⟩ := bytes_enduring h
    have e : a.visitor.meets preq pres (.bytes b) = (a.meets (.bytes b)).visitor := by
      rw [meets_bytes, actor_meets_bytes]
      show (if a.party.ended = true ∨ b = [] then _ else _) = _
      split <;> rfl
    rw [e]
    exact ⟨.talking _ written rest R hr h1, h2⟩
  | opening w s ended _ hw hc hf he =>
    rw [meets_bytes]
    split
    · next h =>
      have hb : b = [] := by
        rcases h with h | h
        · exact (List.append_eq_nil_iff.mp (he h)).1
        · exact h
      subst hb
      exact ⟨.opening w s ended R hw hc hf he, rfl⟩
    · next h =>
      have hb : b ≠ [] := fun q => h (.inr q)
      refine ⟨.opening w (s ++ [.chunk b]) ended R hw (chunks_snoc hc hb) ?_ fun q => absurd (.inl q) h, rfl⟩
      rw [flat_snoc, List.append_assoc, hf]

theorem finish_dstage {v : Visitor} (h : DStage plan keys extra how first before mask mind ruling B v []) :
    DStage plan keys extra how first before mask mind ruling B (v.meets preq pres .finish) [] ∧ (v.meets preq pres .finish).agent.closed = true := by
  cases h with
  | failed l _ hw hr he => exact ⟨.failed _ [] hw hr fun _ => rfl, rfl⟩
  | talking a written rest _ hr h => exact ⟨.talking _ written rest [] hr (finish_enduring h), rfl⟩
  | opening w s ended _ hw hc hf he => exact ⟨.opening w s true [] hw hc hf fun _ => rfl, rfl⟩

theorem closed_dstage (hj : Judges preq pres how first before mask mind ruling B) (hcalm : ∀ w r, ruling B = .opens w r → mind.Calm r) (es : List Brings) :
    ∀ {v : Visitor}, DStage plan keys extra how first before mask mind ruling B v [] → v.agent.closed = true →
      DStage plan keys extra how first before mask mind ruling B (v.endures preq pres es) [] ∧ (v.endures preq pres es).agent.closed = true := by
  induction es with
  | nil => exact fun h he => ⟨h, he⟩
  | cons e es ih =>
    intro v h he
    cases e with
    | turn =>
      obtain ⟨h1, h2, -⟩ := turn_dstage hj hcalm h
      exact ih h1 (h2.trans he)
    | bytes b =>
      have e : v.meets preq pres (.bytes b) = v := by unfold Visitor.meets; simp only [if_pos (show v.agent.closed = true ∨ b = [] from .inl he)]
      show DStage plan keys extra how first before mask mind ruling B ((v.meets preq pres (.bytes b)).endures preq pres es) [] ∧ ((v.meets preq pres (.bytes b)).endures preq pres es).agent.closed = true
      rw [e]
      exact ih h he
    | finish =>
      obtain ⟨h1, h2⟩ := finish_dstage (preq := preq) (pres := pres) h
      exact ih h1 h2

theorem endures_dstage (hj : Judges preq pres how first before mask mind ruling B) (hcalm : ∀ w r, ruling B = .opens w r → mind.Calm r) (es : List Brings) :
    ∀ {v : Visitor} {R : Bytes}, DStage plan keys extra how first before mask mind ruling B v R → v.agent.closed = false → came es <+: R → (finished es = true → came es = R) →
      ∃ R', R = came es ++ R' ∧ DStage plan keys extra how first before mask mind ruling B (v.endures preq pres es) R' ∧ (v.endures preq pres es).agent.closed = finished es := by
  induction es with
  | nil => exact fun {a R} h he _ _ => ⟨R, rfl, h, he⟩
  | cons e es ih =>
    intro a R h he hp hf
    cases e with
    | turn =>
      obtain ⟨h1, h2, -⟩ := turn_dstage hj hcalm h
      exact ih h1 (h2.trans he) hp hf
    | bytes b =>
      obtain ⟨R', rfl⟩ := hp
      simp only [came, List.append_assoc] at h hf
      obtain ⟨h1, h2⟩ := bytes_dstage (preq := preq) (pres := pres) h
      obtain ⟨R'', k1, k2⟩ := ih h1 (h2.trans he) (List.prefix_append _ _) (fun hx => List.append_cancel_left (hf hx))
      exact ⟨R'', by simp only [came, List.append_assoc, k1], k2⟩
    | finish =>
      obtain rfl : R = [] := (hf rfl).symm
      obtain ⟨h1, h2⟩ := finish_dstage (preq := preq) (pres := pres) h
      exact ⟨[], rfl, closed_dstage hj hcalm es h1 h2⟩

omit [B64] in
theorem start_dstage (h0 : first.wire = []) : DStage plan keys extra how first before mask mind ruling B (Visitor.start plan keys extra how first) B :=
  .opening first [] false B (.inl h0) nofun rfl nofun

end


/-! ## Async -/

theorem splitOff_more {a head r : Bytes} (z : Bytes) (h : splitOffHttp a = some (head, r)) : splitOffHttp (a ++ z) = some (head, r ++ z) := by
  rw [splitOff_iff] at h ⊢
  exact ⟨by rw [h.1]; simp, h.2.1, h.2.2⟩

theorem splitOff_less {a z : Bytes} (h : splitOffHttp (a ++ z) = none) : splitOffHttp a = none := by
  cases hx : splitOffHttp a with
  | none => rfl
  | some q => rw [splitOff_more z hx] at h; cases h

section
variable {σ : Type} {line : HttpVersion → σ → Bytes} {ok : HttpVersion → σ → Prop} (p : HeadParser σ line ok) (answer : HttpHead σ → Option Bytes)

/-- What an async program makes of what has come: nothing yet, … -/
theorem nexts_none (s : Src) (hc : s.Chunks) (h : splitOffHttp s.flat = none) :
    ((Framed.new ()).next (httpDecoder p) (s ++ [mark])).2.2 = [] ∧ ∀ m, ((Framed.new ()).next (httpDecoder p) s).1 ≠ .item m := by
  constructor
  · refine next_waits p (head := s.flat ++ [0]) (fun a z hz ha => ?_) s hc (Framed.new ()) rfl ⟨[0], by simp, rfl⟩
    obtain ⟨z', x, rfl⟩ : ∃ z' x, z = z' ++ [x] := ⟨z.dropLast, z.getLast hz, (List.dropLast_concat_getLast hz).symm⟩
    rw [← List.append_assoc] at ha
    have := (List.append_inj' ha rfl).1
    rw [← this] at h
    exact splitOff_less h
  · refine (C42_no_head p s fun hi => ?_).1
    obtain ⟨x, y, hxy⟩ := hi
    have := splitOff_none.mp h
    exact this ⟨x, y, hxy⟩

/-- … or its answer. -/
theorem nexts_some (s t : Src) (hc : s.Chunks) {head rest : Bytes} (h : splitOffHttp s.flat = some (head, rest)) (hp : p.parse head ≠ .part) :
    ∃ fr s', (Framed.new ()).next (httpDecoder p) (s ++ t) = ((match p.parse head with | .complete m _ => .item m | _ => .err .other), fr, s' ++ t) ∧ s'.Chunks ∧ fr.buf ++ s'.flat = rest := by
  have hnf : ∀ e ∈ s, ¬ e.fails := by
    intro e he
    obtain ⟨b, rfl, hb⟩ := hc e he
    exact hb
  have ha : headAnswer p head ≠ .ok none := by
    unfold headAnswer
    cases h : p.parse head with
    | part => exact absurd h hp
    | complete m n => simp
    | error => simp
  have hf := splitOff_iff.mp h
  have he := next_head_eof p s (Framed.new ()) (by simpa [Framed.new] using hf) rfl rfl ha hnf
  have hs := next_suffix (httpDecoder p) (Framed.new ()) s
  have hat := C42_any_transport_partial p s hf hp
  cases hn : (Framed.new ()).next (httpDecoder p) s with
  | mk x q =>
    obtain ⟨fr, s'⟩ := q
    rw [hn] at he hs
    simp only [hn] at hat
    rcases hat with ⟨h1, h2⟩ | ⟨_, _, e, he', hfe⟩
    · rw [h1] at hn
      exact ⟨fr, s', next_prompt _ _ _ _ t _ hn he, fun e he => hc e (hs.mem he), h2⟩
    · exact absurd hfe (hnf e he')

theorem lineRuling_refused {a z : Bytes} (h : lineRuling p answer a = .refuses) : lineRuling p answer (a ++ z) = .refuses := by
  unfold lineRuling at h ⊢
  cases hx : splitOffHttp a with
  | none => rw [hx] at h; cases h
  | some q =>
    obtain ⟨head, r⟩ := q
    rw [splitOff_more z hx]
    rw [hx] at h
    simp only at h ⊢
    cases hy : p.parse head with
    | complete m n =>
      rw [hy] at h
      simp only at h ⊢
      cases ha : answer m with
      | none => rfl
      | some w => rw [ha] at h; cases h
    | error => rfl
    | part => rfl

theorem lineRuling_opened {a z written rest : Bytes} (h : lineRuling p answer a = .opens written rest) : lineRuling p answer (a ++ z) = .opens written (rest ++ z) := by
  unfold lineRuling at h ⊢
  cases hx : splitOffHttp a with
  | none => rw [hx] at h; cases h
  | some q =>
    obtain ⟨head, r⟩ := q
    rw [splitOff_more z hx]
    rw [hx] at h
    simp only at h ⊢
    cases hy : p.parse head with
    | complete m n =>
      rw [hy] at h
      simp only at h ⊢
      cases ha : answer m with
      | none => rw [ha] at h; cases h
      | some w => rw [ha] at h; cases h; rfl
    | error => rw [hy] at h; cases h
    | part => rw [hy] at h; cases h

theorem lineRuling_waits {a : Bytes} (h : lineRuling p answer a = .waits) : splitOffHttp a = none := by
  unfold lineRuling at h
  cases hx : splitOffHttp a with
  | none => rfl
  | some q =>
    rw [hx] at h
    simp only at h
    split at h
    · cases ha : answer _ with
      | none => rw [ha] at h; cases h
      | some w => rw [ha] at h; cases h
    · cases h

theorem lineRuling_refuses {a : Bytes} (h : lineRuling p answer a = .refuses) :
    ∃ head rest, splitOffHttp a = some (head, rest) ∧ ∀ m n, p.parse head = .complete m n → answer m = none := by
  unfold lineRuling at h
  cases hx : splitOffHttp a with
  | none => rw [hx] at h; cases h
  | some q =>
    obtain ⟨head, r⟩ := q
    rw [hx] at h
    refine ⟨head, r, rfl, fun m n hy => ?_⟩
    simp only [hy] at h
    cases ha : answer m with
    | none => rfl
    | some w => rw [ha] at h; cases h

theorem lineRuling_opens {a written rest : Bytes} (h : lineRuling p answer a = .opens written rest) :
    ∃ head m n, splitOffHttp a = some (head, rest) ∧ p.parse head = .complete m n ∧ answer m = some written := by
  unfold lineRuling at h
  cases hx : splitOffHttp a with
  | none => rw [hx] at h; cases h
  | some q =>
    obtain ⟨head, r⟩ := q
    rw [hx] at h
    simp only at h
    cases hy : p.parse head with
    | complete m n =>
      rw [hy] at h
      simp only at h
      cases ha : answer m with
      | none => rw [ha] at h; cases h
      | some w => rw [ha] at h; cases h; exact ⟨head, m, n, rfl, hy, ha⟩
    | error => rw [hy] at h; cases h
    | part => rw [hy] at h; cases h

theorem clearcut_prefix {B : Bytes} (hB : Clearcut p B) {a head rest : Bytes} (ha : a <+: B) (h : splitOffHttp a = some (head, rest)) : p.parse head ≠ .part := by
  obtain ⟨z, rfl⟩ := ha
  exact hB _ _ (splitOff_more z h)

end

theorem async_sane {c : MsgCodec} {fr : Framed MsgCodec} {s : Src} (hfr : fr = Framed.fromParts c fr.buf) (hm : c.df.maxDf ≤ u32Max) (hs : s.Chunks) (q : Bool) :
    Ear.Sane q (.async fr) s := by
  refine ⟨by rw [hfr]; exact hm, hs, .inl ⟨by rw [hfr]; rfl, fun h => ?_⟩⟩
  have hb : fr.buf = [] := by
    rw [hfr] at h
    simpa [Framed.fromParts] using h
  rw [hb, hfr]
  exact msgDecoder_empty _ hm

section
variable [B64] (preq : ReqParser) (pres : ResParser)

theorem judges_async_server {custom : Option Headers} (htx : TextCustom custom) (w : Sink) (hw : w.Patient) (h0 : w.wire = []) (sops : List UpgradeOp) (maxDf maxMsg extra : Nat) (B : Bytes)
    (hB : Clearcut preq B) :
    Judges preq pres (.asyncServer (Upgrade.run · sops) custom maxDf maxMsg extra) w [] false (.async (MsgCodec.newWithLimits .server maxDf maxMsg))
      (lineRuling preq (serverAnswer sops custom)) B := by
  have fin : ∀ x : Src, (∀ m, ((Framed.new ()).next (httpDecoder preq) x).1 ≠ .item m) →
      Opening.attempt preq pres ⟨x, w⟩ (.asyncServer (Upgrade.run · sops) custom maxDf maxMsg extra) = ⟨((Framed.new ()).next (httpDecoder preq) x).2.2, w, none⟩ := by
    intro x hx
    unfold Opening.attempt asyncIntoWs
    cases hn : (Framed.new ()).next (httpDecoder preq) x with
    | mk r q =>
      rw [hn] at hx
      cases r with
      | item m => exact absurd rfl (hx m)
      | done => rfl
      | err e => rfl
      | panic e => rfl
  refine ⟨fun s hc _ hr => ?_, fun s hc _ hr => ?_, fun s t hc ht hp hr => ?_, fun s t written rest hc ht hp hr => ?_, fun a z _ => lineRuling_refused _ _, fun a z b c _ => lineRuling_opened _ _⟩
  · obtain ⟨h1, -⟩ := nexts_none preq s hc (lineRuling_waits _ _ hr)
    unfold Opening.attempt asyncIntoWs
    cases hn : (Framed.new ()).next (httpDecoder preq) (s ++ [mark]) with
    | mk r q =>
      rw [hn] at h1
      obtain ⟨fr, s'⟩ := q
      simp only at h1
      subst h1
      cases r with
      | item m =>
        simp only
        cases validate m.subject.method m.version m.headers <;> exact ⟨rfl, h0⟩
      | done => exact ⟨rfl, h0⟩
      | err e => exact ⟨rfl, h0⟩
      | panic e => exact ⟨rfl, h0⟩
  · obtain ⟨-, h2⟩ := nexts_none preq s hc (lineRuling_waits _ _ hr)
    rw [fin s h2]
    exact ⟨rfl, h0⟩
  · obtain ⟨head, rest, h1, h2⟩ := lineRuling_refuses _ _ hr
    have hnp := clearcut_prefix preq hB hp h1
    obtain ⟨fr, s', g1, g2, g3⟩ := nexts_some preq s t hc h1 hnp
    have mk : t = [mark] → mark ∈ s' ++ t := by intro q; rw [q]; simp
    cases hy : preq.parse head with
    | complete m n =>
      rw [hy] at g1
      have ha := h2 m n hy
      unfold serverAnswer at ha
      unfold Opening.attempt asyncIntoWs
      rw [g1]
      simp only
      cases hv : validate m.subject.method m.version m.headers with
      | error e => exact ⟨mk, rfl, h0⟩
      | ok u =>
        rw [hv] at ha
        obtain ⟨k, hk⟩ := validate_key hv
        rw [hk] at ha
        cases ha
    | error =>
      rw [hy] at g1
      rw [fin _ (by rw [g1]; nofun), g1]
      exact ⟨mk, rfl, h0⟩
    | part => exact absurd hy hnp
  · obtain ⟨head, m, n, h1, h2, h3⟩ := lineRuling_opens _ _ hr
    have hnp := clearcut_prefix preq hB hp h1
    obtain ⟨fr, s', g1, g2, g3⟩ := nexts_some preq s t hc h1 hnp
    rw [h2] at g1
    unfold serverAnswer at h3
    cases hv : validate m.subject.method m.version m.headers with
    | error e => rw [hv] at h3; cases h3
    | ok u =>
      rw [hv] at h3
      simp only at h3
      cases hg : m.headers.getKey with
      | none => rw [hg] at h3; cases h3
      | some key =>
        rw [hg] at h3
        simp only [Option.map_some, Option.some.injEq] at h3
        subst h3
        have hiw : asyncIntoWs preq ⟨s ++ t, w⟩ = .ok ⟨[], ⟨s' ++ t, w⟩, m, fr.buf⟩ := by
          unfold asyncIntoWs
          rw [g1]
          simp only [hv]
        unfold Opening.attempt
        rw [hiw]
        simp only
        refine ⟨fun q => by show mark ∈ s' ++ t; rw [q]; simp, ?_⟩
        obtain ⟨-, h8⟩ := C35_async_server_answers (⟨[], ⟨s' ++ t, w⟩, m, fr.buf⟩ : AsyncUpgrade) key sops custom maxDf maxMsg extra rfl hg htx
        have hwa := httpSend_patient (head101 m.version (responseLines sops custom key)) extra w hw
        rcases h8 with ⟨k, hk, _⟩ | ⟨c, k1, k2, k3, k4, k5, k6⟩
        · simp only at hk; rw [hwa] at hk; cases hk
        · have hlm := C39_async_server_limits _ custom maxDf maxMsg extra c k1
          obtain ⟨q1, q2, q3, codec, q4⟩ := asyncAccept_keeps _ custom maxDf maxMsg extra c k1
          rw [(run_facts _ sops (by simp [Headers.Unique])).2.2.1] at q1 q2
          have hcod : c.read.codec = MsgCodec.newWithLimits .server maxDf maxMsg := codec_eq hlm.1 hlm.2.1
          have hco : codec = MsgCodec.newWithLimits .server maxDf maxMsg := by rw [← hcod, q4]; rfl
          subst hco
          have har : c.stream.input.left = s' := by rw [show c.stream.input = s' ++ t from q1, left_tail g2 ht]
          have hsane : ∀ q, Ear.Sane q c.line.ear c.line.arrived := by
            intro q
            refine async_sane q4 (MsgCodec.wf_new .server maxDf maxMsg).1 ?_ q
            show c.stream.input.left.Chunks
            rw [har]; exact g2
          rw [k1]
          refine ⟨_, rfl, ?_, hsane _, hsane _, ?_, ?_, k6, hw.suffix q2, q3, k3⟩
          · show Mind.async c.read.codec = _
            rw [hcod]
          · show c.read.buf ++ c.stream.input.left.flat = rest
            rw [har]
            simp only [show c.stream.input = s' ++ t from q1, flat_tail ht] at k4
            rw [k4]; exact g3
          · show c.stream.output.wire = _
            rw [k2]
            show w.wire ++ _ = _
            rw [h0]; rfl

theorem judges_async_client (url : Url) (ops : List BOp) (fresh : WsKey) (extra : Nat) (htx : ∀ op ∈ ops, GivesText op) (w : Sink) (hw : w.Patient) (h0 : w.wire = []) (B : Bytes)
    (hB : Clearcut pres B) :
    Judges preq pres (.asyncClient ((Builder.init url).run ops) fresh extra) w (Head (requestStart url) (requestLines url ops fresh)) true
      (.async (MsgCodec.newWithLimits .client (lastSet setsDf (100 * 2 ^ 20) ops) (lastSet setsMsg (200 * 2 ^ 20) ops)))
      (lineRuling pres (clientAnswer url ops fresh)) B := by
  have hfmt := request_fmt url ops fresh
  have hwa := httpSend_patient (Head (requestStart url) (requestLines url ops fresh)) extra w hw
  have hsp := httpSend_spec (Head (requestStart url) (requestLines url ops fresh)) extra w
  have hlim := builder_limits url ops
  have hbk := build_keeps ((Builder.init url).run ops) fresh
  have hlim1 := hbk.1.trans hlim.1
  have hlim2 := hbk.2.1.trans hlim.2
  cases hw' : httpSend (Head (requestStart url) (requestLines url ops fresh)) extra w with
  | mk r q =>
  obtain ⟨fw, w'⟩ := q
  rw [hw'] at hwa hsp
  simp only at hwa hsp
  subst hwa
  rcases hsp with ⟨-, hwire, hempty⟩ | ⟨e, pre, h, _⟩
  · have hwire : w'.wire = Head (requestStart url) (requestLines url ops fresh) := by rw [hwire, h0, List.nil_append]
    have hnp := next_no_panic (httpDecoder pres) (httpDecoder_no_panic pres) (Framed.new ())
    have heq : ∀ x : Src, ((Builder.init url).run ops).asyncConnectOn pres fresh extra ⟨x, w⟩ =
        match (Framed.new ()).next (httpDecoder pres) x with
        | (x, fr, s) =>
          match x with
          | .item message =>
            match (((Builder.init url).run ops).buildRequest fresh).2.validate message with
            | .ok () => .client ⟨message.headers, ⟨s, w'⟩, updateFramedCodec (MsgCodec.newWithLimits .client (lastSet setsDf (100 * 2 ^ 20) ops) (lastSet setsMsg (200 * 2 ^ 20) ops)) fr, { fw with isServer := false }⟩
            | .error e => .err (some ⟨s, w'⟩) e
          | .done => .err (some ⟨s, w'⟩) .closed
          | .err e => .err (some ⟨s, w'⟩) (.ofCodec e)
          | .panic why => .panic why := by
      intro x
      rw [asyncConnect_text pres fresh extra _ _ (writable_request url ops htx fresh)]
      unfold Builder.asyncConnectText
      simp only [hfmt, hw', hlim1, hlim2]
      rfl
    have fin : ∀ x : Src, (∀ m, ((Framed.new ()).next (httpDecoder pres) x).1 ≠ .item m) →
        Opening.attempt preq pres ⟨x, w⟩ (.asyncClient ((Builder.init url).run ops) fresh extra) = ⟨((Framed.new ()).next (httpDecoder pres) x).2.2, w', none⟩ := by
      intro x hx
      have hnp := hnp x
      unfold Opening.attempt
      simp only [heq]
      cases hn : (Framed.new ()).next (httpDecoder pres) x with
      | mk r q =>
        rw [hn] at hx hnp
        cases r with
        | item m => exact absurd rfl (hx m)
        | done => rfl
        | err e => rfl
        | panic e => exact absurd rfl (hnp e)
    refine ⟨fun s hc _ hr => ?_, fun s hc _ hr => ?_, fun s t hc ht hp hr => ?_, fun s t written rest hc ht hp hr => ?_, fun a z _ => lineRuling_refused _ _, fun a z b c _ => lineRuling_opened _ _⟩
    · obtain ⟨h1, -⟩ := nexts_none pres s hc (lineRuling_waits _ _ hr)
      have hnp := hnp (s ++ [mark])
      unfold Opening.attempt
      simp only [heq]
      cases hn : (Framed.new ()).next (httpDecoder pres) (s ++ [mark]) with
      | mk r q =>
        rw [hn] at h1 hnp
        obtain ⟨fr, s'⟩ := q
        simp only at h1
        subst h1
        cases r with
        | item m =>
          simp only
          cases (((Builder.init url).run ops).buildRequest fresh).2.validate m <;> exact ⟨rfl, hwire⟩
        | done => exact ⟨rfl, hwire⟩
        | err e => exact ⟨rfl, hwire⟩
        | panic e => exact absurd rfl (hnp e)
    · obtain ⟨-, h2⟩ := nexts_none pres s hc (lineRuling_waits _ _ hr)
      rw [fin s h2]
      exact ⟨rfl, hwire⟩
    · obtain ⟨head, rest, h1, h2⟩ := lineRuling_refuses _ _ hr
      have hnp := clearcut_prefix pres hB hp h1
      obtain ⟨fr, s', g1, g2, g3⟩ := nexts_some pres s t hc h1 hnp
      have mk : t = [mark] → mark ∈ s' ++ t := by intro q; rw [q]; simp
      cases hy : pres.parse head with
      | complete m n =>
        rw [hy] at g1
        have ha := h2 m n hy
        unfold clientAnswer at ha
        unfold Opening.attempt
        simp only [heq, g1]
        cases hv : (((Builder.init url).run ops).buildRequest fresh).2.validate m with
        | error e => exact ⟨mk, rfl, hwire⟩
        | ok u => rw [hv] at ha; cases ha
      | error =>
        rw [hy] at g1
        rw [fin _ (by rw [g1]; nofun), g1]
        exact ⟨mk, rfl, hwire⟩
      | part => exact absurd hy hnp
    · obtain ⟨head, m, n, h1, h2, h3⟩ := lineRuling_opens _ _ hr
      have hnp := clearcut_prefix pres hB hp h1
      obtain ⟨fr, s', g1, g2, g3⟩ := nexts_some pres s t hc h1 hnp
      rw [h2] at g1
      unfold clientAnswer at h3
      cases hv : (((Builder.init url).run ops).buildRequest fresh).2.validate m with
      | error e => rw [hv] at h3; cases h3
      | ok u =>
        rw [hv] at h3
        simp only [Option.some.injEq] at h3
        subst h3
        have hcl : ((Builder.init url).run ops).asyncConnectOn pres fresh extra ⟨s ++ t, w⟩ =
            .client ⟨m.headers, ⟨s' ++ t, w'⟩, updateFramedCodec (MsgCodec.newWithLimits .client (lastSet setsDf (100 * 2 ^ 20) ops) (lastSet setsMsg (200 * 2 ^ 20) ops)) fr, { fw with isServer := false }⟩ := by
          rw [heq, g1]
          simp only [hv]
        obtain ⟨-, q2, q3, -⟩ := asyncConnectOn_keeps pres fresh extra _ ⟨s ++ t, w⟩ _ hcl
        unfold Opening.attempt
        simp only [hcl]
        have har : Src.left (s' ++ t) = s' := left_tail g2 ht
        have hsane : ∀ q, Ear.Sane q (.async (updateFramedCodec (MsgCodec.newWithLimits .client (lastSet setsDf (100 * 2 ^ 20) ops) (lastSet setsMsg (200 * 2 ^ 20) ops)) fr)) (Src.left (s' ++ t)) := by
          intro q
          refine async_sane (c := MsgCodec.newWithLimits .client (lastSet setsDf (100 * 2 ^ 20) ops) (lastSet setsMsg (200 * 2 ^ 20) ops)) rfl (MsgCodec.wf_new .client _ _).1 ?_ q
          rw [har]; exact g2
        refine ⟨fun q => by rw [q]; simp, _, rfl, rfl, hsane _, hsane _, ?_, hwire, rfl, hw.suffix q2, q3, hempty⟩
        show fr.buf ++ Src.flat (Src.left (s' ++ t)) = rest
        rw [har]; exact g3
  · cases h

end

/-! ## All four -/

section
variable [B64] {preq : ReqParser} {pres : ResParser} {B : Bytes} {how : Opening} {w : Sink} {before : Bytes} {mask : Bool} {hearing : Bytes → Nat → Heard} {ruling : Bytes → Ruling}

theorem door_judges (h : AtDoor preq pres B how w before mask hearing ruling) :
    w.wire = [] ∧ ∃ mind, Judges preq pres how w before mask mind ruling B ∧ (∀ written rest, ruling B = .opens written rest → mind.Calm rest) ∧
      ∀ written rest, ruling B = .opens written rest → (fun n => mind.hears n rest) = hearing rest := by
  cases h with
  | server sops custom maxDf maxMsg w htx hw h0 =>
    exact ⟨h0, _, judges_server preq pres htx w hw h0 sops maxDf maxMsg B, fun _ _ _ => trivial, fun _ rest _ => funext fun n => blockingHears_eq true maxDf maxMsg rest n⟩
  | client url ops fresh w htx hw h0 =>
    exact ⟨h0, _, judges_client preq pres url ops fresh htx w hw h0 B, fun _ _ _ => trivial, fun _ rest _ => funext fun n => blockingHears_eq false _ _ rest n⟩
  | asyncServer sops custom maxDf maxMsg extra w htx hw h0 hB hl =>
    exact ⟨h0, _, judges_async_server preq pres htx w hw h0 sops maxDf maxMsg extra B hB, fun _ _ hr => calm_new (hl _ _ hr),
      fun _ _ hr => funext fun n => asyncHears_eq (calm_new (hl _ _ hr)) n⟩
  | asyncClient url ops fresh extra w htx hw h0 hB hl =>
    exact ⟨h0, _, judges_async_client preq pres url ops fresh extra htx w hw h0 B hB, fun _ _ hr => calm_new (hl _ _ hr),
      fun _ _ hr => funext fun n => asyncHears_eq (calm_new (hl _ _ hr)) n⟩

theorem door_stands (h : AtDoor preq pres B how w before mask hearing ruling) {written rest : Bytes} (hr : ruling B = .opens written rest) : ∃ p, Stands rest p mask (hearing rest) := by
  cases h with
  | server sops custom maxDf maxMsg w htx hw h0 => exact ⟨_, .blocking true maxDf maxMsg w hw⟩
  | client url ops fresh w htx hw h0 => exact ⟨_, .blocking false _ _ w hw⟩
  | asyncServer sops custom maxDf maxMsg extra w htx hw h0 hB hl => exact ⟨_, .async .server maxDf maxMsg w hw (hl _ _ hr)⟩
  | asyncClient url ops fresh extra w htx hw h0 hB hl => exact ⟨_, .async .client _ _ w hw (hl _ _ hr)⟩

theorem door_rest (h : AtDoor preq pres B how w before mask hearing ruling) {written rest : Bytes} (hr : ruling B = .opens written rest) : rest.length ≤ B.length := by
  have head : ∀ {σ line ok} (p : HeadParser σ line ok) (answer : HttpHead σ → Option Bytes), headRuling p answer B = .opens written rest → rest.length ≤ B.length := by
    intro σ line ok p answer h
    unfold headRuling at h
    split at h
    · next m n hp =>
      rw [(elim_opens h).2]
      simp
    · cases h
    · split at h <;> cases h
  have line : ∀ {σ line ok} (p : HeadParser σ line ok) (answer : HttpHead σ → Option Bytes), lineRuling p answer B = .opens written rest → rest.length ≤ B.length := by
    intro σ line ok p answer h
    obtain ⟨hd, m, n, h1, -⟩ := lineRuling_opens _ _ h
    rw [(splitOff_iff.mp h1).1]
    simp
  cases h with
  | server => exact head _ _ hr
  | client => exact head _ _ hr
  | asyncServer => exact line _ _ hr
  | asyncClient => exact line _ _ hr

/-- Where a run stands. -/
theorem door_run (h : AtDoor preq pres B how w before mask hearing ruling) (plan : Plan) (keys : Nat → Key4) (extra : Nat → Nat) (es : List Brings) (hp : came es <+: B)
    (hf : finished es = true → came es = B) :
    ∃ mind R', Judges preq pres how w before mask mind ruling B ∧ (∀ written rest, ruling B = .opens written rest → mind.Calm rest) ∧
      (∀ written rest, ruling B = .opens written rest → (fun n => mind.hears n rest) = hearing rest) ∧ B = came es ++ R' ∧
      DStage plan keys extra how w before mask mind ruling B ((Visitor.start plan keys extra how w).endures preq pres es) R' ∧
      ((Visitor.start plan keys extra how w).endures preq pres es).agent.closed = finished es := by
  obtain ⟨h0, mind, hj, hc, hh⟩ := door_judges h
  obtain ⟨R', h1, h2, h3⟩ := endures_dstage hj hc es (start_dstage (plan := plan) (keys := keys) (extra := extra) h0) rfl hp hf
  exact ⟨mind, R', hj, hc, hh, h1, h2, h3⟩

theorem visitor_endures_append (v : Visitor) (es fs : List Brings) : v.endures preq pres (es ++ fs) = (v.endures preq pres es).endures preq pres fs := by
  unfold Visitor.endures; rw [List.foldl_append]

omit [B64] in
theorem came_append (es fs : List Brings) (h : finished es = false) : came (es ++ fs) = came es ++ came fs ∧ finished (es ++ fs) = finished fs := by
  induction es with
  | nil => exact ⟨rfl, rfl⟩
  | cons e es ih =>
    cases e with
    | turn => exact ih h
    | bytes b =>
      obtain ⟨h1, h2⟩ := ih h
      exact ⟨by simp only [List.cons_append, came, h1, List.append_assoc], h2⟩
    | finish => cases h

theorem not_opening_meets {v : Visitor} (h : v.isOpening = false) (e : Brings) : (v.meets preq pres e).isOpening = false := by
  obtain ⟨plan, keys, extra, past, agent⟩ := v
  cases agent with
  | opening l => cases h
  | talking p =>
    cases e with
    | turn => rfl
    | bytes b => rw [meets_bytes]; split <;> rfl
    | finish => rfl
  | failed l =>
    cases e with
    | turn => rfl
    | bytes b => rw [meets_bytes]; split <;> rfl
    | finish => rfl

theorem not_opening_endures (es : List Brings) : ∀ {v : Visitor}, v.isOpening = false → (v.endures preq pres es).isOpening = false := by
  induction es with
  | nil => exact fun h => h
  | cons e es ih => exact fun h => ih (not_opening_meets h e)

/-- As long as nothing is decided the program waits. -/
theorem waiting {plan : Plan} {keys : Nat → Key4} {extra : Nat → Nat} {mind : Mind} (hj : Judges preq pres how w before mask mind ruling B) (hcalm : ∀ w r, ruling B = .opens w r → mind.Calm r)
    (es : List Brings) : ∀ {v : Visitor} {A R : Bytes}, DStage plan keys extra how w before mask mind ruling B v R → B = A ++ R → v.agent.closed = false → v.isOpening = true → came es <+: R →
      finished es = false → ruling (A ++ came es) = .waits → (v.endures preq pres es).isOpening = true := by
  induction es with
  | nil => intro v A R _ _ _ h _ _ _; exact h
  | cons e es ih =>
    intro v A R h hB hc ho hp hf hr
    cases e with
    | turn =>
      obtain ⟨h1, h2, h3⟩ := turn_dstage hj hcalm h
      refine ih h1 hB (h2.trans hc) ((h3 A hB).2 ?_ hc ho) hp hf hr
      obtain ⟨z, hz⟩ := hp
      have hpre : A ++ came es <+: B := ⟨z, by rw [hB, ← hz, List.append_assoc]; rfl⟩
      cases hx : ruling A with
      | waits => rfl
      | refuses => rw [show came (.turn :: es) = came es from rfl, hj.refused _ _ hpre hx] at hr; cases hr
      | opens a b => rw [show came (.turn :: es) = came es from rfl, hj.opened _ _ _ _ hpre hx] at hr; cases hr
    | bytes b =>
      obtain ⟨R', rfl⟩ := hp
      simp only [came, List.append_assoc] at h hB hr
      obtain ⟨h1, h2⟩ := bytes_dstage (preq := preq) (pres := pres) h
      refine ih (A := A ++ b) h1 (by rw [hB, List.append_assoc]) (h2.trans hc) ?_ (List.prefix_append _ _) hf (by rw [List.append_assoc]; exact hr)
      obtain ⟨_, _, _, _, agent⟩ := v
      cases agent with
      | opening l => rw [meets_bytes]; split <;> rfl
      | talking p => cases ho
      | failed l => cases ho
    | finish => cases hf

end

end WS
