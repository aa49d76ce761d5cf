import Verif.Model.HttpCodec
import Verif.Spec.Handshake
import Verif.Lemmas.BufReader
/-!
# Reading an HTTP head: blocking (`parseHead`) and async (`httpDecoder` under `FramedRead`)
-/

namespace WS

open Spec

/-! ## The first blank line -/

theorem findBlank_some {s : Bytes} {p : Nat} (h : findBlank s = some p) :
    FirstBlank s (s.take (p + 4)) (s.drop (p + 4)) := by
  induction s using findBlank.induct generalizing p with
  | case1 a b c d t hc =>
    obtain ⟨rfl, rfl, rfl, rfl⟩ := hc
    simp only [findBlank, and_self, if_true, Option.some.injEq] at h
    subst h
    refine ⟨by simp, by simp, ?_⟩
    intro h hp hs
    have h1 := hs.length_le
    have h2 := hp.length_le
    simp at h1 h2
    exact hp.eq_of_length (by simp; omega)
  | case2 a b c d t hc ih =>
    rw [findBlank, if_neg hc] at h
    rw [Option.map_eq_some_iff] at h
    obtain ⟨q, hq, rfl⟩ := h
    obtain ⟨h1, h2, h3⟩ := ih hq
    have e : (a :: b :: c :: d :: t).take (q + 1 + 4) = a :: (b :: c :: d :: t).take (q + 4) := rfl
    refine ⟨(List.take_append_drop _ _).symm, ?_, ?_⟩
    · rw [e]; exact h2.trans (List.suffix_cons _ _)
    · intro h hp hs
      rw [e] at hp ⊢
      cases h with
      | nil => have := hs.length_le; simp at this
      | cons x h =>
        rw [List.cons_prefix_cons] at hp
        obtain ⟨rfl, hp⟩ := hp
        rw [List.suffix_cons_iff] at hs
        rcases hs with hs | hs
        · simp only [List.cons.injEq] at hs
          obtain ⟨rfl, rfl⟩ := hs
          exfalso
          apply hc
          obtain ⟨r, hr⟩ := hp.trans (List.take_prefix _ _)
          simp only [List.cons_append, List.nil_append, List.cons.injEq] at hr
          exact ⟨rfl, hr.1.symm, hr.2.1.symm, hr.2.2.1.symm⟩
        · rw [h3 h hp hs]
  | case3 s hs =>
    rw [findBlank] at h
    · cases h
    · exact hs

theorem findBlank_none {s : Bytes} (h : findBlank s = none) : ¬ [13, 10, 13, 10] <:+: s := by
  induction s using findBlank.induct with
  | case1 a b c d t hc =>
    rw [findBlank, if_pos hc] at h; cases h
  | case2 a b c d t hc ih =>
    rw [findBlank, if_neg hc] at h
    rw [Option.map_eq_none_iff] at h
    intro hi
    rw [List.infix_cons_iff] at hi
    rcases hi with hi | hi
    · apply hc
      simp only [List.cons_prefix_cons] at hi
      exact ⟨hi.1.symm, hi.2.1.symm, hi.2.2.1.symm, hi.2.2.2.1.symm⟩
    · exact ih h hi
  | case3 s hs =>
    intro hi
    have hl := hi.length_le
    match s, hs with
    | a :: b :: c :: d :: t, hs => exact hs a b c d t rfl
    | [], _ => simp at hl
    | [_], _ => simp at hl
    | [_, _], _ => simp at hl
    | [_, _, _], _ => simp at hl

theorem firstBlank_unique {s h r h' r' : Bytes} (a : FirstBlank s h r) (b : FirstBlank s h' r') : h = h' ∧ r = r' := by
  have e : h = h' := by
    have p1 : h <+: s := ⟨r, a.1.symm⟩
    have p2 : h' <+: s := ⟨r', b.1.symm⟩
    rcases List.prefix_or_prefix_of_prefix p1 p2 with hp | hp
    · exact b.2.2 h hp a.2.1
    · exact (a.2.2 h' hp b.2.1).symm
  subst e
  exact ⟨rfl, List.append_cancel_left (a.1.symm.trans b.1)⟩

theorem splitOff_iff {s h r : Bytes} : splitOffHttp s = some (h, r) ↔ FirstBlank s h r := by
  unfold splitOffHttp
  constructor
  · intro hs
    cases hf : findBlank s with
    | none => rw [hf] at hs; cases hs
    | some p =>
      rw [hf] at hs
      simp only [Option.some.injEq, Prod.mk.injEq] at hs
      obtain ⟨rfl, rfl⟩ := hs
      exact findBlank_some hf
  · intro hs
    cases hf : findBlank s with
    | none =>
      exfalso
      refine findBlank_none hf ?_
      rw [hs.1]
      exact hs.2.1.isInfix.trans (List.prefix_append _ _).isInfix
    | some p =>
      have := findBlank_some hf
      obtain ⟨e1, e2⟩ := firstBlank_unique this hs
      simp only [e1, e2]

theorem splitOff_none {s : Bytes} : splitOffHttp s = none ↔ ¬ [13, 10, 13, 10] <:+: s := by
  unfold splitOffHttp
  cases hf : findBlank s with
  | none => simp [findBlank_none hf]
  | some p =>
    have := findBlank_some hf
    simp only [reduceCtorEq, false_iff, Classical.not_not]
    exact this.2.1.isInfix.trans (List.take_prefix _ _).isInfix

/-- What arrived so far: either the head is in it, or no blank line is. -/
theorem splitOff_prefix {w t head rest : Bytes} (h : FirstBlank (w ++ t) head rest) :
    (∃ r, w = head ++ r ∧ rest = r ++ t ∧ splitOffHttp w = some (head, r)) ∨ splitOffHttp w = none := by
  cases hs : splitOffHttp w with
  | none => right; rfl
  | some q =>
    obtain ⟨h', r⟩ := q
    left
    rw [splitOff_iff] at hs
    have : FirstBlank (w ++ t) h' (r ++ t) := ⟨by rw [hs.1]; simp, hs.2.1, hs.2.2⟩
    obtain ⟨rfl, rfl⟩ := firstBlank_unique h this
    exact ⟨r, hs.1, rfl, rfl⟩

/-! ## Blocking -/

section
variable {R : Type} [HasSrc R]

omit [HasSrc R] in
theorem maybeReserve_spec {b : BufReader R} (hw : b.WF) :
    b.maybeReserve.WF ∧ b.maybeReserve.window = b.window ∧ b.maybeReserve.pos = b.pos ∧ b.maybeReserve.cap = b.cap ∧
      b.buf.length ≤ b.maybeReserve.buf.length ∧
      (0 < b.buf.length → b.cap < maxBufferSize → b.cap < b.maybeReserve.buf.length) := by
  obtain ⟨h1, h2⟩ := hw
  unfold BufReader.maybeReserve
  split
  · next h =>
    refine ⟨⟨h1, by simp only [List.length_append]; omega⟩, ?_, rfl, rfl, by simp, ?_⟩
    · simp only [BufReader.window]
      rw [List.take_append_of_le_length h2]
    · intro h3 h4
      simp only [List.length_append, List.length_replicate]
      omega
  · next h =>
    exact ⟨⟨h1, h2⟩, rfl, rfl, rfl, Nat.le_refl _, by intro h3 h4; omega⟩

theorem read1_flat (n : Nat) (s : Src) :
    (match (read1 n s).1 with | .ok bs => bs | .error _ => []) ++ (read1 n s).2.flat = s.flat ∧
      ∀ bs, (read1 n s).1 = .ok bs → bs.length ≤ n := by
  cases s with
  | nil => simp [read1, Src.flat]
  | cons e rest =>
    cases e with
    | error k => simp [read1, Src.flat]
    | chunk b =>
      simp only [read1]
      by_cases h : b.length ≤ n
      · rw [if_pos h]; refine ⟨rfl, ?_⟩; intro bs hb; cases hb; exact h
      · rw [if_neg h]
        refine ⟨?_, ?_⟩
        · simp only [Src.flat]; rw [← List.append_assoc, List.take_append_drop]
        · intro bs hb; cases hb; simp; omega

theorem readIntoBuf_spec {b : BufReader R} (hw : b.WF) :
    b.readIntoBuf.2.WF ∧ b.readIntoBuf.2.pos = b.pos ∧ b.buf.length ≤ b.readIntoBuf.2.buf.length ∧
      b.window <+: b.readIntoBuf.2.window ∧
      b.readIntoBuf.2.window ++ (HasSrc.get b.readIntoBuf.2.inner).flat = b.window ++ (HasSrc.get b.inner).flat := by
  obtain ⟨⟨m1, m2⟩, m3, m4, m5, m6, m7⟩ := maybeReserve_spec hw
  have hi := maybeReserve_inner b
  unfold BufReader.readIntoBuf
  simp only [hi]
  split
  · next hlt =>
    have hf := read1_flat (b.maybeReserve.buf.length - b.maybeReserve.cap) (HasSrc.get b.inner)
    cases hr : read1 (b.maybeReserve.buf.length - b.maybeReserve.cap) (HasSrc.get b.inner) with
    | mk r s =>
      rw [hr] at hf
      cases r with
      | error k =>
        simp only [List.nil_append] at hf
        refine ⟨⟨m1, m2⟩, m4, m6, ?_, ?_⟩
        · show b.window <+: b.maybeReserve.window
          rw [m3]; exact List.prefix_rfl
        · show b.maybeReserve.window ++ _ = _
          rw [m3, HasSrc.get_set, hf.1]
      | ok bs =>
        simp only at hf
        obtain ⟨hf, hl⟩ := hf
        have hl := hl bs rfl
        have hwin : ∀ inner : R, (⟨inner, b.maybeReserve.buf.take b.maybeReserve.cap ++ bs ++
            b.maybeReserve.buf.drop (b.maybeReserve.cap + bs.length), b.maybeReserve.pos,
            b.maybeReserve.cap + bs.length⟩ : BufReader R).window = b.maybeReserve.window ++ bs := by
          intro inner
          simp only [BufReader.window]
          have hlen : (b.maybeReserve.buf.take b.maybeReserve.cap ++ bs).length = b.maybeReserve.cap + bs.length := by
            simp; omega
          rw [← hlen, List.take_left, List.drop_append_of_le_length (by simp; omega)]
        refine ⟨⟨by simp only; omega, ?_⟩, m4, ?_, ?_, ?_⟩
        · simp only [List.length_append, List.length_take, List.length_drop]; omega
        · simp only [List.length_append, List.length_take, List.length_drop]; omega
        · rw [hwin, m3]; exact List.prefix_append _ _
        · rw [hwin, m3]; simp only [HasSrc.get_set, ← hf, List.append_assoc]
  · next hlt =>
    refine ⟨⟨m1, m2⟩, m4, m6, ?_, ?_⟩
    · rw [m3]; exact List.prefix_rfl
    · show b.maybeReserve.window ++ _ = _
      rw [m3, hi]

theorem consume_spec {b : BufReader R} (hw : b.WF) (n : Nat) (hn : n ≤ b.window.length) :
    (b.consume n).WF ∧ (b.consume n).window = b.window.drop n ∧ (b.consume n).inner = b.inner := by
  have hl := window_length hw
  obtain ⟨h1, h2⟩ := hw
  unfold BufReader.consume
  split
  · next h =>
    refine ⟨⟨Nat.le_refl _, by simp⟩, ?_, rfl⟩
    have : b.window.drop n = [] := by rw [List.drop_eq_nil_iff]; omega
    rw [this]; simp [BufReader.window]
  · next h =>
    refine ⟨⟨by simp only; omega, h2⟩, ?_, rfl⟩
    simp only [BufReader.window]
    rw [List.drop_drop]
    congr 1
    omega

/-- Whatever the transport does: an error leaves every byte in the buffer or the transport, a head
takes exactly its own bytes. -/
theorem parseHead_conserves {σ line ok} (p : HeadParser σ line ok) (b : BufReader R) (hw : b.WF) :
    (parseHead p b).2.WF ∧
    match (parseHead p b).1 with
    | .ok m => ∃ n, p.parse (b.window ++ (HasSrc.get b.inner).flat) = .complete m n ∧
        (parseHead p b).2.window ++ (HasSrc.get (parseHead p b).2.inner).flat = (b.window ++ (HasSrc.get b.inner).flat).drop n
    | .error _ => (parseHead p b).2.window ++ (HasSrc.get (parseHead p b).2.inner).flat = b.window ++ (HasSrc.get b.inner).flat := by
  fun_induction parseHead p b with
  | case1 b m n h =>
    have hlen := (p.complete_len _ _ _ h).2
    obtain ⟨c1, c2, c3⟩ := consume_spec hw n hlen
    refine ⟨c1, n, p.complete_mono _ _ _ _ h, ?_⟩
    rw [c2, c3, List.drop_append_of_le_length hlen]
  | case2 b h => exact ⟨hw, rfl⟩
  | case3 b h k b' hr =>
    have hs := readIntoBuf_spec hw
    rw [hr] at hs
    exact ⟨hs.1, hs.2.2.2.2⟩
  | case4 b h b' hl hr =>
    have hs := readIntoBuf_spec hw
    rw [hr] at hs
    exact ⟨hs.1, hs.2.2.2.2⟩
  | case5 b h b' hl hr =>
    have hs := readIntoBuf_spec hw
    rw [hr] at hs
    exact ⟨hs.1, hs.2.2.2.2⟩
  | case6 b h n b' hr hn ih =>
    have hs := readIntoBuf_spec hw
    rw [hr] at hs
    have := ih hs.1
    rw [hs.2.2.2.2] at this
    exact this

/-- A transport that only delivers bytes. -/
def Src.Chunks (s : Src) : Prop := ∀ e ∈ s, ∃ b, e = .chunk b ∧ b ≠ []

theorem read1_chunks {n : Nat} (hn : 0 < n) {s : Src} (h : s.Chunks) (hs : s.flat ≠ []) :
    ∃ bs s', read1 n s = (.ok bs, s') ∧ bs ≠ [] ∧ s'.Chunks := by
  cases s with
  | nil => exact absurd rfl hs
  | cons e rest =>
    obtain ⟨b, rfl, hb⟩ := h e (by simp)
    simp only [read1]
    by_cases hl : b.length ≤ n
    · rw [if_pos hl]
      exact ⟨b, rest, rfl, hb, fun e he => h e (by simp [he])⟩
    · rw [if_neg hl]
      refine ⟨_, _, rfl, ?_, ?_⟩
      · intro h0
        have := congrArg List.length h0
        rw [List.length_take] at this
        simp only [List.length_nil] at this
        omega
      · intro e he
        rcases List.mem_cons.mp he with rfl | he
        · exact ⟨_, rfl, by intro h0; have := congrArg List.length h0; simp at this; omega⟩
        · exact h e (by simp [he])

theorem readIntoBuf_progress {b : BufReader R} (hw : b.WF) (hpos : b.pos = 0) (hbuf : 0 < b.buf.length)
    (hl : b.window.length < maxBufferSize) (hc : (HasSrc.get b.inner).Chunks) (hne : (HasSrc.get b.inner).flat ≠ []) :
    ∃ n b', b.readIntoBuf = (.ok n, b') ∧ n ≠ 0 ∧ (HasSrc.get b'.inner).Chunks := by
  have hwl := window_length hw
  obtain ⟨m1, m3, m4, m5, m6, m7⟩ := maybeReserve_spec hw
  have hroom := m7 hbuf (by omega)
  obtain ⟨bs, s', hr1, hr2, hr3⟩ := read1_chunks (n := b.maybeReserve.buf.length - b.maybeReserve.cap) (by omega) hc hne
  unfold BufReader.readIntoBuf
  simp only [maybeReserve_inner]
  rw [if_pos (by omega), hr1]
  refine ⟨_, _, rfl, fun h => hr2 (List.length_eq_zero_iff.mp h), ?_⟩
  simp only [HasSrc.get_set]; exact hr3

/-- A head that fits the buffer is found, however it arrives. -/
theorem parseHead_finds {σ line ok} (p : HeadParser σ line ok) (b : BufReader R) (hw : b.WF) (hpos : b.pos = 0)
    (hbuf : 0 < b.buf.length) (hc : (HasSrc.get b.inner).Chunks) (head x : Bytes) (m : HttpHead σ)
    (hp : p.parse head = .complete m head.length) (hmax : head.length ≤ maxBufferSize)
    (hf : b.window ++ (HasSrc.get b.inner).flat = head ++ x) :
    (parseHead p b).1 = .ok m ∧ (parseHead p b).2.WF ∧ (HasSrc.get (parseHead p b).2.inner).Chunks ∧
      (parseHead p b).2.window ++ (HasSrc.get (parseHead p b).2.inner).flat = x := by
  have htot : p.parse (b.window ++ (HasSrc.get b.inner).flat) = .complete m head.length := by
    rw [hf]; exact p.complete_mono _ _ _ _ hp
  fun_induction parseHead p b with
  | case1 b m' n h =>
    have h2 := p.complete_mono _ _ _ (HasSrc.get b.inner).flat h
    rw [htot] at h2
    simp only [Parsed.complete.injEq] at h2
    obtain ⟨rfl, rfl⟩ := h2
    have hlen := (p.complete_len _ _ _ h).2
    obtain ⟨c1, c2, c3⟩ := consume_spec hw _ hlen
    refine ⟨rfl, c1, by rw [c3]; exact hc, ?_⟩
    rw [c2, c3, ← List.drop_append_of_le_length hlen, hf, List.drop_left]
  | case2 b h =>
    have := p.error_mono _ (HasSrc.get b.inner).flat h
    rw [htot] at this; cases this
  | case3 b h k b' hr | case4 b h b' hl hr | case5 b h b' hl hr | case6 b h n b' hr hn ih =>
    have hlt : b.window.length < head.length := by
      rcases Nat.lt_or_ge b.window.length head.length with hlt | hge
      · exact hlt
      · exfalso
        have hpre : head <+: b.window := by
          have h1 : head <+: b.window ++ (HasSrc.get b.inner).flat := ⟨x, hf.symm⟩
          exact List.prefix_of_prefix_length_le h1 (List.prefix_append _ _) hge
        obtain ⟨t, ht⟩ := hpre
        have := p.complete_mono _ _ _ t hp
        rw [ht, h] at this; cases this
    have hne : (HasSrc.get b.inner).flat ≠ [] := by
      intro h0
      rw [h0, List.append_nil] at hf
      have := congrArg List.length hf
      simp only [List.length_append] at this
      omega
    obtain ⟨n', b'', hp1, hp2, hp3⟩ := readIntoBuf_progress hw hpos hbuf (by omega) hc hne
    rw [hp1] at hr
    simp only [Prod.mk.injEq, Except.ok.injEq, reduceCtorEq, false_and] at hr
    try (obtain ⟨rfl, rfl⟩ := hr)
    try (exact absurd rfl hp2)
    try (
      have hs := readIntoBuf_spec hw
      rw [hp1] at hs
      have hf' := hs.2.2.2.2.trans hf
      exact ih hs.1 (hs.2.1.trans hpos) (by have := hs.2.2.1; simp only at this; omega) hp3 hf'
        (by rw [hf']; exact p.complete_mono _ _ _ _ hp))

end

theorem new_wf {R} (d : R) : (BufReader.new d).WF := by
  unfold BufReader.new BufReader.withCapacity BufReader.WF; simp

theorem new_window {R} (d : R) : (BufReader.new d).window = [] := by
  simp [BufReader.new, BufReader.withCapacity, BufReader.window]

/-! ## Async -/

/-- What the codec makes of the bytes of one head. -/
theorem slice_parse {σ line ok} (p : HeadParser σ line ok) (buf : Bytes) (hb : buf ≠ []) :
    (parseHead p (BufReader.withCapacity ([.chunk buf] : Src) buf.length)).1 =
      match p.parse buf with
      | .complete m _ => .ok m
      | .error => .error .http
      | .part => if buf.length = maxBufferSize then .error .tooLarge else .error (.io .unexpectedEof) := by
  have hlen : 0 < buf.length := List.length_pos_iff.mpr hb
  have hw0 : (BufReader.withCapacity ([.chunk buf] : Src) buf.length).window = [] := by simp [BufReader.withCapacity, BufReader.window]
  have hr0 : (BufReader.withCapacity ([.chunk buf] : Src) buf.length).readIntoBuf =
      (.ok buf.length, (⟨[], buf, 0, buf.length⟩ : BufReader Src)) := by
    unfold BufReader.readIntoBuf BufReader.maybeReserve BufReader.withCapacity
    simp only [List.length_replicate]
    have : ¬ (0 = buf.length ∧ buf.length < maxBufferSize) := by omega
    rw [if_neg this]
    simp only [List.length_replicate, hlen, if_true, HasSrc.get, id, HasSrc.set, read1, Nat.sub_zero, Nat.le_refl]
    simp
  rw [parseHead, hw0, p.parse_nil]
  simp only
  split
  · next k b' h => rw [hr0] at h; cases h
  · next n b' h =>
    rw [hr0] at h
    simp only [Prod.mk.injEq, Except.ok.injEq] at h
    obtain ⟨rfl, rfl⟩ := h
    rw [dif_neg (by omega), parseHead]
    have hw1 : (⟨[], buf, 0, buf.length⟩ : BufReader Src).window = buf := by simp [BufReader.window]
    rw [hw1]
    cases hp : p.parse buf with
    | complete m n => rfl
    | error => rfl
    | part =>
      simp only
      have hr1 := readIntoBuf_spec (b := (⟨[], buf, 0, buf.length⟩ : BufReader Src)) ⟨by simp, by simp⟩
      have hr2 : (⟨[], buf, 0, buf.length⟩ : BufReader Src).readIntoBuf.1 = .ok 0 := by
        unfold BufReader.readIntoBuf
        simp only [maybeReserve_inner]
        split <;> rfl
      cases hx : (⟨[], buf, 0, buf.length⟩ : BufReader Src).readIntoBuf with
      | mk r b' =>
        rw [hx] at hr1 hr2
        simp only at hr2
        subst hr2
        rw [hw1] at hr1
        have : b'.window = buf := by
          have e := hr1.2.2.2.2
          have h1 := hr1.2.2.2.1
          simp only [HasSrc.get, id, Src.flat, List.append_nil] at e
          obtain ⟨t, ht⟩ := h1
          have := congrArg List.length e
          rw [← ht] at this
          simp only at ht
          simp only [List.length_append] at this
          have ht0 : t = [] := List.length_eq_zero_iff.mp (by omega)
          rw [← ht, ht0, List.append_nil]
        simp only [this]
        simp only [dite_true]
        split <;> rfl

/-- The codec's answer for the bytes of a head. -/
def headAnswer {σ line ok} (p : HeadParser σ line ok) (head : Bytes) : Res (Option (HttpHead σ)) :=
  match p.parse head with
  | .complete m _ => .ok (some m)
  | .error => .err .other
  | .part => .ok none

theorem decode_head {σ line ok} (p : HeadParser σ line ok) {src head rest : Bytes} (h : splitOffHttp src = some (head, rest)) :
    httpDecoder p () src = (headAnswer p head, (), rest) := by
  have hb : head ≠ [] := by
    intro h0
    have := (splitOff_iff.mp h).2.1.length_le
    rw [h0] at this; simp at this
  unfold httpDecoder headAnswer
  rw [h]
  simp only
  rw [slice_parse p head hb]
  cases p.parse head with
  | complete m n => rfl
  | error => rfl
  | part =>
    simp only
    by_cases hm : head.length = maxBufferSize
    · rw [if_pos hm]
    · rw [if_neg hm]

theorem decode_none {σ line ok} (p : HeadParser σ line ok) {src : Bytes} (h : splitOffHttp src = none) :
    httpDecoder p () src = (.ok none, (), src) := by
  unfold httpDecoder
  rw [h]

/-- The item of an answer. -/
def answerItem {α} : Res (Option α) → Option (Item α)
  | .ok (some a) => some (.item a)
  | .ok none => none
  | .err e => some (.err e)
  | .panic w => some (.panic w)

/-- The transport answers with an error other than "would block", or reports its end. -/
def Ev.fails : Ev → Prop
  | .chunk b => b = []
  | .error k => k ≠ .wouldBlock

/-- Reading a head through `FramedRead`, no head arrived yet. The head is found and taken exactly;
or the transport failed or ended first and every byte is still there; or it is not ready. -/
theorem pollRead_head {σ line ok} (p : HeadParser σ line ok) (s : Src) (fr : Framed Unit) {head rest : Bytes}
    (hf : FirstBlank (fr.buf ++ s.flat) head rest) (hn : splitOffHttp fr.buf = none) (hr : fr.readable = false)
    (ha : headAnswer p head ≠ .ok none) :
    (∃ a fr' s', fr.pollRead (httpDecoder p) s = (.ready a, fr', s') ∧ some a = answerItem (headAnswer p head) ∧
        fr'.buf ++ s'.flat = rest ∧ s' <:+ s) ∨
    (∃ a fr' s', fr.pollRead (httpDecoder p) s = (.ready a, fr', s') ∧ (a = .done ∨ ∃ e, a = .err e) ∧
        fr'.buf ++ s'.flat = head ++ rest ∧ s' <:+ s ∧ ∃ e ∈ s, e.fails) ∨
    (∃ fr' s', fr.pollRead (httpDecoder p) s = (.notReady, fr', s') ∧ fr'.buf ++ s'.flat = head ++ rest ∧
        splitOffHttp fr'.buf = none ∧ s' <:+ s ∧ fr'.readable = false) := by
  induction s generalizing fr with
  | nil =>
    rw [Src.flat, List.append_nil] at hf
    rw [splitOff_iff.mpr hf] at hn; cases hn
  | cons e tl ih =>
    have hflat := hf.1
    cases e with
    | error k =>
      rw [Framed.pollRead]
      by_cases hk : k = .wouldBlock
      · rw [if_pos hk]
        exact Or.inr (Or.inr ⟨fr, tl, rfl, hflat, hn, List.suffix_cons _ _, hr⟩)
      · rw [if_neg hk]
        exact Or.inr (Or.inl ⟨_, fr, tl, rfl, Or.inr ⟨_, rfl⟩, hflat, List.suffix_cons _ _, .error k, by simp, hk⟩)
    | chunk b =>
      rw [Framed.pollRead]
      by_cases hb : b = []
      · rw [if_pos hb]
        subst hb
        right; left
        unfold Framed.pollEof
        simp only [decode_none p hn]
        refine ⟨_, _, _, rfl, ?_, hflat, List.suffix_cons _ _, .chunk [], by simp, rfl⟩
        split
        · exact Or.inl rfl
        · exact Or.inr ⟨_, rfl⟩
      · rw [if_neg hb]
        have hf2 : FirstBlank ((fr.buf ++ b) ++ Src.flat tl) head rest := by
          rw [List.append_assoc]; exact hf
        rcases splitOff_prefix hf2 with ⟨r, h1, h2, h3⟩ | h3
        · rw [decode_head p h3]
          left
          cases hh : headAnswer p head with
          | ok o =>
            cases o with
            | none => exact absurd hh ha
            | some m => exact ⟨_, _, _, rfl, rfl, h2.symm, List.suffix_cons _ _⟩
          | err e => exact ⟨_, _, _, rfl, rfl, h2.symm, List.suffix_cons _ _⟩
          | panic w => exact ⟨_, _, _, rfl, rfl, h2.symm, List.suffix_cons _ _⟩
        · rw [decode_none p h3]
          simp only
          rcases ih { fr with codec := (), buf := fr.buf ++ b, readable := false } hf2 h3 rfl with
            ⟨a, fr', s', h1, h2, h4, h5⟩ | ⟨a, fr', s', h1, h2, h4, h5, e, he, hfe⟩ | ⟨fr', s', h1, h2, h4, h5, h6⟩
          · exact Or.inl ⟨a, fr', s', h1, h2, h4, h5.trans (List.suffix_cons _ _)⟩
          · exact Or.inr (Or.inl ⟨a, fr', s', h1, h2, h4, h5.trans (List.suffix_cons _ _), e, by simp [he], hfe⟩)
          · exact Or.inr (Or.inr ⟨fr', s', h1, h2, h4, h5.trans (List.suffix_cons _ _), h6⟩)

theorem suffix_measure {s t : Src} (h : s <:+ t) : s.length ≤ t.length := h.length_le

/-- The same, awaited. -/
theorem next_head {σ line ok} (p : HeadParser σ line ok) (s : Src) (fr : Framed Unit) {head rest : Bytes}
    (hf : FirstBlank (fr.buf ++ s.flat) head rest) (hn : splitOffHttp fr.buf = none) (hr : fr.readable = false)
    (ha : headAnswer p head ≠ .ok none) :
    (some (fr.next (httpDecoder p) s).1 = answerItem (headAnswer p head) ∧
        (fr.next (httpDecoder p) s).2.1.buf ++ (fr.next (httpDecoder p) s).2.2.flat = rest ∧ (fr.next (httpDecoder p) s).2.2 <:+ s) ∨
    (((fr.next (httpDecoder p) s).1 = .done ∨ ∃ e, (fr.next (httpDecoder p) s).1 = .err e) ∧
        (fr.next (httpDecoder p) s).2.1.buf ++ (fr.next (httpDecoder p) s).2.2.flat = head ++ rest ∧
        (fr.next (httpDecoder p) s).2.2 <:+ s ∧ ∃ e ∈ s, e.fails) := by
  generalize hlen : s.length = n
  induction n using Nat.strongRecOn generalizing s fr with
  | ind n ih =>
    have hpoll : fr.poll (httpDecoder p) s = fr.pollRead (httpDecoder p) s := by
      unfold Framed.poll; rw [if_neg (by rw [hr]; decide)]
    rw [Framed.next]
    rcases pollRead_head p s fr hf hn hr ha with ⟨a, fr', s', h1, h2, h4, h5⟩ | ⟨a, fr', s', h1, h2, h4, h5, h6⟩ | ⟨fr', s', h1, h2, h4, h5, h6⟩
    · rw [← hpoll] at h1
      split
      · next x f t h => rw [h1] at h; cases h; exact Or.inl ⟨h2, h4, h5⟩
      · next f t h => rw [h1] at h; cases h
    · rw [← hpoll] at h1
      split
      · next x f t h => rw [h1] at h; cases h; exact Or.inr ⟨h2, h4, h5, h6⟩
      · next f t h => rw [h1] at h; cases h
    · have hlt := Framed.pollRead_lt _ _ _ _ _ h1
      rw [← hpoll] at h1
      split
      · next x f t h => rw [h1] at h; cases h
      · next f t h =>
        rw [h1] at h
        simp only [Prod.mk.injEq, true_and] at h
        obtain ⟨rfl, rfl⟩ := h
        have hf' : FirstBlank (fr'.buf ++ s'.flat) head rest := ⟨h2, hf.2⟩
        rcases ih s'.length (by omega) s' fr' hf' h4 h6 rfl with ⟨g1, g2, g3⟩ | ⟨g1, g2, g3, e, he, hfe⟩
        · exact Or.inl ⟨g1, g2, g3.trans h5⟩
        · exact Or.inr ⟨g1, g2, g3.trans h5, e, h5.subset he, hfe⟩

/-- A stream without a blank line never yields a head, and no byte is lost. -/
theorem pollRead_none {σ line ok} (p : HeadParser σ line ok) (s : Src) (fr : Framed Unit)
    (hf : ¬ [13, 10, 13, 10] <:+: fr.buf ++ s.flat) (hr : fr.readable = false) :
    (∃ a fr' s', fr.pollRead (httpDecoder p) s = (.ready a, fr', s') ∧ (a = .done ∨ ∃ e, a = .err e) ∧
        fr'.buf ++ s'.flat = fr.buf ++ s.flat ∧ s' <:+ s) ∨
    (∃ fr' s', fr.pollRead (httpDecoder p) s = (.notReady, fr', s') ∧ fr'.buf ++ s'.flat = fr.buf ++ s.flat ∧
        s' <:+ s ∧ fr'.readable = false) := by
  have hpre : ∀ w t : Bytes, ¬ [13, 10, 13, 10] <:+: w ++ t → splitOffHttp w = none := by
    intro w t h
    rw [splitOff_none]
    exact fun h' => h (h'.trans (List.prefix_append _ _).isInfix)
  induction s generalizing fr with
  | nil =>
    left
    rw [Framed.pollRead]
    unfold Framed.pollEof
    simp only [decode_none p (hpre _ _ hf)]
    refine ⟨_, _, _, rfl, ?_, rfl, List.suffix_rfl⟩
    split
    · exact Or.inl rfl
    · exact Or.inr ⟨_, rfl⟩
  | cons e tl ih =>
    cases e with
    | error k =>
      rw [Framed.pollRead]
      by_cases hk : k = .wouldBlock
      · rw [if_pos hk]
        exact Or.inr ⟨fr, tl, rfl, rfl, List.suffix_cons _ _, hr⟩
      · rw [if_neg hk]
        exact Or.inl ⟨_, fr, tl, rfl, Or.inr ⟨_, rfl⟩, rfl, List.suffix_cons _ _⟩
    | chunk b =>
      rw [Framed.pollRead]
      by_cases hb : b = []
      · rw [if_pos hb]
        subst hb
        left
        unfold Framed.pollEof
        simp only [decode_none p (hpre _ _ hf)]
        refine ⟨_, _, _, rfl, ?_, rfl, List.suffix_cons _ _⟩
        split
        · exact Or.inl rfl
        · exact Or.inr ⟨_, rfl⟩
      · rw [if_neg hb]
        have e0 : fr.buf ++ Src.flat (.chunk b :: tl) = (fr.buf ++ b) ++ Src.flat tl := by rw [List.append_assoc]; rfl
        rw [e0] at hf ⊢
        rw [decode_none p (hpre _ _ hf)]
        simp only
        rcases ih { fr with codec := (), buf := fr.buf ++ b, readable := false } hf rfl with
            ⟨a, fr', s', h1, h2, h4, h5⟩ | ⟨fr', s', h1, h2, h5, h6⟩
        · exact Or.inl ⟨a, fr', s', h1, h2, h4, h5.trans (List.suffix_cons _ _)⟩
        · exact Or.inr ⟨fr', s', h1, h2, h5.trans (List.suffix_cons _ _), h6⟩

theorem next_none {σ line ok} (p : HeadParser σ line ok) (s : Src) (fr : Framed Unit)
    (hf : ¬ [13, 10, 13, 10] <:+: fr.buf ++ s.flat) (hr : fr.readable = false) :
    ((fr.next (httpDecoder p) s).1 = .done ∨ ∃ e, (fr.next (httpDecoder p) s).1 = .err e) ∧
        (fr.next (httpDecoder p) s).2.1.buf ++ (fr.next (httpDecoder p) s).2.2.flat = fr.buf ++ s.flat ∧
        (fr.next (httpDecoder p) s).2.2 <:+ s := by
  generalize hlen : s.length = n
  induction n using Nat.strongRecOn generalizing s fr with
  | ind n ih =>
    have hpoll : fr.poll (httpDecoder p) s = fr.pollRead (httpDecoder p) s := by
      unfold Framed.poll; rw [if_neg (by rw [hr]; decide)]
    rw [Framed.next]
    rcases pollRead_none p s fr hf hr with ⟨a, fr', s', h1, h2, h4, h5⟩ | ⟨fr', s', h1, h2, h5, h6⟩
    · rw [← hpoll] at h1
      split
      · next x f t h => rw [h1] at h; cases h; exact ⟨h2, h4, h5⟩
      · next f t h => rw [h1] at h; cases h
    · have hlt := Framed.pollRead_lt _ _ _ _ _ h1
      rw [← hpoll] at h1
      split
      · next x f t h => rw [h1] at h; cases h
      · next f t h =>
        rw [h1] at h
        simp only [Prod.mk.injEq, true_and] at h
        obtain ⟨rfl, rfl⟩ := h
        have := ih s'.length (by omega) s' fr' (by rw [h2]; exact hf) h6 rfl
        rw [h2] at this
        exact ⟨this.1, this.2.1, this.2.2.trans h5⟩

end WS
