import Verif.Lemmas.Recv
import Verif.Model.Framed
/-! The async stream as a function of the byte stream, for decoders that do not care about chunks. -/

namespace WS

/-- An async transport that delivers its bytes without failing: every event is a non-empty chunk
or "not ready yet". -/
def Src.Ready : Src → Prop
  | [] => True
  | .chunk b :: rest => b ≠ [] ∧ Src.Ready rest
  | .error k :: rest => k = .wouldBlock ∧ Src.Ready rest

/-- More input does not change an answer already given, and a decoder that asked for more
continues where it was, as long as the answer on the whole input is `good`. -/
structure Chunkable {σ α} (dec : Decoder σ α) (P : σ → Prop) (good : Res (Option α) → Prop) : Prop where
  good_none : good (.ok .none)
  inv : ∀ c bs, P c → P (dec c bs).2.1
  stable : ∀ c bs r c' rest x, P c → dec c bs = (r, c', rest) → r ≠ .ok .none →
    dec c (bs ++ x) = (r, c', rest ++ x)
  resume : ∀ c bs c' left x, P c → dec c bs = (.ok .none, c', left) → good (dec c (bs ++ x)).1 →
    dec c' (left ++ x) = dec c (bs ++ x)

/-- The next item as a function of the codec and all the bytes to come before the end of stream. -/
def decNext {σ α} (dec : Decoder σ α) (c : σ) (bs : Bytes) : Item α × σ × Bytes :=
  match dec c bs with
  | (.ok (some a), c', rest) => (.item a, c', rest)
  | (.ok none, c', rest) => (if rest = [] then .done else .err bytesRemaining, c', rest)
  | (.err e, c', rest) => (.err e, c', rest)
  | (.panic e, c', rest) => (.panic e, c', rest)

/-- Items as functions of the bytes. -/
def decMany {σ α} (dec : Decoder σ α) : Nat → σ → Bytes → List (Item α) × σ × Bytes
  | 0, c, bs => ([], c, bs)
  | n + 1, c, bs =>
    let (x, c', bs') := decNext dec c bs
    let (xs, c'', bs'') := decMany dec n c' bs'
    (x :: xs, c'', bs'')

/-- The stream and the transport are in a state that polling can reach on a transport that does not
fail. -/
def Live {σ α} (dec : Decoder σ α) (fr : Framed σ) (s : Src) : Prop :=
  (fr.eof = false ∧ s.Ready ∧ (fr.readable = false → dec fr.codec fr.buf = (.ok none, fr.codec, fr.buf))) ∨
  (fr.eof = true ∧ fr.readable = true ∧ s = [])

section
variable {σ α : Type} {dec : Decoder σ α} {P : σ → Prop} {good : Res (Option α) → Prop}

theorem Chunkable.idle (hd : Chunkable dec P good) {c c' : σ} {bs left : Bytes} (hP : P c)
    (h : dec c bs = (.ok none, c', left)) : dec c' left = (.ok none, c', left) := by
  have := hd.resume c bs c' left [] hP h (by rw [List.append_nil, h]; exact hd.good_none)
  simpa [h] using this

theorem pollEof_eq (fr : Framed σ) :
    Framed.pollEof dec fr = ((decNext dec fr.codec fr.buf).1,
      { fr with codec := (decNext dec fr.codec fr.buf).2.1, buf := (decNext dec fr.codec fr.buf).2.2 }) := by
  unfold Framed.pollEof decNext
  split <;> simp_all

theorem pollRead_spec (hd : Chunkable dec P good) (s : Src) (hs : s.Ready) (fr : Framed σ) (hP : P fr.codec)
    (he : fr.eof = false) (hr : fr.readable = false)
    (hi : dec fr.codec fr.buf = (.ok none, fr.codec, fr.buf))
    (hg : good (dec fr.codec (fr.buf ++ s.flat)).1) :
    match Framed.pollRead dec fr s with
    | (.ready x, fr', s') =>
      (x, fr'.codec, fr'.buf ++ s'.flat) = decNext dec fr.codec (fr.buf ++ s.flat) ∧ Live dec fr' s' ∧ P fr'.codec
    | (.notReady, fr', s') => fr'.eof = false ∧ fr'.readable = false ∧ P fr'.codec ∧ s'.Ready ∧
      dec fr'.codec fr'.buf = (.ok none, fr'.codec, fr'.buf) ∧
      dec fr'.codec (fr'.buf ++ s'.flat) = dec fr.codec (fr.buf ++ s.flat) := by
  induction s generalizing fr with
  | nil =>
    unfold Framed.pollRead
    rw [pollEof_eq]
    simp only [Src.flat, List.append_nil]
    refine ⟨trivial, .inr ⟨rfl, rfl, rfl⟩, ?_⟩
    have := hd.inv fr.codec fr.buf hP
    unfold decNext
    split <;> simp_all
  | cons e rest ih =>
    cases e with
    | error k =>
      obtain ⟨rfl, hrest⟩ := hs
      unfold Framed.pollRead
      simp only [if_true]
      exact ⟨he, hr, hP, hrest, hi, rfl⟩
    | chunk b =>
      obtain ⟨hb, hrest⟩ := hs
      have hinv := hd.inv fr.codec (fr.buf ++ b) hP
      have hfl : Src.flat (.chunk b :: rest) = b ++ Src.flat rest := rfl
      rw [hfl, ← List.append_assoc] at hg ⊢
      unfold Framed.pollRead
      rw [if_neg hb]
      cases hdec : dec fr.codec (fr.buf ++ b) with
      | mk r q =>
        obtain ⟨c', b'⟩ := q
        rw [hdec] at hinv
        cases r with
        | ok o =>
          cases o with
          | some a =>
            have hst := hd.stable _ _ _ _ _ (Src.flat rest) hP hdec (by simp)
            refine ⟨?_, .inl ⟨he, hrest, by simp⟩, hinv⟩
            unfold decNext; rw [hst]
          | none =>
            have hre := hd.resume _ _ _ _ (Src.flat rest) hP hdec hg
            have hid := hd.idle hP hdec
            have := ih hrest { fr with codec := c', buf := b', readable := false } hinv he rfl hid
              (by simp only [hre]; exact hg)
            simp only at this ⊢
            rw [hre] at this
            have e2 : decNext dec c' (b' ++ Src.flat rest) = decNext dec fr.codec (fr.buf ++ b ++ Src.flat rest) := by
              unfold decNext; rw [hre]
            rw [e2] at this
            exact this
        | err e =>
          have hst := hd.stable _ _ _ _ _ (Src.flat rest) hP hdec (by simp)
          refine ⟨?_, .inl ⟨he, hrest, by simp⟩, hinv⟩
          unfold decNext; rw [hst]
        | panic e =>
          have hst := hd.stable _ _ _ _ _ (Src.flat rest) hP hdec (by simp)
          refine ⟨?_, .inl ⟨he, hrest, by simp⟩, hinv⟩
          unfold decNext; rw [hst]

theorem poll_spec (hd : Chunkable dec P good) (s : Src) (fr : Framed σ) (hl : Live dec fr s) (hP : P fr.codec)
    (hg : good (dec fr.codec (fr.buf ++ s.flat)).1) :
    match Framed.poll dec fr s with
    | (.ready x, fr', s') =>
      (x, fr'.codec, fr'.buf ++ s'.flat) = decNext dec fr.codec (fr.buf ++ s.flat) ∧ Live dec fr' s' ∧ P fr'.codec
    | (.notReady, fr', s') => Live dec fr' s' ∧ P fr'.codec ∧
      dec fr'.codec (fr'.buf ++ s'.flat) = dec fr.codec (fr.buf ++ s.flat) := by
  have hinv := hd.inv fr.codec fr.buf hP
  rcases hl with ⟨he, hs, hi⟩ | ⟨he, hr, rfl⟩
  · unfold Framed.poll
    by_cases hr : fr.readable = true
    · simp only [hr, if_true, he, Bool.false_eq_true, if_false]
      cases hdec : dec fr.codec fr.buf with
      | mk r q =>
        obtain ⟨c', b'⟩ := q
        rw [hdec] at hinv
        cases r with
        | ok o =>
          cases o with
          | some a =>
            have hst := hd.stable _ _ _ _ _ (Src.flat s) hP hdec (by simp)
            refine ⟨?_, .inl ⟨rfl, hs, by simp⟩, hinv⟩
            unfold decNext; rw [hst]
          | none =>
            have hre := hd.resume _ _ _ _ (Src.flat s) hP hdec hg
            have hid := hd.idle hP hdec
            have := pollRead_spec hd s hs { fr with codec := c', buf := b', readable := false } hinv he rfl hid
              (by simp only [hre]; exact hg)
            simp only [he] at this ⊢
            have e2 : decNext dec c' (b' ++ Src.flat s) = decNext dec fr.codec (fr.buf ++ Src.flat s) := by
              unfold decNext; rw [hre]
            rw [hre, e2] at this
            split <;> simp_all only [and_self]
            next fr' s' hp =>
            exact ⟨.inl ⟨this.1, this.2.2.2.1, fun _ => this.2.2.2.2.1⟩, trivial⟩
        | err e =>
          have hst := hd.stable _ _ _ _ _ (Src.flat s) hP hdec (by simp)
          refine ⟨?_, .inl ⟨rfl, hs, by simp⟩, hinv⟩
          unfold decNext; rw [hst]
        | panic e =>
          have hst := hd.stable _ _ _ _ _ (Src.flat s) hP hdec (by simp)
          refine ⟨?_, .inl ⟨rfl, hs, by simp⟩, hinv⟩
          unfold decNext; rw [hst]
    · rw [if_neg hr]
      have hr' : fr.readable = false := by simpa using hr
      have := pollRead_spec hd s hs fr hP he hr' (hi hr') hg
      split <;> simp_all only [and_self]
      next fr' s' hp =>
      exact ⟨.inl ⟨this.1, this.2.2.2.1, fun _ => this.2.2.2.2.1⟩, trivial⟩
  · unfold Framed.poll
    simp only [hr, he, if_true, pollEof_eq, Src.flat, List.append_nil]
    refine ⟨trivial, .inr ⟨rfl, rfl, rfl⟩, ?_⟩
    unfold decNext
    split <;> simp_all

theorem next_spec (hd : Chunkable dec P good) (s : Src) (fr : Framed σ) (hl : Live dec fr s) (hP : P fr.codec)
    (hg : good (dec fr.codec (fr.buf ++ s.flat)).1) :
    ∃ x fr' s', fr.next dec s = (x, fr', s') ∧ Live dec fr' s' ∧ P fr'.codec ∧
      decNext dec fr.codec (fr.buf ++ s.flat) = (x, fr'.codec, fr'.buf ++ s'.flat) := by
  fun_induction Framed.next dec fr s with
  | case1 fr s x fr' s' h =>
    have := poll_spec hd s fr hl hP hg
    rw [h] at this
    exact ⟨x, fr', s', rfl, this.2.1, this.2.2, this.1.symm⟩
  | case2 fr s fr' s' h ih =>
    have := poll_spec hd s fr hl hP hg
    rw [h] at this
    obtain ⟨x, fr'', s'', h1, h2, h3, h4⟩ := ih this.1 this.2.1 (by rw [this.2.2]; exact hg)
    refine ⟨x, fr'', s'', h1, h2, h3, ?_⟩
    rw [← h4]
    unfold decNext
    rw [this.2.2]

/-- If every answer on the whole remaining input is good, awaiting `n` items gives the same whatever
the chunks are. -/
def GoodMany (dec : Decoder σ α) (good : Res (Option α) → Prop) : Nat → σ → Bytes → Prop
  | 0, _, _ => True
  | n + 1, c, bs => good (dec c bs).1 ∧ GoodMany dec good n (decNext dec c bs).2.1 (decNext dec c bs).2.2

theorem nextMany_spec (hd : Chunkable dec P good) (n : Nat) (s : Src) (fr : Framed σ) (hl : Live dec fr s)
    (hP : P fr.codec) (hg : GoodMany dec good n fr.codec (fr.buf ++ s.flat)) :
    ∃ xs fr' s', fr.nextMany dec n s = (xs, fr', s') ∧ Live dec fr' s' ∧ P fr'.codec ∧
      decMany dec n fr.codec (fr.buf ++ s.flat) = (xs, fr'.codec, fr'.buf ++ s'.flat) := by
  induction n generalizing fr s with
  | zero => exact ⟨[], fr, s, rfl, hl, hP, rfl⟩
  | succ n ih =>
    obtain ⟨x, fr', s', h1, h2, h3, h4⟩ := next_spec hd s fr hl hP hg.1
    obtain ⟨xs, fr'', s'', g1, g2, g3, g4⟩ := ih s' fr' h2 h3 (by have := hg.2; rwa [h4] at this)
    refine ⟨x :: xs, fr'', s'', ?_, g2, g3, ?_⟩
    · unfold Framed.nextMany; simp only [h1, g1]
    · unfold decMany; simp only [h4, g4]

theorem goodMany_true (n : Nat) (c : σ) (bs : Bytes) : GoodMany dec (fun _ => True) n c bs := by
  induction n generalizing c bs with
  | zero => trivial
  | succ n ih => exact ⟨trivial, ih _ _⟩

theorem decMany_length (n : Nat) (c : σ) (bs : Bytes) : (decMany dec n c bs).1.length = n := by
  induction n generalizing c bs with
  | zero => rfl
  | succ n ih => simp [decMany, ih]

theorem live_new (c : σ) (s : Src) (hs : s.Ready) (h : dec c [] = (.ok none, c, [])) : Live dec (Framed.new c) s :=
  .inl ⟨rfl, hs, fun _ => h⟩

theorem live_fromParts (c : σ) (buf : Bytes) (s : Src) (hs : s.Ready) (h : dec c [] = (.ok none, c, [])) :
    Live dec (Framed.fromParts c buf) s := by
  refine .inl ⟨rfl, hs, fun hr => ?_⟩
  have : buf = [] := by simpa [Framed.fromParts] using hr
  simpa [Framed.fromParts, this] using h
end

/-! ### The two codecs -/

theorem dfDecoder_chunkable : Chunkable dfDecoder (fun c => c.maxDf ≤ u32Max) (fun _ => True) where
  good_none := trivial
  inv := by intro c bs h; exact h
  stable := by
    intro c bs r c' rest x hP h hr
    unfold dfDecoder at h ⊢
    simp only [Prod.mk.injEq] at h
    obtain ⟨h1, rfl, h2⟩ := h
    have e1 := DfCodec.decode_eq c hP bs
    have e2 := DfCodec.decode_eq c hP (bs ++ x)
    have hst := stable_frame c.isServer c.maxDf bigErr bs x
    cases hp : parseFrame c.isServer c.maxDf bigErr bs with
    | ok f rest' =>
      rw [hp] at e1; rw [hst.1 _ _ hp] at e2
      rw [e1] at h1 h2; rw [e2]
      simp only at h1 h2 ⊢
      rw [← h1, ← h2]
    | err e rest' =>
      rw [hp] at e1; rw [hst.2 _ _ hp] at e2
      rw [e1] at h1 h2; rw [e2]
      simp only at h1 h2 ⊢
      rw [← h1, ← h2]
      split <;> rfl
    | more =>
      rw [hp] at e1; rw [e1] at h1
      exact absurd h1.symm hr
  resume := by
    intro c bs c' left x hP h _
    unfold dfDecoder at h ⊢
    simp only [Prod.mk.injEq] at h
    obtain ⟨h1, rfl, h2⟩ := h
    have e1 := DfCodec.decode_eq c hP bs
    cases hp : parseFrame c.isServer c.maxDf bigErr bs with
    | ok f rest' => rw [hp] at e1; rw [e1] at h1; simp at h1
    | err e rest' => rw [hp] at e1; rw [e1] at h1; simp at h1
    | more =>
      rw [hp] at e1; rw [e1] at h2
      simp only at h2
      rw [h2]

/-- The message codec's error for too large a message. -/
def msgLimitErr : WsErr := .protocol "Exceeded maximum WebSocket message size"

/-- Smaller counts give the same outcome unless the larger one reached the message limit. -/
def CurMono (step : List DataFrame → Nat → DataFrame → Step) : Prop :=
  ∀ b c1 c2 f, c1 ≤ c2 → (∃ b', step b c2 f = .fail msgLimitErr b') ∨
    (∃ b' d, step b c1 f = .next b' (c1 + d) ∧ step b c2 f = .next b' (c2 + d)) ∨
    (step b c1 f = step b c2 f ∧ ∀ b' d, step b c1 f ≠ .next b' d)

theorem asyncStep_mono (maxMsg : Nat) : CurMono (asyncStep maxMsg) := by
  intro b c1 c2 f h
  unfold asyncStep
  split
  · simp
  · split
    · simp
    · split
      · simp
      · split
        · simp
        · split
          · simp
          · by_cases h2 : c2 + (f.data.length + overhead) > maxMsg
            · left; rw [if_pos h2]; exact ⟨_, rfl⟩
            · right; left
              rw [if_neg h2, if_neg (by omega)]
              exact ⟨_, _, rfl, rfl⟩

theorem syncStep_mono (maxMsg : Nat) : CurMono (syncStep maxMsg) := by
  intro b c1 c2 f h
  unfold syncStep
  split
  · split
    · simp
    · split
      · simp
      · right; left; exact ⟨_, _, rfl, rfl⟩
  · split
    · split
      · simp
      · split
        · simp
        · by_cases h2 : c2 + (f.data.length + overhead) ≥ maxMsg
          · left; rw [if_pos h2]; exact ⟨_, rfl⟩
          · right; left
            rw [if_neg h2, if_neg (by omega)]
            exact ⟨_, _, rfl, rfl⟩
    · split
      · simp
      · simp

/-- Outcomes that agree up to the running count. -/
def POut.same : POut → POut → Prop
  | .more b _ l, .more b' _ l' => b = b' ∧ l = l'
  | x, y => x = y

theorem pLoop_mono {c : Cfg} (hm : CurMono c.step) (b : List DataFrame) (c1 c2 : Nat) (h : c1 ≤ c2) (bs : Bytes) :
    (∃ b' rest, pLoop c b c2 bs = .fail msgLimitErr b' rest) ∨
    (match pLoop c b c1 bs, pLoop c b c2 bs with
      | .more b1 d1 l1, .more b2 d2 l2 => b1 = b2 ∧ l1 = l2 ∧ d1 ≤ d2
      | .more .., _ => False
      | _, .more .. => False
      | x, y => x = y) := by
  fun_induction pLoop c b c2 bs generalizing c1 with
  | case1 b c2 bs f rest hp fs b' hs =>
    rcases hm b c1 c2 f h with ⟨b1, h1⟩ | ⟨b1, d, h1, h2⟩ | ⟨h1, h2⟩
    · rw [hs] at h1; simp at h1
    · rw [hs] at h2; simp at h2
    · right; rw [pLoop_ok hp, h1, hs]
  | case2 b c2 bs f rest hp e b' hs =>
    rcases hm b c1 c2 f h with ⟨b1, h1⟩ | ⟨b1, d, h1, h2⟩ | ⟨h1, h2⟩
    · rw [hs] at h1; simp only [Step.fail.injEq] at h1
      left; rw [h1.1]; exact ⟨_, _, rfl⟩
    · rw [hs] at h2; simp at h2
    · right; rw [pLoop_ok hp, h1, hs]
  | case3 b c2 bs f rest hp b' c2' hs ih =>
    rcases hm b c1 c2 f h with ⟨b1, h1⟩ | ⟨b1, d, h1, h2⟩ | ⟨h1, h2⟩
    · rw [hs] at h1; simp at h1
    · rw [hs] at h2; simp only [Step.next.injEq] at h2
      obtain ⟨rfl, rfl⟩ := h2
      rcases ih (c1 + d) (by omega) with h3 | h3
      · exact .inl h3
      · right; rw [pLoop_ok (cur := c1) hp, h1]; exact h3
    · exact absurd (h1.trans hs) (h2 _ _)
  | case4 b c2 bs e rest hp => right; rw [pLoop_err hp]
  | case5 b c2 bs hp => right; rw [pLoop_more hp]; exact ⟨rfl, rfl, h⟩

/-- The running count is at least the held payload. -/
def CurHeld (step : List DataFrame → Nat → DataFrame → Step) : Prop :=
  ∀ b cur f b' cur', heldLen b ≤ cur → step b cur f = .next b' cur' → heldLen b' ≤ cur'

theorem heldLen_snoc (b : List DataFrame) (f : DataFrame) : heldLen (b ++ [f]) = heldLen b + f.data.length := by
  simp [heldLen]

theorem asyncStep_held (maxMsg : Nat) : CurHeld (asyncStep maxMsg) := by
  intro b cur f b' cur' h hs
  unfold asyncStep at hs
  repeat' split at hs
  all_goals simp only [reduceCtorEq, Step.next.injEq] at hs
  obtain ⟨rfl, rfl⟩ := hs
  rw [heldLen_snoc]; omega

theorem syncStep_held (maxMsg : Nat) : CurHeld (syncStep maxMsg) := by
  intro b cur f b' cur' h hs
  unfold syncStep at hs
  repeat' split at hs
  all_goals simp only [reduceCtorEq, Step.next.injEq] at hs
  · obtain ⟨rfl, rfl⟩ := hs
    simp [heldLen]; omega
  · obtain ⟨rfl, rfl⟩ := hs
    rw [heldLen_snoc]; omega

theorem pLoop_held {c : Cfg} (hm : CurHeld c.step) {b : List DataFrame} {cur : Nat} {bs : Bytes}
    (h : heldLen b ≤ cur) {b' : List DataFrame} {cur' : Nat} {left : Bytes}
    (hp : pLoop c b cur bs = .more b' cur' left) : heldLen b' ≤ cur' := by
  fun_induction pLoop c b cur bs with
  | case1 | case2 | case4 => simp at hp
  | case3 b cur bs f rest hpf b1 cur1 hs ih => exact ih (hm _ _ _ _ _ h hs) hp
  | case5 b cur bs hpf =>
    simp only [POut.more.injEq] at hp
    obtain ⟨rfl, rfl, -⟩ := hp
    exact h

theorem asyncOut_ne_none (fs : List DataFrame) : asyncOut fs ≠ .ok none := by
  unfold asyncOut
  cases OwnedMsg.fromDataframes (fs.map DataFrame.view) <;> simp

theorem msgDecoder_chunkable :
    Chunkable msgDecoder (fun c => c.df.maxDf ≤ u32Max) (fun r => r ≠ .err msgLimitErr) where
  good_none := by simp
  inv := by
    intro c bs h
    unfold msgDecoder
    rw [MsgCodec.decode_eq c h]
    split <;> exact h
  stable := by
    intro c bs r c' rest x hP h hr
    unfold msgDecoder at h ⊢
    rw [MsgCodec.decode_eq c hP] at h ⊢
    rw [pLoop_append]
    cases hp : pLoop c.cfg c.buffer (heldLen c.buffer) bs with
    | msg fs b rest' =>
      rw [hp] at h; simp only [Prod.mk.injEq] at h ⊢
      obtain ⟨rfl, rfl, rfl⟩ := h
      exact ⟨rfl, rfl, rfl⟩
    | fail e b rest' =>
      rw [hp] at h; simp only [Prod.mk.injEq] at h ⊢
      obtain ⟨rfl, rfl, rfl⟩ := h
      exact ⟨rfl, rfl, rfl⟩
    | bad e b start rest' =>
      rw [hp] at h; simp only [Prod.mk.injEq] at h ⊢
      obtain ⟨rfl, rfl, rfl⟩ := h
      refine ⟨rfl, rfl, ?_⟩
      split <;> rfl
    | more b cur left =>
      rw [hp] at h; simp only [Prod.mk.injEq] at h
      exact absurd h.1.symm hr
  resume := by
    intro c bs c' left x hP h hg
    unfold msgDecoder at h hg ⊢
    rw [MsgCodec.decode_eq c hP] at h hg ⊢
    rw [pLoop_append] at hg ⊢
    cases hp : pLoop c.cfg c.buffer (heldLen c.buffer) bs with
    | msg fs b rest' =>
      rw [hp] at h; simp only [Prod.mk.injEq] at h
      exact absurd h.1 (asyncOut_ne_none fs)
    | fail e b rest' => rw [hp] at h; simp at h
    | bad e b start rest' => rw [hp] at h; simp at h
    | more b cur left' =>
      rw [hp] at h hg; simp only [Prod.mk.injEq, true_and] at h
      obtain ⟨rfl, rfl⟩ := h
      simp only at hg ⊢
      rw [MsgCodec.decode_eq { c with buffer := b } hP]
      have hle := pLoop_held (c := c.cfg) (asyncStep_held c.maxMsg) (Nat.le_refl _) hp
      have e : MsgCodec.cfg { c with buffer := b } = c.cfg := rfl
      rw [e]
      rcases pLoop_mono (c := c.cfg) (asyncStep_mono c.maxMsg) b _ _ hle (left' ++ x) with ⟨b', rest, h1⟩ | h1
      · rw [h1] at hg; simp at hg
      · show (match pLoop c.cfg b (heldLen b) (left' ++ x) with
          | .msg fs b rest => _ | .fail e b rest => _ | .bad e b start rest => _ | .more b _ left => _) = _
        cases h2 : pLoop c.cfg b (heldLen b) (left' ++ x) <;>
          cases h3 : pLoop c.cfg b cur (left' ++ x) <;> rw [h2, h3] at h1 <;>
          simp_all

end WS
