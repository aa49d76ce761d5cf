import Verif.Lemmas.Many
import Verif.Spec.Chunking
/-!
The async message stream with the smallest count the limit check can see: the payload of the
fragments held, without the overhead of those decoded in earlier calls.
-/

namespace WS

/-- The step of the async codec if every frame came in a decode call of its own. -/
def lenStep (maxMsg : Nat) (b : List DataFrame) (cur : Nat) (f : DataFrame) : Step :=
  match asyncStep maxMsg b (heldLen b) f with
  | .next b' _ => .next b' (cur + (f.data.length + overhead))
  | o => o

def MsgCodec.lenCfg (c : MsgCodec) : Cfg := ⟨lenStep c.maxMsg, c.df.isServer, c.df.maxDf, bigErr⟩

/-- A decoder for which every frame counts as if it came alone. -/
def lenDecoder : Decoder MsgCodec OwnedMsg := fun c src =>
  match pLoop c.lenCfg c.buffer (heldLen c.buffer) src with
  | .msg fs b rest => (asyncOut fs, { c with buffer := b }, rest)
  | .fail e b rest => (.err e, { c with buffer := b }, rest)
  | .bad e b start rest =>
    (.err e, { c with buffer := b }, if e = maskErr c.df.isServer then rest else start)
  | .more b _ left => (.ok none, { c with buffer := b }, left)

/-- Equal but for the running count. -/
def POut.Alike : POut → POut → Prop
  | .more b _ l, .more b' _ l' => b = b' ∧ l = l'
  | .msg a b c, .msg a' b' c' => a = a' ∧ b = b' ∧ c = c'
  | .fail a b c, .fail a' b' c' => a = a' ∧ b = b' ∧ c = c'
  | .bad a b c d, .bad a' b' c' d' => a = a' ∧ b = b' ∧ c = c' ∧ d = d'
  | _, _ => False

theorem POut.Alike.refl (x : POut) : x.Alike x := by cases x <;> simp [POut.Alike]

theorem lenStep_cases (maxMsg : Nat) (b : List DataFrame) (c1 c2 : Nat) (f : DataFrame) :
    (∃ b', lenStep maxMsg b c1 f = .next b' (c1 + (f.data.length + overhead)) ∧
      lenStep maxMsg b c2 f = .next b' (c2 + (f.data.length + overhead))) ∨
    (lenStep maxMsg b c1 f = lenStep maxMsg b c2 f ∧ ∀ b' d, lenStep maxMsg b c1 f ≠ .next b' d) := by
  unfold lenStep
  cases h : asyncStep maxMsg b (heldLen b) f with
  | next b' d => exact .inl ⟨b', rfl, rfl⟩
  | msg => exact .inr ⟨rfl, by simp⟩
  | fail => exact .inr ⟨rfl, by simp⟩

/-- The lenient loop does not depend on the count. -/
theorem pLoop_len (c : MsgCodec) (b : List DataFrame) (c1 c2 : Nat) (bs : Bytes) :
    (pLoop c.lenCfg b c1 bs).Alike (pLoop c.lenCfg b c2 bs) := by
  fun_induction pLoop c.lenCfg b c2 bs generalizing c1 with
  | case1 b c2 bs f rest hp fs b' hs =>
    rcases lenStep_cases c.maxMsg b c1 c2 f with ⟨b1, -, h2⟩ | ⟨h1, -⟩
    · exact absurd (hs.symm.trans h2) (by simp)
    · have hs1 : c.lenCfg.step b c1 f = .msg fs b' := h1.trans hs
      rw [pLoop_ok hp, hs1]; exact POut.Alike.refl _
  | case2 b c2 bs f rest hp e b' hs =>
    rcases lenStep_cases c.maxMsg b c1 c2 f with ⟨b1, -, h2⟩ | ⟨h1, -⟩
    · exact absurd (hs.symm.trans h2) (by simp)
    · have hs1 : c.lenCfg.step b c1 f = .fail e b' := h1.trans hs
      rw [pLoop_ok hp, hs1]; exact POut.Alike.refl _
  | case3 b c2 bs f rest hp b' c2' hs ih =>
    rcases lenStep_cases c.maxMsg b c1 c2 f with ⟨b1, h1, h2⟩ | ⟨h1, h2⟩
    · have := hs.symm.trans h2
      simp only [Step.next.injEq] at this
      obtain ⟨rfl, rfl⟩ := this
      have hs1 : c.lenCfg.step b c1 f = .next b' (c1 + (f.data.length + overhead)) := h1
      rw [pLoop_ok (cur := c1) hp, hs1]
      exact ih _
    · exact absurd (h1.trans hs) (h2 _ _)
  | case4 b c2 bs e rest hp => rw [pLoop_err hp]; exact POut.Alike.refl _
  | case5 b c2 bs hp => rw [pLoop_more hp]; exact ⟨rfl, rfl⟩

/-- A loop that counts more than the held payload runs into the message limit or does the same. -/
theorem pLoop_lenient (c : MsgCodec) (b : List DataFrame) (cur d : Nat) (hc : heldLen b ≤ cur) (bs : Bytes) :
    (∃ b' rest, pLoop c.cfg b cur bs = .fail msgLimitErr b' rest) ∨
    (pLoop c.lenCfg b d bs).Alike (pLoop c.cfg b cur bs) := by
  fun_induction pLoop c.cfg b cur bs generalizing d with
  | case1 b cur bs f rest hp fs b' hs =>
    rcases asyncStep_mono c.maxMsg b _ _ f hc with ⟨b1, h1⟩ | ⟨b1, k, h1, h2⟩ | ⟨h1, h2⟩
    · exact absurd (hs.symm.trans h1) (by simp)
    · exact absurd (hs.symm.trans h2) (by simp)
    · right
      have hs1 : c.lenCfg.step b d f = .msg fs b' := by
        show lenStep c.maxMsg b d f = _
        unfold lenStep; rw [h1.trans hs]
      rw [pLoop_ok (c := c.lenCfg) hp, hs1]; exact POut.Alike.refl _
  | case2 b cur bs f rest hp e b' hs =>
    rcases asyncStep_mono c.maxMsg b _ _ f hc with ⟨b1, h1⟩ | ⟨b1, k, h1, h2⟩ | ⟨h1, h2⟩
    · have := hs.symm.trans h1
      simp only [Step.fail.injEq] at this
      left; rw [this.1]; exact ⟨_, _, rfl⟩
    · exact absurd (hs.symm.trans h2) (by simp)
    · right
      have hs1 : c.lenCfg.step b d f = .fail e b' := by
        show lenStep c.maxMsg b d f = _
        unfold lenStep; rw [h1.trans hs]
      rw [pLoop_ok (c := c.lenCfg) hp, hs1]; exact POut.Alike.refl _
  | case3 b cur bs f rest hp b' cur' hs ih =>
    rcases asyncStep_mono c.maxMsg b _ _ f hc with ⟨b1, h1⟩ | ⟨b1, k, h1, h2⟩ | ⟨h1, h2⟩
    · exact absurd (hs.symm.trans h1) (by simp)
    · have := hs.symm.trans h2
      simp only [Step.next.injEq] at this
      obtain ⟨rfl, rfl⟩ := this
      have hh := asyncStep_held c.maxMsg b cur f _ _ hc hs
      rcases ih (d + (f.data.length + overhead)) hh with h3 | h3
      · exact .inl h3
      · right
        have hs1 : c.lenCfg.step b d f = .next b' (d + (f.data.length + overhead)) := by
          show lenStep c.maxMsg b d f = _
          unfold lenStep; rw [h1]
        rw [pLoop_ok (c := c.lenCfg) hp, hs1]; exact h3
    · exact absurd (h1.trans hs) (h2 _ _)
  | case4 b cur bs e rest hp => right; rw [pLoop_err (c := c.lenCfg) hp]; exact POut.Alike.refl _
  | case5 b cur bs hp => right; rw [pLoop_more (c := c.lenCfg) hp]; exact ⟨rfl, rfl⟩

/-- What the codec makes of an outcome. -/
def MsgCodec.ofOut (c : MsgCodec) : POut → Res (Option OwnedMsg) × MsgCodec × Bytes
  | .msg fs b rest => (asyncOut fs, { c with buffer := b }, rest)
  | .fail e b rest => (.err e, { c with buffer := b }, rest)
  | .bad e b start rest =>
    (.err e, { c with buffer := b }, if e = maskErr c.df.isServer then rest else start)
  | .more b _ left => (.ok none, { c with buffer := b }, left)

theorem MsgCodec.ofOut_alike (c : MsgCodec) {x y : POut} (h : x.Alike y) : c.ofOut x = c.ofOut y := by
  cases x <;> cases y <;> simp_all [POut.Alike, MsgCodec.ofOut]

theorem lenDecoder_out (c : MsgCodec) (bs : Bytes) :
    lenDecoder c bs = c.ofOut (pLoop c.lenCfg c.buffer (heldLen c.buffer) bs) := by
  unfold lenDecoder MsgCodec.ofOut
  cases pLoop c.lenCfg c.buffer (heldLen c.buffer) bs <;> rfl

theorem msgDecoder_out (c : MsgCodec) (hc : c.df.maxDf ≤ u32Max) (bs : Bytes) :
    msgDecoder c bs = c.ofOut (pLoop c.cfg c.buffer (heldLen c.buffer) bs) := by
  unfold msgDecoder
  rw [MsgCodec.decode_eq c hc]
  unfold MsgCodec.ofOut
  cases pLoop c.cfg c.buffer (heldLen c.buffer) bs <;> rfl

/-- The codec reports the message limit or does what the lenient one does. -/
theorem msgDecoder_lenient (c : MsgCodec) (hc : c.df.maxDf ≤ u32Max) (bs : Bytes) :
    (msgDecoder c bs).1 = .err msgLimitErr ∨ msgDecoder c bs = lenDecoder c bs := by
  rw [msgDecoder_out c hc, lenDecoder_out]
  rcases pLoop_lenient c c.buffer _ (heldLen c.buffer) (Nat.le_refl _) bs with ⟨b', rest, h⟩ | h
  · left; rw [h]; rfl
  · right; exact (c.ofOut_alike h).symm

theorem lenDecoder_inv (c : MsgCodec) (bs : Bytes) : (lenDecoder c bs).2.1.df = c.df ∧ (lenDecoder c bs).2.1.maxMsg = c.maxMsg := by
  rw [lenDecoder_out]
  cases pLoop c.lenCfg c.buffer (heldLen c.buffer) bs <;> exact ⟨rfl, rfl⟩

theorem lenDecoder_chunkable : Chunkable lenDecoder (fun c => c.df.maxDf ≤ u32Max) (fun _ => True) where
  good_none := trivial
  inv := by intro c bs h; rw [(lenDecoder_inv c bs).1]; exact h
  stable := by
    intro c bs r c' rest x hP h hr
    rw [lenDecoder_out] at h ⊢
    rw [pLoop_append]
    cases hp : pLoop c.lenCfg c.buffer (heldLen c.buffer) bs with
    | msg fs b rest' =>
      rw [hp] at h; simp only [MsgCodec.ofOut, Prod.mk.injEq] at h ⊢
      obtain ⟨rfl, rfl, rfl⟩ := h
      exact ⟨rfl, rfl, rfl⟩
    | fail e b rest' =>
      rw [hp] at h; simp only [MsgCodec.ofOut, Prod.mk.injEq] at h ⊢
      obtain ⟨rfl, rfl, rfl⟩ := h
      exact ⟨rfl, rfl, rfl⟩
    | bad e b start rest' =>
      rw [hp] at h; simp only [MsgCodec.ofOut, Prod.mk.injEq] at h ⊢
      obtain ⟨rfl, rfl, rfl⟩ := h
      refine ⟨rfl, rfl, ?_⟩
      split <;> rfl
    | more b cur left =>
      rw [hp] at h; simp only [MsgCodec.ofOut, Prod.mk.injEq] at h
      exact absurd h.1.symm hr
  resume := by
    intro c bs c' left x hP h _
    rw [lenDecoder_out] at h
    rw [lenDecoder_out c, pLoop_append, lenDecoder_out c']
    cases hp : pLoop c.lenCfg c.buffer (heldLen c.buffer) bs with
    | msg fs b rest' =>
      rw [hp] at h; simp only [MsgCodec.ofOut, Prod.mk.injEq] at h
      exact absurd h.1 (asyncOut_ne_none fs)
    | fail e b rest' => rw [hp] at h; simp [MsgCodec.ofOut] at h
    | bad e b start rest' => rw [hp] at h; simp [MsgCodec.ofOut] at h
    | more b cur left' =>
      rw [hp] at h; simp only [MsgCodec.ofOut, Prod.mk.injEq, true_and] at h
      obtain ⟨rfl, rfl⟩ := h
      exact MsgCodec.ofOut_alike c (pLoop_len c b (heldLen b) cur (left' ++ x))

/-! ### Streams whose decoders agree unless there is a certain error -/

section
variable {σ α : Type} {d1 d2 : Decoder σ α} {P : σ → Prop} {e : WsErr}

/-- `d1` reports `e` or does what `d2` does. -/
def UnlessErr (d1 d2 : Decoder σ α) (P : σ → Prop) (e : WsErr) : Prop :=
  ∀ c bs, P c → (d1 c bs).1 = .err e ∨ (d1 c bs = d2 c bs ∧ P (d2 c bs).2.1)

theorem UnlessErr.pollEof (h : UnlessErr d1 d2 P e) (fr : Framed σ) (hP : P fr.codec) :
    (fr.pollEof d1).1 = .err e ∨ (fr.pollEof d1 = fr.pollEof d2 ∧ P (fr.pollEof d2).2.codec) := by
  rcases h fr.codec fr.buf hP with h | ⟨h, hi⟩
  · left; unfold Framed.pollEof
    rcases hd : d1 fr.codec fr.buf with ⟨r, c, b⟩
    rw [hd] at h; simp only at h; subst h; rfl
  · right
    unfold Framed.pollEof; rw [h]
    rcases hd : d2 fr.codec fr.buf with ⟨r, c, b⟩
    rw [hd] at hi
    refine ⟨rfl, ?_⟩
    rcases r with (_ | _) | _ | _ <;> exact hi

theorem UnlessErr.pollRead (h : UnlessErr d1 d2 P e) (s : Src) (fr : Framed σ) (hP : P fr.codec) :
    (fr.pollRead d1 s).1 = .ready (.err e) ∨ (fr.pollRead d1 s = fr.pollRead d2 s ∧ P (fr.pollRead d2 s).2.1.codec) := by
  induction s generalizing fr with
  | nil =>
    unfold Framed.pollRead
    rcases h.pollEof { fr with eof := true, readable := true } hP with h | ⟨h, hi⟩
    · left; simp only [h]
    · right; exact ⟨by rw [h], hi⟩
  | cons ev rest ih =>
    cases ev with
    | error k =>
      unfold Framed.pollRead
      right
      by_cases hk : k = .wouldBlock
      · rw [if_pos hk]; exact ⟨rfl, hP⟩
      · rw [if_neg hk]; exact ⟨rfl, hP⟩
    | chunk b =>
      unfold Framed.pollRead
      by_cases hb : b = []
      · rw [if_pos hb, if_pos hb]
        rcases h.pollEof { fr with eof := true, readable := true } hP with h | ⟨h, hi⟩
        · left; simp only [h]
        · right; exact ⟨by rw [h], hi⟩
      · rw [if_neg hb, if_neg hb]
        rcases h fr.codec (fr.buf ++ b) hP with h | ⟨h, hi⟩
        · left
          rcases hd : d1 fr.codec (fr.buf ++ b) with ⟨r, c, b'⟩
          rw [hd] at h; simp only at h; subst h; rfl
        · rw [h]
          rcases hd : d2 fr.codec (fr.buf ++ b) with ⟨r, c, b'⟩
          rw [hd] at hi
          rcases r with (_ | _) | _ | _
          · exact ih _ hi
          · exact .inr ⟨rfl, hi⟩
          · exact .inr ⟨rfl, hi⟩
          · exact .inr ⟨rfl, hi⟩

theorem UnlessErr.poll (h : UnlessErr d1 d2 P e) (s : Src) (fr : Framed σ) (hP : P fr.codec) :
    (fr.poll d1 s).1 = .ready (.err e) ∨ (fr.poll d1 s = fr.poll d2 s ∧ P (fr.poll d2 s).2.1.codec) := by
  unfold Framed.poll
  by_cases hr : fr.readable = true
  · rw [if_pos hr, if_pos hr]
    by_cases he : fr.eof = true
    · rw [if_pos he, if_pos he]
      rcases h.pollEof fr hP with h | ⟨h, hi⟩
      · left; simp only [h]
      · right; exact ⟨by rw [h], hi⟩
    · rw [if_neg he, if_neg he]
      rcases h fr.codec fr.buf hP with h' | ⟨h', hi⟩
      · left
        rcases hd : d1 fr.codec fr.buf with ⟨r, c, b'⟩
        rw [hd] at h'; simp only at h'; subst h'; rfl
      · rw [h']
        rcases hd : d2 fr.codec fr.buf with ⟨r, c, b'⟩
        rw [hd] at hi
        rcases r with (_ | _) | _ | _
        · exact h.pollRead s _ hi
        · exact .inr ⟨rfl, hi⟩
        · exact .inr ⟨rfl, hi⟩
        · exact .inr ⟨rfl, hi⟩
  · rw [if_neg hr, if_neg hr]; exact h.pollRead s fr hP

theorem next_eq (dec : Decoder σ α) (fr : Framed σ) (s : Src) : fr.next dec s = match fr.poll dec s with
    | (.ready x, fr', s') => (x, fr', s')
    | (.notReady, fr', s') => Framed.next dec fr' s' := by
  rw [Framed.next]
  split <;> next h => simp only [h]

theorem UnlessErr.next (h : UnlessErr d1 d2 P e) (s : Src) (fr : Framed σ) (hP : P fr.codec) :
    (fr.next d1 s).1 = .err e ∨ (fr.next d1 s = fr.next d2 s ∧ P (fr.next d2 s).2.1.codec) := by
  fun_induction Framed.next d2 fr s with
  | case1 fr s x fr' s' hp =>
    rcases h.poll s fr hP with h1 | ⟨h1, hi⟩
    · left
      rw [next_eq]
      rcases hd : fr.poll d1 s with ⟨r, c, b'⟩
      rw [hd] at h1; simp only at h1; subst h1; rfl
    · right
      rw [hp] at h1 hi
      rw [next_eq, h1]; exact ⟨rfl, hi⟩
  | case2 fr s fr' s' hp ih =>
    rcases h.poll s fr hP with h1 | ⟨h1, hi⟩
    · left
      rw [next_eq]
      rcases hd : fr.poll d1 s with ⟨r, c, b'⟩
      rw [hd] at h1; simp only at h1; subst h1; rfl
    · rw [hp] at h1 hi
      rw [next_eq, h1]; exact ih hi

/-- All items agree, or the first that does not is `e`. -/
theorem UnlessErr.nextMany (h : UnlessErr d1 d2 P e) (n : Nat) (s : Src) (fr : Framed σ) (hP : P fr.codec) :
    (fr.nextMany d1 n s).1 = (fr.nextMany d2 n s).1 ∨
    ∃ k, k < n ∧ (fr.nextMany d1 n s).1.take k = (fr.nextMany d2 n s).1.take k ∧ (fr.nextMany d1 n s).1[k]? = some (.err e) := by
  induction n generalizing s fr with
  | zero => exact .inl rfl
  | succ n ih =>
    rcases h.next s fr hP with h1 | ⟨h1, hi⟩
    · right
      refine ⟨0, by omega, by simp, ?_⟩
      simp only [Framed.nextMany]
      simp [h1]
    · simp only [Framed.nextMany, h1]
      rcases ih (fr.next d2 s).2.2 (fr.next d2 s).2.1 hi with h2 | ⟨k, hk, h2, h3⟩
      · left; rw [h2]
      · right
        refine ⟨k + 1, by omega, ?_, ?_⟩
        · simp only [List.take_succ_cons, h2]
        · simpa using h3
end

theorem unless_limit : UnlessErr msgDecoder lenDecoder (fun c => c.df.maxDf ≤ u32Max) msgLimitErr := by
  intro c bs hc
  rcases msgDecoder_lenient c hc bs with h | h
  · exact .inl h
  · exact .inr ⟨h, by show (lenDecoder c bs).2.1.df.maxDf ≤ _; rw [(lenDecoder_inv c bs).1]; exact hc⟩

/-! ### One byte at a time -/

/-- A parser looks only at what it consumes. -/
def LocalPs {α} (p : Ps α) : Prop := ∀ bs,
  (∀ a rest, p bs = .ok a rest → ∃ pre, bs = pre ++ rest ∧ ∀ y, p (pre ++ y) = .ok a y) ∧
  (∀ e rest, p bs = .err e rest → ∃ pre, bs = pre ++ rest ∧ ∀ y, p (pre ++ y) = .err e y)

theorem lps_pure {α} (a : α) : LocalPs (pure a : Ps α) := by
  intro bs; constructor
  · intro b rest h
    simp only [Ps.pure_apply, PRes.ok.injEq] at h
    obtain ⟨rfl, rfl⟩ := h; exact ⟨[], rfl, fun y => rfl⟩
  · intro e rest h; simp at h

theorem lps_fail {α} (e : WsErr) : LocalPs (Ps.fail e : Ps α) := by
  intro bs; constructor
  · intro b rest h; simp at h
  · intro e' rest h
    simp only [Ps.fail_apply, PRes.err.injEq] at h
    obtain ⟨rfl, rfl⟩ := h; exact ⟨[], rfl, fun y => rfl⟩

theorem lps_take (n : Nat) : LocalPs (Ps.take n) := by
  intro bs; constructor
  · intro a rest h
    obtain ⟨h1, rfl⟩ := Ps.take_ok_iff.mp h
    exact ⟨a, rfl, fun y => Ps.take_append h1⟩
  · intro e rest h; unfold Ps.take at h; split at h <;> simp at h

theorem lps_u8 : LocalPs Ps.u8 := by
  intro bs; constructor
  · intro a rest h
    rw [Ps.u8_ok_iff] at h; subst h; exact ⟨[a], rfl, fun y => rfl⟩
  · intro e rest h; cases bs <;> simp at h

theorem lps_bind {α β} {m : Ps α} {f : α → Ps β} (hm : LocalPs m) (hf : ∀ a, LocalPs (f a)) :
    LocalPs (m >>= f) := by
  intro bs
  simp only [Ps.bind_def]
  cases hmb : m bs with
  | ok a mid =>
    obtain ⟨pre, rfl, hp⟩ := (hm bs).1 _ _ hmb
    constructor
    · intro b rest h
      obtain ⟨pre', rfl, hp'⟩ := (hf a mid).1 _ _ h
      exact ⟨pre ++ pre', by simp, fun y => by rw [List.append_assoc, hp]; exact hp' y⟩
    · intro e rest h
      obtain ⟨pre', rfl, hp'⟩ := (hf a mid).2 _ _ h
      exact ⟨pre ++ pre', by simp, fun y => by rw [List.append_assoc, hp]; exact hp' y⟩
  | err e mid =>
    obtain ⟨pre, rfl, hp⟩ := (hm bs).2 _ _ hmb
    constructor
    · intro b rest h; simp at h
    · intro e' rest h
      simp only [PRes.err.injEq] at h
      obtain ⟨rfl, rfl⟩ := h
      exact ⟨pre, rfl, fun y => by rw [hp]⟩
  | more =>
    constructor
    · intro b rest h; simp at h
    · intro b rest h; simp at h

theorem lps_ite {α} (c : Prop) [Decidable c] {p q : Ps α} (hp : LocalPs p) (hq : LocalPs q) :
    LocalPs (if c then p else q) := by split <;> assumption

theorem lps_header : LocalPs parseHeader := by
  unfold parseHeader parseLen parseMask
  refine lps_bind lps_u8 fun b0 => lps_bind lps_u8 fun b1 => lps_bind ?_ fun len => ?_
  · refine lps_ite _ (lps_pure _) (lps_ite _ ?_ ?_)
    · exact lps_bind (lps_bind (lps_take _) fun _ => lps_pure _) fun _ =>
        lps_ite _ (lps_fail _) (lps_pure _)
    · exact lps_bind (lps_bind (lps_take _) fun _ => lps_pure _) fun _ =>
        lps_ite _ (lps_fail _) (lps_pure _)
  · refine lps_ite _ (lps_fail _) (lps_ite _ (lps_fail _) ?_)
    refine lps_bind (lps_ite _ ?_ (lps_pure _)) fun _ => lps_pure _
    exact lps_bind lps_u8 fun _ => lps_bind lps_u8 fun _ => lps_bind lps_u8 fun _ =>
      lps_bind lps_u8 fun _ => lps_pure _

theorem lps_frame (m : Bool) (lim : Nat) (big : WsErr) : LocalPs (parseFrame m lim big) := by
  unfold parseFrame
  refine lps_bind lps_header fun h => lps_ite _ (lps_fail _) (lps_bind (lps_take _) fun d => ?_)
  intro bs
  unfold bodyPs
  constructor
  · intro a rest h
    split at h <;> simp_all
  · intro e rest h
    split at h <;> simp_all

/-- What is parsed at the front of the buffer takes all of it. -/
def Tight (m : Bool) (lim : Nat) (big : WsErr) (buf : Bytes) : Prop :=
  (∀ f rest, parseFrame m lim big buf = .ok f rest → rest = []) ∧
  (∀ e rest, parseFrame m lim big buf = .err e rest → rest = [])

theorem Tight.nil {m : Bool} {lim : Nat} {big : WsErr} : Tight m lim big [] := by
  constructor <;> · intro a rest h; rw [parseFrame_nil] at h; simp at h

theorem tight_snoc {m : Bool} {lim : Nat} {big : WsErr} {buf : Bytes} (h : parseFrame m lim big buf = .more) (b : UInt8) :
    Tight m lim big (buf ++ [b]) := by
  have key : ∀ pre rest : Bytes, buf ++ [b] = pre ++ rest → rest ≠ [] → ∃ y, buf = pre ++ y := by
    intro pre rest he hr
    obtain ⟨r', c, rfl⟩ := List.eq_nil_or_concat rest |>.resolve_left hr
    rw [List.concat_eq_append, ← List.append_assoc] at he
    exact ⟨r', (List.append_inj' he rfl).1⟩
  constructor
  · intro f rest hp
    obtain ⟨pre, he, hy⟩ := (lps_frame m lim big _).1 _ _ hp
    by_cases hr : rest = []
    · exact hr
    · obtain ⟨y, rfl⟩ := key pre rest he hr
      rw [hy y] at h; simp at h
  · intro e rest hp
    obtain ⟨pre, he, hy⟩ := (lps_frame m lim big _).2 _ _ hp
    by_cases hr : rest = []
    · exact hr
    · obtain ⟨y, rfl⟩ := key pre rest he hr
      rw [hy y] at h; simp at h

/-- Bytes arriving one by one. -/
def Src.drip (bs : Bytes) : Src := bs.map fun b => .chunk [b]

theorem drip_flat (bs : Bytes) : Src.flat (Src.drip bs) = bs := by
  induction bs with
  | nil => rfl
  | cons b bs ih =>
    show [b] ++ Src.flat (Src.drip bs) = _
    rw [ih]; rfl

theorem drip_ready (bs : Bytes) : (Src.drip bs).Ready := by
  induction bs with
  | nil => trivial
  | cons b bs ih => exact ⟨by simp, ih⟩

/-- The frame parser of a codec. -/
abbrev MsgCodec.parse (c : MsgCodec) (buf : Bytes) := parseFrame c.df.isServer c.df.maxDf bigErr buf
abbrev MsgCodec.Tight (c : MsgCodec) (buf : Bytes) := WS.Tight c.df.isServer c.df.maxDf bigErr buf

theorem tight_decode (c : MsgCodec) (hc : c.df.maxDf ≤ u32Max) {buf : Bytes} (ht : c.Tight buf) :
    msgDecoder c buf = lenDecoder c buf ∧ c.Tight (lenDecoder c buf).2.2 ∧
    ((lenDecoder c buf).1 = .ok none → c.parse (lenDecoder c buf).2.2 = .more) := by
  rw [msgDecoder_out c hc, lenDecoder_out]
  cases hp : c.parse buf with
  | ok f rest =>
    have hr := ht.1 _ _ hp
    subst hr
    have h1 : pLoop c.cfg c.buffer (heldLen c.buffer) buf = _ := pLoop_ok (c := c.cfg) hp
    have h2 : pLoop c.lenCfg c.buffer (heldLen c.buffer) buf = _ := pLoop_ok (c := c.lenCfg) hp
    rw [h1, h2]
    have e1 : c.cfg.step = asyncStep c.maxMsg := rfl
    have e2 : c.lenCfg.step c.buffer (heldLen c.buffer) f =
      match asyncStep c.maxMsg c.buffer (heldLen c.buffer) f with
      | .next b' _ => .next b' (heldLen c.buffer + (f.data.length + overhead))
      | o => o := rfl
    rw [e1, e2]
    cases asyncStep c.maxMsg c.buffer (heldLen c.buffer) f with
    | msg fs b => exact ⟨rfl, Tight.nil, fun _ => parseFrame_nil⟩
    | fail e b => exact ⟨rfl, Tight.nil, fun _ => parseFrame_nil⟩
    | next b k =>
      have g1 : ∀ k, pLoop c.cfg b k [] = .more b k [] := fun k => pLoop_more (c := c.cfg) parseFrame_nil
      have g2 : ∀ k, pLoop c.lenCfg b k [] = .more b k [] := fun k => pLoop_more (c := c.lenCfg) parseFrame_nil
      simp only [g1, g2]
      exact ⟨rfl, Tight.nil, fun _ => parseFrame_nil⟩
  | err e rest =>
    have hr := ht.2 _ _ hp
    have h1 : pLoop c.cfg c.buffer (heldLen c.buffer) buf = _ := pLoop_err (c := c.cfg) hp
    have h2 : pLoop c.lenCfg c.buffer (heldLen c.buffer) buf = _ := pLoop_err (c := c.lenCfg) hp
    rw [h1, h2]
    refine ⟨rfl, ?_, by simp [MsgCodec.ofOut]⟩
    simp only [MsgCodec.ofOut]
    split
    · rw [hr]; exact Tight.nil
    · exact ht
  | more =>
    have h1 : pLoop c.cfg c.buffer (heldLen c.buffer) buf = _ := pLoop_more (c := c.cfg) hp
    have h2 : pLoop c.lenCfg c.buffer (heldLen c.buffer) buf = _ := pLoop_more (c := c.lenCfg) hp
    rw [h1, h2]
    exact ⟨rfl, ht, fun _ => hp⟩

theorem pollEof_drip (fr : Framed MsgCodec) (hc : fr.codec.df.maxDf ≤ u32Max) (ht : fr.codec.Tight fr.buf) :
    fr.pollEof msgDecoder = fr.pollEof lenDecoder ∧ (fr.pollEof lenDecoder).2.codec.df = fr.codec.df ∧
    fr.codec.Tight (fr.pollEof lenDecoder).2.buf ∧ (fr.pollEof lenDecoder).2.readable = fr.readable := by
  obtain ⟨h1, h2, h3⟩ := tight_decode fr.codec hc ht
  have hi := (lenDecoder_inv fr.codec fr.buf).1
  unfold Framed.pollEof
  rw [h1]
  rcases hd : lenDecoder fr.codec fr.buf with ⟨r, c, b⟩
  rw [hd] at h2 hi
  refine ⟨rfl, ?_⟩
  rcases r with (_ | _) | _ | _ <;> exact ⟨hi, h2, rfl⟩

/-- The state between two polls when bytes come one by one. -/
def Dripping (fr : Framed MsgCodec) : Prop :=
  fr.codec.df.maxDf ≤ u32Max ∧ fr.codec.Tight fr.buf ∧ (fr.readable = false → fr.codec.parse fr.buf = .more)

theorem Dripping.of {fr fr' : Framed MsgCodec} (h : fr'.codec.df = fr.codec.df) (hc : fr.codec.df.maxDf ≤ u32Max)
    (ht : fr.codec.Tight fr'.buf) (hm : fr'.readable = false → fr.codec.parse fr'.buf = .more) : Dripping fr' := by
  unfold Dripping MsgCodec.Tight MsgCodec.parse
  rw [h]; exact ⟨hc, ht, hm⟩

theorem pollRead_drip (bs : Bytes) (fr : Framed MsgCodec) (hc : fr.codec.df.maxDf ≤ u32Max)
    (hm : fr.codec.parse fr.buf = .more) :
    fr.pollRead msgDecoder (Src.drip bs) = fr.pollRead lenDecoder (Src.drip bs) ∧
    Dripping (fr.pollRead lenDecoder (Src.drip bs)).2.1 ∧ ∃ bs', (fr.pollRead lenDecoder (Src.drip bs)).2.2 = Src.drip bs' := by
  have tight_of_more : ∀ c : MsgCodec, ∀ buf, c.parse buf = .more → c.Tight buf := by
    intro c buf h
    constructor <;> · intro a rest h'; exact absurd (h.symm.trans h') (by simp)
  induction bs generalizing fr with
  | nil =>
    obtain ⟨h1, h2, h3, h4⟩ := pollEof_drip { fr with eof := true, readable := true } hc (tight_of_more _ _ hm)
    unfold Src.drip Framed.pollRead
    simp only [List.map_nil, h1]
    exact ⟨trivial, Dripping.of (fr := fr) h2 hc h3 (by rw [h4]; simp), [], rfl⟩
  | cons b bs ih =>
    have ht := tight_snoc hm b
    obtain ⟨h1, h2, h3⟩ := tight_decode fr.codec hc ht
    have hi := (lenDecoder_inv fr.codec (fr.buf ++ [b])).1
    show fr.pollRead msgDecoder (.chunk [b] :: Src.drip bs) = fr.pollRead lenDecoder (.chunk [b] :: Src.drip bs) ∧
      Dripping (fr.pollRead lenDecoder (.chunk [b] :: Src.drip bs)).2.1 ∧
      ∃ bs', (fr.pollRead lenDecoder (.chunk [b] :: Src.drip bs)).2.2 = _
    unfold Framed.pollRead
    rw [if_neg (by simp), if_neg (by simp), h1]
    rcases hd : lenDecoder fr.codec (fr.buf ++ [b]) with ⟨r, c, b'⟩
    rw [hd] at h2 h3 hi
    rcases r with (_ | _) | _ | _
    · refine ih { fr with codec := c, buf := b', readable := false } (by show c.df.maxDf ≤ _; rw [hi]; exact hc) ?_
      have := h3 rfl
      show parseFrame c.df.isServer c.df.maxDf bigErr b' = .more
      rw [hi]; exact this
    · exact ⟨rfl, Dripping.of (fr := fr) hi hc h2 (by simp), bs, rfl⟩
    · exact ⟨rfl, Dripping.of (fr := fr) hi hc h2 (by simp), bs, rfl⟩
    · exact ⟨rfl, Dripping.of (fr := fr) hi hc h2 (by simp), bs, rfl⟩

theorem poll_drip (bs : Bytes) (fr : Framed MsgCodec) (hf : Dripping fr) :
    fr.poll msgDecoder (Src.drip bs) = fr.poll lenDecoder (Src.drip bs) ∧
    Dripping (fr.poll lenDecoder (Src.drip bs)).2.1 ∧ ∃ bs', (fr.poll lenDecoder (Src.drip bs)).2.2 = Src.drip bs' := by
  obtain ⟨hc, ht, hm⟩ := hf
  unfold Framed.poll
  by_cases hr : fr.readable = true
  · rw [if_pos hr, if_pos hr]
    by_cases he : fr.eof = true
    · rw [if_pos he, if_pos he]
      obtain ⟨h1, h2, h3, h4⟩ := pollEof_drip fr hc ht
      simp only [h1]
      exact ⟨trivial, Dripping.of h2 hc h3 (by rw [h4, hr]; simp), bs, rfl⟩
    · rw [if_neg he, if_neg he]
      obtain ⟨h1, h2, h3⟩ := tight_decode fr.codec hc ht
      have hi := (lenDecoder_inv fr.codec fr.buf).1
      rw [h1]
      rcases hd : lenDecoder fr.codec fr.buf with ⟨r, c, b'⟩
      rw [hd] at h2 h3 hi
      rcases r with (_ | _) | _ | _
      · refine pollRead_drip bs { fr with codec := c, buf := b', readable := false } (by show c.df.maxDf ≤ _; rw [hi]; exact hc) ?_
        have := h3 rfl
        show parseFrame c.df.isServer c.df.maxDf bigErr b' = .more
        rw [hi]; exact this
      · exact ⟨rfl, Dripping.of (fr := fr) hi hc h2 (by simp [hr]), bs, rfl⟩
      · exact ⟨rfl, Dripping.of (fr := fr) hi hc h2 (by simp [hr]), bs, rfl⟩
      · exact ⟨rfl, Dripping.of (fr := fr) hi hc h2 (by simp [hr]), bs, rfl⟩
  · rw [if_neg hr, if_neg hr]
    exact pollRead_drip bs fr hc (hm (by simpa using hr))

theorem next_drip (bs : Bytes) (fr : Framed MsgCodec) (hf : Dripping fr) :
    fr.next msgDecoder (Src.drip bs) = fr.next lenDecoder (Src.drip bs) ∧
    Dripping (fr.next lenDecoder (Src.drip bs)).2.1 ∧ ∃ bs', (fr.next lenDecoder (Src.drip bs)).2.2 = Src.drip bs' := by
  generalize hs : Src.drip bs = s
  fun_induction Framed.next lenDecoder fr s generalizing bs with
  | case1 fr s x fr' s' hp =>
    subst hs
    obtain ⟨h1, h2, h3⟩ := poll_drip bs fr hf
    rw [hp] at h1 h2 h3
    rw [next_eq, h1]
    exact ⟨rfl, h2, h3⟩
  | case2 fr s fr' s' hp ih =>
    subst hs
    obtain ⟨h1, h2, bs', h3⟩ := poll_drip bs fr hf
    rw [hp] at h1 h2 h3
    rw [next_eq, h1]
    exact ih bs' h2 h3.symm

theorem nextMany_drip (n : Nat) (bs : Bytes) (fr : Framed MsgCodec) (hf : Dripping fr) :
    fr.nextMany msgDecoder n (Src.drip bs) = fr.nextMany lenDecoder n (Src.drip bs) := by
  induction n generalizing bs fr with
  | zero => rfl
  | succ n ih =>
    obtain ⟨h1, h2, bs', h3⟩ := next_drip bs fr hf
    simp only [Framed.nextMany, h1, h3]
    rw [ih bs' _ h2]

theorem lenDecoder_nil (c : MsgCodec) : lenDecoder c [] = (.ok none, c, []) := by
  rw [lenDecoder_out]
  have : pLoop c.lenCfg c.buffer (heldLen c.buffer) [] = _ := pLoop_more (c := c.lenCfg) parseFrame_nil
  rw [this]; rfl

theorem dripping_new (c : MsgCodec) (hc : c.df.maxDf ≤ u32Max) : Dripping (Framed.new c) :=
  ⟨hc, Tight.nil, fun _ => parseFrame_nil⟩

/-- The items of the lenient stream, as a function of the bytes. -/
theorem lenient_items (c : MsgCodec) (hc : c.df.maxDf ≤ u32Max) (n : Nat) (s : Src) (hs : s.Ready) :
    ((Framed.new c).nextMany lenDecoder n s).1 = (decMany lenDecoder n c s.flat).1 := by
  obtain ⟨xs, fr', s', h1, -, -, h4⟩ := nextMany_spec lenDecoder_chunkable n s (Framed.new c)
    (live_new c s hs (lenDecoder_nil c)) hc (goodMany_true ..)
  have e : (Framed.new c).buf ++ Src.flat s = Src.flat s := rfl
  rw [e] at h4
  rw [h1]
  exact (congrArg Prod.fst h4).symm

/-! ### What the lenient stream delivers -/

open Spec (Allowed FitsApart payloadSum Wire Delivers)

theorem payloadSum_specs (fs : List DataFrame) : payloadSum (specs fs) = heldLen fs := by
  simp [payloadSum, specs, heldLen, DataFrame.spec, Function.comp_def]

/-- The async step on a fragment in its place that does not end the message. -/
theorem asyncStep_part {maxMsg : Nat} {buffer : List DataFrame} {cur : Nat} {f : DataFrame}
    (ha : Allowed (specs buffer) f.spec) (hfin : f.finished = false) (hn : (buffer ++ [f]).length < maxFrames) :
    asyncStep maxMsg buffer cur f =
      if cur + (f.data.length + overhead) > maxMsg then .fail msgLimitErr (buffer ++ [f])
      else .next (buffer ++ [f]) (cur + (f.data.length + overhead)) := by
  unfold asyncStep
  have hfin' : ¬ f.finished = true := by simp [hfin]
  have e1 : ¬ (buffer ++ [f]).length ≥ maxFrames := by omega
  by_cases hb : buffer = []
  · subst hb
    obtain ⟨a1, a2, a3⟩ := allowed_nil ha
    rw [if_neg (by intro h; rw [h.1] at a2; exact a2 rfl),
      if_neg (by intro h; have := UInt8.le_iff_toNat_le.mp h.1; simp at this; omega),
      if_neg (by simp), if_neg hfin', if_neg e1]
    rfl
  · have h0 := allowed_cons hb ha
    rw [if_neg (by simp [hb]), if_neg (by rw [h0]; decide), if_neg (by rw [h0]; simp), if_neg hfin', if_neg e1]
    rfl

theorem stepOk_len (c : MsgCodec) (h1 : c.df.maxDf ≤ u32Max) (h2 : c.maxMsg ≤ u32Max) :
    StepOk c.lenCfg (FitsApart c.maxMsg) where
  lim := h1
  control := by
    intro buffer cur f hf hfin
    have := (stepOk_async c h1 h2).control buffer (heldLen buffer) f hf hfin
    show lenStep c.maxMsg buffer cur f = _
    unfold lenStep
    have e : asyncStep c.maxMsg buffer (heldLen buffer) f = _ := this
    rw [e]
  final := by
    intro buffer cur f ha hfin
    have := (stepOk_async c h1 h2).final buffer (heldLen buffer) f ha hfin
    show lenStep c.maxMsg buffer cur f = _
    unfold lenStep
    have e : asyncStep c.maxMsg buffer (heldLen buffer) f = _ := this
    rw [e]
  part := by
    intro buffer cur f ha hfin hfit hcur
    obtain ⟨hf1, hf2⟩ := hfit
    rw [payloadSum_specs, heldLen_snoc] at hf2
    simp only [specs, List.length_map] at hf1
    show lenStep c.maxMsg buffer cur f = _
    unfold lenStep
    rw [asyncStep_part ha hfin hf1, if_neg (by simp only [overhead]; omega)]
    rfl
  size := by
    intro buffer hl ⟨hf1, hf2⟩
    rw [payloadSum_specs] at hf2
    omega

theorem deliver_len {c : MsgCodec} (hc : c.WF) {frames : List Spec.Frame} {ms : List Spec.Message}
    {held' : List Spec.Frame} {bs : Bytes}
    (h : Incoming (FitsApart c.maxMsg) c.df.maxDf c.df.isServer c.buffer frames ms held' bs) (x : Bytes) :
    ∃ (oms : List OwnedMsg) (b : List DataFrame) (frames1 : List Spec.Frame) (bs1 : Bytes),
      decMany lenDecoder ms.length c (bs ++ x) = (oms.map Item.item, { c with buffer := b }, bs1 ++ x) ∧
      oms.map OwnedMsg.spec = ms ∧
      Incoming (FitsApart c.maxMsg) c.df.maxDf c.df.isServer b frames1 [] held' bs1 := by
  induction ms generalizing c frames bs with
  | nil => exact ⟨[], c.buffer, frames, bs, rfl, rfl, h⟩
  | cons m ms ih =>
    obtain ⟨fs, b, frames1, bs1, om, h1, h2, h3, h4⟩ := Incoming.step (c := c.lenCfg) (stepOk_len c hc.1 hc.2) h x
    obtain ⟨oms, b', frames2, bs2, g1, g2, g3⟩ := ih (c := { c with buffer := b }) hc h4
    have e : lenDecoder c (bs ++ x) = (.ok (some om), { c with buffer := b }, bs1 ++ x) := by
      rw [lenDecoder_out, h1]
      simp only [MsgCodec.ofOut, asyncOut, h2]
      rfl
    have e' : decNext lenDecoder c (bs ++ x) = (.item om, { c with buffer := b }, bs1 ++ x) := by
      unfold decNext; rw [e]
    refine ⟨om :: oms, b', frames2, bs2, ?_, by simp [h3, g2], g3⟩
    simp only [List.length_cons, decMany, e', g1, List.map_cons]

/-- A fragment that makes the payload too large even if it comes alone. -/
theorem refuse_len {c : MsgCodec} (hc : c.WF) {frames : List Spec.Frame} {held : List Spec.Frame} {bs : Bytes}
    (h : Incoming (FitsApart c.maxMsg) c.df.maxDf c.df.isServer c.buffer frames [] held bs)
    {f : Spec.Frame} {key : Option (List UInt8)} {fb : Bytes} (hf : Spec.IsFrame f key fb) (hk : key.isSome = c.df.isServer)
    (hl : f.payload.length ≤ c.df.maxDf) (ha : Allowed held f) (hfin : f.fin = false) (hn : held.length + 1 < 2 ^ 20)
    (hbig : c.maxMsg < payloadSum (held ++ [f]) + 64) (x : Bytes) :
    ∃ c', decNext lenDecoder c (bs ++ (fb ++ x)) = (.err msgLimitErr, c', x) := by
  obtain ⟨b, cur', h1, -, -, h4⟩ := Incoming.rest (c := c.lenCfg) (stepOk_len c hc.1 hc.2) h (fb ++ x)
  subst h1
  have hok : Spec.ControlOk f := by
    intro h8
    rcases ha with ⟨_, _, h⟩ | ⟨_, h⟩ <;> omega
  obtain ⟨g, rfl, hg⟩ := parseFrame_isFrame (Nat.lt_of_le_of_lt hc.1 (by decide)) (big := bigErr) hf hk hok hl x
  have e : specs b ++ [g.spec] = specs (b ++ [g]) := by rw [specs_append]; rfl
  rw [e, payloadSum_specs, heldLen_snoc] at hbig
  have hn' : (b ++ [g]).length < maxFrames := by
    simp only [specs, List.length_map] at hn
    simp only [List.length_append, List.length_singleton, maxFrames]; omega
  have hs : c.lenCfg.step b cur' g = .fail msgLimitErr (b ++ [g]) := by
    show lenStep c.maxMsg b cur' g = _
    unfold lenStep
    rw [asyncStep_part ha hfin hn', if_pos (by simp only [overhead]; omega)]
  refine ⟨{ c with buffer := b ++ [g] }, ?_⟩
  unfold decNext
  rw [lenDecoder_out, h4, pLoop_ok (c := c.lenCfg) hg, hs]
  rfl

/-- Fragments read in one go: the count is the weight of all of them. -/
theorem pLoop_parts {c : Cfg} {fits : List Spec.Frame → Prop} (hc : StepOk c fits)
    {held frames : List Spec.Frame} {ms : List Spec.Message} {held' : List Spec.Frame}
    (hd : Delivers fits held frames ms held') (hms : ms = []) (hlen : ∀ f ∈ frames, f.payload.length ≤ c.lim)
    (buffer : List DataFrame) (hb : specs buffer = held) {bs : Bytes} (hw : Wire c.masked frames bs) (x : Bytes) :
    ∃ b, specs b = held' ∧ pLoop c buffer (Spec.weight held) (bs ++ x) = pLoop c b (Spec.weight held') x := by
  have hl63 : c.lim < 2 ^ 63 := Nat.lt_of_le_of_lt hc.lim (by decide)
  induction hd generalizing buffer bs with
  | nil => cases hw; exact ⟨buffer, hb, rfl⟩
  | control => simp at hms
  | final => simp at hms
  | @part held f fs ms held' ha hf hfits hr ih =>
    cases hw with
    | @cons _ _ key bs1 rest hff hk hrest =>
    rw [List.append_assoc]
    have hok : Spec.ControlOk f := by
      intro h8
      rcases ha with ⟨_, _, h⟩ | ⟨_, h⟩ <;> omega
    obtain ⟨g, rfl, hg⟩ := parseFrame_isFrame hl63 (big := c.big) hff hk hok (hlen f (by simp)) (rest ++ x)
    have hb' : specs (buffer ++ [g]) = held ++ [g.spec] := by rw [specs_append, hb]; rfl
    rw [pLoop_ok hg, hc.part buffer _ g (hb ▸ ha) hf (hb' ▸ hfits) (by rw [hb]; exact Nat.le_refl _)]
    have e : Spec.weight held + (g.data.length + 64) = Spec.weight (held ++ [g.spec]) := by
      simp [Spec.weight, DataFrame.spec]
    simp only [e]
    exact ih hms (fun f hf => hlen f (by simp [hf])) (buffer ++ [g]) hb' hrest

end WS
