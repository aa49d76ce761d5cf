import Verif.Lemmas.Many
import Verif.Lemmas.Shrink
import Verif.Props.Message
/-! Invariants of the receivers on arbitrary input. -/

namespace WS

/-- An invariant of one run over a byte string. -/
theorem pLoop_induct {c : Cfg} (hlim : c.lim < 2 ^ 63) {J : List DataFrame → Nat → Prop} {Q : POut → Prop}
    (hstep : ∀ b cur f rest, J b cur → f.data.length ≤ c.lim → Spec.ControlOk f.spec →
      match c.step b cur f with
      | .msg fs b' => Q (.msg fs b' rest)
      | .fail e b' => Q (.fail e b' rest)
      | .next b' cur' => J b' cur')
    (hbad : ∀ b cur e start rest, J b cur → parseFrame c.masked c.lim c.big start = .err e rest → Q (.bad e b start rest))
    (hmore : ∀ b cur left, J b cur → Q (.more b cur left))
    (b : List DataFrame) (cur : Nat) (bs : Bytes) (hJ : J b cur) : Q (pLoop c b cur bs) := by
  fun_induction pLoop c b cur bs with
  | case1 b cur bs f rest h fs b' hs =>
    obtain ⟨h1, h2, -⟩ := (parseFrame_ok_iff hlim).mp h
    have := hstep b cur f rest hJ h1 h2
    rw [hs] at this; exact this
  | case2 b cur bs f rest h e b' hs =>
    obtain ⟨h1, h2, -⟩ := (parseFrame_ok_iff hlim).mp h
    have := hstep b cur f rest hJ h1 h2
    rw [hs] at this; exact this
  | case3 b cur bs f rest h b' cur' hs ih =>
    obtain ⟨h1, h2, -⟩ := (parseFrame_ok_iff hlim).mp h
    have := hstep b cur f rest hJ h1 h2
    rw [hs] at this; exact ih this
  | case4 b cur bs e rest h => exact hbad b cur e bs rest hJ h
  | case5 b cur bs h => exact hmore b cur bs hJ

/-! ### Invariants of the async stream on arbitrary scripts -/

section
variable {σ α : Type} {dec : Decoder σ α} {I I' : σ → Prop} {L : WsErr → Prop} {D : α → Prop}

/-- A decoder keeps `I` and yields items satisfying `D`, or reports an error in `L` and ends in `I'`. -/
def DecInv (dec : Decoder σ α) (I I' : σ → Prop) (L : WsErr → Prop) (D : α → Prop) : Prop :=
  ∀ c bs, I c → (∃ e, L e ∧ (dec c bs).1 = .err e ∧ I' (dec c bs).2.1) ∨ (I (dec c bs).2.1 ∧ ∀ a, (dec c bs).1 = .ok (some a) → D a)

def Item.okBy (x : Item α) (D : α → Prop) : Prop := ∀ a, x = .item a → D a

theorem pollEof_inv (hd : DecInv dec I I' L D) (fr : Framed σ) (hI : I fr.codec) :
    (∃ e, L e ∧ (Framed.pollEof dec fr).1 = .err e ∧ I' (Framed.pollEof dec fr).2.codec) ∨
    (I (Framed.pollEof dec fr).2.codec ∧ (Framed.pollEof dec fr).1.okBy D) := by
  have h := hd fr.codec fr.buf hI
  unfold Framed.pollEof
  split <;> rename_i heq <;> rw [heq] at h
  · simp only [reduceCtorEq, false_and, and_false, exists_false, false_or, Res.ok.injEq, Option.some.injEq] at h
    right
    refine ⟨h.1, ?_⟩
    intro a ha
    simp only [Item.item.injEq] at ha
    exact h.2 a ha
  · simp only [reduceCtorEq, false_and, and_false, exists_false, false_or] at h
    right
    refine ⟨h.1, ?_⟩
    intro a ha
    split at ha <;> simp at ha
  · simp only [Res.err.injEq, Item.err.injEq] at h ⊢
    rcases h with h | h
    · exact .inl h
    · exact .inr ⟨h.1, by intro a ha; simp at ha⟩
  · simp only [reduceCtorEq, false_and, and_false, exists_false, false_or] at h
    right
    refine ⟨h.1, ?_⟩
    intro a ha; simp at ha

theorem pollRead_inv (hd : DecInv dec I I' L D) (s : Src) (fr : Framed σ) (hI : I fr.codec) :
    (∃ e, L e ∧ (Framed.pollRead dec fr s).1 = .ready (.err e) ∧ I' (Framed.pollRead dec fr s).2.1.codec) ∨
    (I (Framed.pollRead dec fr s).2.1.codec ∧ ∀ x, (Framed.pollRead dec fr s).1 = .ready x → x.okBy D) := by
  induction s generalizing fr with
  | nil =>
    unfold Framed.pollRead
    rcases pollEof_inv hd { fr with eof := true, readable := true } hI with ⟨e, h1, h2, h3⟩ | ⟨h1, h2⟩
    · left; exact ⟨e, h1, by simp [h2], h3⟩
    · right; refine ⟨h1, ?_⟩
      intro x hx; simp only [Poll.ready.injEq] at hx; subst hx; exact h2
  | cons ev rest ih =>
    cases ev with
    | error k =>
      unfold Framed.pollRead
      split
      · right; exact ⟨hI, by intro x hx; simp at hx⟩
      · right; refine ⟨hI, ?_⟩
        intro x hx; simp only [Poll.ready.injEq] at hx; subst hx
        intro a ha; simp at ha
    | chunk b =>
      unfold Framed.pollRead
      split
      · rcases pollEof_inv hd { fr with eof := true, readable := true } hI with ⟨e, h1, h2, h3⟩ | ⟨h1, h2⟩
        · left; exact ⟨e, h1, by simp [h2], h3⟩
        · right; refine ⟨h1, ?_⟩
          intro x hx; simp only [Poll.ready.injEq] at hx; subst hx; exact h2
      · have h := hd fr.codec (fr.buf ++ b) hI
        split <;> rename_i heq <;> rw [heq] at h
        · simp only [reduceCtorEq, false_and, and_false, exists_false, false_or, Res.ok.injEq, Option.some.injEq] at h
          right; refine ⟨h.1, ?_⟩
          intro x hx; simp only [Poll.ready.injEq] at hx; subst hx
          intro a ha; simp only [Item.item.injEq] at ha; exact h.2 a ha
        · simp only [reduceCtorEq, false_and, and_false, exists_false, false_or] at h
          exact ih _ h.1
        · simp only [Res.err.injEq, Poll.ready.injEq, Item.err.injEq] at h ⊢
          rcases h with h | h
          · exact .inl h
          · right; refine ⟨h.1, ?_⟩
            intro x hx; subst hx
            intro a ha; simp at ha
        · simp only [reduceCtorEq, false_and, and_false, exists_false, false_or] at h
          right; refine ⟨h.1, ?_⟩
          intro x hx; simp only [Poll.ready.injEq] at hx; subst hx
          intro a ha; simp at ha

theorem poll_inv (hd : DecInv dec I I' L D) (s : Src) (fr : Framed σ) (hI : I fr.codec) :
    (∃ e, L e ∧ (Framed.poll dec fr s).1 = .ready (.err e) ∧ I' (Framed.poll dec fr s).2.1.codec) ∨
    (I (Framed.poll dec fr s).2.1.codec ∧ ∀ x, (Framed.poll dec fr s).1 = .ready x → x.okBy D) := by
  unfold Framed.poll
  split
  · split
    · rcases pollEof_inv hd fr hI with ⟨e, h1, h2, h3⟩ | ⟨h1, h2⟩
      · left; exact ⟨e, h1, by simp [h2], h3⟩
      · right; refine ⟨h1, ?_⟩
        intro x hx; simp only [Poll.ready.injEq] at hx; subst hx; exact h2
    · have h := hd fr.codec fr.buf hI
      split <;> rename_i heq <;> rw [heq] at h
      · simp only [reduceCtorEq, false_and, and_false, exists_false, false_or, Res.ok.injEq, Option.some.injEq] at h
        right; refine ⟨h.1, ?_⟩
        intro x hx; simp only [Poll.ready.injEq] at hx; subst hx
        intro a ha; simp only [Item.item.injEq] at ha; exact h.2 a ha
      · simp only [reduceCtorEq, false_and, and_false, exists_false, false_or] at h
        exact pollRead_inv hd s _ h.1
      · simp only [Res.err.injEq, Poll.ready.injEq, Item.err.injEq] at h ⊢
        rcases h with h | h
        · exact .inl h
        · right; refine ⟨h.1, ?_⟩
          intro x hx; subst hx
          intro a ha; simp at ha
      · simp only [reduceCtorEq, false_and, and_false, exists_false, false_or] at h
        right; refine ⟨h.1, ?_⟩
        intro x hx; simp only [Poll.ready.injEq] at hx; subst hx
        intro a ha; simp at ha
  · exact pollRead_inv hd s fr hI

theorem next_inv (hd : DecInv dec I I' L D) (s : Src) (fr : Framed σ) (hI : I fr.codec) :
    (∃ e, L e ∧ (fr.next dec s).1 = .err e ∧ I' (fr.next dec s).2.1.codec) ∨
    (I (fr.next dec s).2.1.codec ∧ (fr.next dec s).1.okBy D) := by
  fun_induction Framed.next dec fr s with
  | case1 fr s x fr' s' h =>
    have := poll_inv hd s fr hI
    rw [h] at this
    simp only [Poll.ready.injEq] at this
    rcases this with h | h
    · exact .inl h
    · exact .inr ⟨h.1, h.2 x rfl⟩
  | case2 fr s fr' s' h ih =>
    have := poll_inv hd s fr hI
    rw [h] at this
    simp only [reduceCtorEq, false_and, and_false, exists_false, false_or] at this
    exact ih this.1

/-- Invariant over any number of awaited items on any transport. -/
theorem nextMany_inv (hd : DecInv dec I I' L D) (n : Nat) (s : Src) (fr : Framed σ) (hI : I fr.codec)
    (hno : ∀ e, L e → Item.err e ∉ (fr.nextMany dec n s).1) :
    I (fr.nextMany dec n s).2.1.codec ∧ ∀ a, Item.item a ∈ (fr.nextMany dec n s).1 → D a := by
  induction n generalizing fr s with
  | zero => exact ⟨hI, by intro a ha; simp [Framed.nextMany] at ha⟩
  | succ n ih =>
    simp only [Framed.nextMany] at hno ⊢
    rcases next_inv hd s fr hI with ⟨e, h1, h2, -⟩ | ⟨h1, h2⟩
    · exact absurd (by rw [h2]; simp) (hno e h1)
    · obtain ⟨i1, i2⟩ := ih (Framed.next dec fr s).2.2 _ h1 (fun e he hm => hno e he (List.mem_cons_of_mem _ hm))
      refine ⟨i1, ?_⟩
      intro a ha
      rcases List.mem_cons.mp ha with ha | ha
      · exact h2 a ha.symm
      · exact i2 a ha
end

/-! ### Sizes -/

/-- The error for too many frames in a message. -/
def msgCountErr : WsErr := .protocol "Exceeded count of data frames in one WebSocket message"

/-- Errors that report a message limit. -/
def LimitErr (e : WsErr) : Prop := e = msgLimitErr ∨ e = msgCountErr

theorem flatMap_length (fs : List DataFrame) : (fs.flatMap DataFrame.data).length = heldLen fs := by
  induction fs with
  | nil => rfl
  | cons f fs ih => simp [heldLen, ih] at *

theorem payload_length {fs : List DataFrame} (hsz : heldLen fs ≤ isizeMax) {m : OwnedMsg}
    (h : OwnedMsg.fromDataframes (fs.map DataFrame.view) = .ok m) : m.view.payload.length = heldLen fs := by
  rw [(C11_payload_is_concatenation fs hsz m h).1, flatMap_length]

/-- What a step may do to the held frames when they are within `B` bytes and `K` frames. -/
def StepBound (B K maxDf : Nat) : Step → Prop
  | .msg fs b' => heldLen fs ≤ B + maxDf ∧ heldLen b' ≤ B ∧ b'.length ≤ K
  | .fail e b' => (LimitErr e ∧ heldLen b' ≤ B + maxDf ∧ b'.length ≤ K + 1) ∨ (heldLen b' ≤ B ∧ b'.length ≤ K)
  | .next b' cur' => heldLen b' ≤ cur' ∧ heldLen b' ≤ B ∧ b'.length ≤ K

theorem syncStep_bound {B K maxDf maxMsg : Nat} (hB : maxDf ≤ B) (hB' : maxMsg ≤ B + 1) (hK : maxFrames ≤ K + 1)
    {b : List DataFrame} {cur : Nat} {f : DataFrame}
    (h1 : heldLen b ≤ cur) (h2 : heldLen b ≤ B) (h3 : b.length ≤ K)
    (hf : f.data.length ≤ maxDf) : StepBound B K maxDf (syncStep maxMsg b cur f) := by
  have hm : (1 : Nat) < maxFrames := by decide
  unfold syncStep
  split
  · next hb =>
    subst hb
    split
    · exact .inr ⟨h2, h3⟩
    · split
      · simp only [StepBound, heldLen_single, heldLen_nil, List.length_nil]; omega
      · simp only [StepBound, heldLen_single, List.length_singleton]; omega
  · split
    · split
      · simp only [StepBound, heldLen_snoc, heldLen_nil, List.length_nil]; omega
      · split
        · refine .inl ⟨.inr rfl, ?_⟩
          simp only [heldLen_snoc, List.length_append, List.length_singleton]; omega
        · split
          · refine .inl ⟨.inl rfl, ?_⟩
            simp only [heldLen_snoc, List.length_append, List.length_singleton]; omega
          · simp only [StepBound, heldLen_snoc]; omega
    · split
      · simp only [StepBound, heldLen_single]; omega
      · exact .inr ⟨h2, h3⟩

theorem asyncStep_bound {B K maxDf maxMsg : Nat} (hB' : maxMsg ≤ B) (hK : maxFrames ≤ K + 1)
    {b : List DataFrame} {cur : Nat} {f : DataFrame}
    (h1 : heldLen b ≤ cur) (h2 : heldLen b ≤ B) (h3 : b.length ≤ K)
    (hf : f.data.length ≤ maxDf) : StepBound B K maxDf (asyncStep maxMsg b cur f) := by
  have hm : (1 : Nat) < maxFrames := by decide
  unfold asyncStep
  split
  · exact .inr ⟨h2, h3⟩
  · split
    · simp only [StepBound, heldLen_single]; omega
    · split
      · exact .inr ⟨h2, h3⟩
      · split
        · simp only [StepBound, heldLen_snoc, heldLen_nil, List.length_nil]; omega
        · split
          · refine .inl ⟨.inr rfl, ?_⟩
            simp only [heldLen_snoc, List.length_append, List.length_singleton]; omega
          · split
            · refine .inl ⟨.inl rfl, ?_⟩
              simp only [heldLen_snoc, List.length_append, List.length_singleton]; omega
            · simp only [StepBound, heldLen_snoc]; omega

/-- One blocking receive from a state within the bounds. -/
theorem recvMessage_bound (r : Receiver) (hr : r.WF) (s : Src) {B K : Nat} (hB : r.maxDf ≤ B) (hB' : r.maxMsg ≤ B + 1)
    (hK : maxFrames ≤ K + 1) (hsz : B ≤ isizeMax - u32Max) (h2 : heldLen r.buffer ≤ B) (h3 : r.buffer.length ≤ K) :
    (r.recvMessage s).2.1 = { r with buffer := (r.recvMessage s).2.1.buffer } ∧
    ((∃ e, LimitErr e ∧ (r.recvMessage s).1 = .err e ∧ heldLen (r.recvMessage s).2.1.buffer ≤ B + r.maxDf ∧
        (r.recvMessage s).2.1.buffer.length ≤ K + 1) ∨
     (heldLen (r.recvMessage s).2.1.buffer ≤ B ∧ (r.recvMessage s).2.1.buffer.length ≤ K ∧
        ∀ m, (r.recvMessage s).1 = .ok m → m.view.payload.length ≤ B + r.maxDf)) := by
  obtain ⟨hr1, hr2⟩ := hr
  have key := sLoop_induct (J := fun b cur => heldLen b ≤ cur ∧ heldLen b ≤ B ∧ b.length ≤ K)
    (Q := fun res b => (∃ e, LimitErr e ∧ res = .err e ∧ heldLen b ≤ B + r.maxDf ∧ b.length ≤ K + 1) ∨
      (heldLen b ≤ B ∧ b.length ≤ K ∧ ∀ fs, res = .ok fs → heldLen fs ≤ B + r.maxDf)) r hr1
    (by
      intro b cur f ⟨j1, j2, j3⟩ hf _
      have := syncStep_bound (K := K) hB hB' hK j1 j2 j3 hf
      cases hs : syncStep r.maxMsg b cur f with
      | msg fs b' =>
        rw [hs] at this
        refine .inr ⟨this.2.1, this.2.2, ?_⟩
        intro fs' h; cases h; exact this.1
      | fail e b' =>
        rw [hs] at this
        rcases this with h | h
        · exact .inl ⟨e, h.1, rfl, h.2⟩
        · exact .inr ⟨h.1, h.2, by intro fs h; cases h⟩
      | next b' cur' => rw [hs] at this; exact this)
    (fun b cur e j => .inr ⟨j.2.1, j.2.2, by intro fs h; cases h⟩)
    (fun b cur e j => .inr ⟨j.2.1, j.2.2, by intro fs h; cases h⟩)
    r rfl rfl rfl (heldLen r.buffer) s ⟨Nat.le_refl _, h2, h3⟩
  rw [← recvMessageDataframes_eq] at key
  unfold Receiver.recvMessage
  obtain ⟨k1, k2⟩ := key
  split <;> rename_i heq <;> rw [heq] at k1 k2 <;> refine ⟨k2, ?_⟩
  · rcases k1 with ⟨e, -, h, -⟩ | ⟨a1, a2, a3⟩
    · cases h
    · refine .inr ⟨a1, a2, ?_⟩
      intro m hm
      have := a3 _ rfl
      rw [payload_length _ hm]
      · exact this
      · have : (u32Max : Nat) ≤ isizeMax := by decide
        omega
  · rcases k1 with ⟨e, h1, h, h2⟩ | ⟨a1, a2, a3⟩
    · cases h; exact .inl ⟨_, h1, rfl, h2⟩
    · exact .inr ⟨a1, a2, by intro m h; cases h⟩
  · rcases k1 with ⟨e, h1, h, h2⟩ | ⟨a1, a2, a3⟩
    · cases h
    · exact .inr ⟨a1, a2, by intro m h; cases h⟩

/-- A blocking receiver that has not reported a limit stays within the bounds. -/
theorem recvMany_bound (n : Nat) (r : Receiver) (hr : r.WF) (s : Src) {B K : Nat} (hB : r.maxDf ≤ B)
    (hB' : r.maxMsg ≤ B + 1) (hK : maxFrames ≤ K + 1) (hsz : B ≤ isizeMax - u32Max) (h2 : heldLen r.buffer ≤ B)
    (h3 : r.buffer.length ≤ K) (hno : ∀ e, LimitErr e → Res.err e ∉ (r.recvMany n s).1) :
    heldLen (r.recvMany n s).2.1.buffer ≤ B ∧ (r.recvMany n s).2.1.buffer.length ≤ K ∧
      ∀ m, Res.ok m ∈ (r.recvMany n s).1 → m.view.payload.length ≤ B + r.maxDf := by
  induction n generalizing r s with
  | zero => exact ⟨h2, h3, by intro m hm; simp [Receiver.recvMany] at hm⟩
  | succ n ih =>
    simp only [Receiver.recvMany] at hno ⊢
    obtain ⟨k, ⟨e, h1, h2, -⟩ | ⟨a1, a2, a3⟩⟩ := recvMessage_bound r hr s hB hB' hK hsz h2 h3
    · exact absurd (by rw [h2]; exact List.mem_cons_self) (hno e h1)
    · have hwf : (r.recvMessage s).2.1.WF := by rw [k]; exact hr
      have hd : (r.recvMessage s).2.1.maxDf = r.maxDf := by rw [k]
      have hm : (r.recvMessage s).2.1.maxMsg = r.maxMsg := by rw [k]
      obtain ⟨i1, i2, i3⟩ := ih (r.recvMessage s).2.1 hwf (r.recvMessage s).2.2 (hd ▸ hB) (hm ▸ hB') a1 a2
        (fun e he hm => hno e he (List.mem_cons_of_mem _ hm))
      refine ⟨i1, i2, ?_⟩
      intro m hm
      rcases List.mem_cons.mp hm with h | h
      · exact a3 m h.symm
      · rw [hd] at i3; exact i3 m h

/-- The async codec within the bounds. -/
theorem msgDecoder_inv {B K maxDf maxMsg : Nat} (w1 : maxDf ≤ u32Max) (hB' : maxMsg ≤ B)
    (hK : maxFrames ≤ K + 1) (hsz : B ≤ isizeMax - u32Max) :
    DecInv msgDecoder
      (fun c => c.df.maxDf = maxDf ∧ c.maxMsg = maxMsg ∧ heldLen c.buffer ≤ B ∧ c.buffer.length ≤ K)
      (fun c => c.df.maxDf = maxDf ∧ c.maxMsg = maxMsg ∧ heldLen c.buffer ≤ B + maxDf ∧ c.buffer.length ≤ K + 1)
      LimitErr (fun m => m.view.payload.length ≤ B + maxDf) := by
  intro c bs ⟨c1, c2, c3, c4⟩
  have hlt : (u32Max : Nat) < 2 ^ 63 := by decide
  have key := pLoop_induct (c := c.cfg) (J := fun b cur => heldLen b ≤ cur ∧ heldLen b ≤ B ∧ b.length ≤ K)
    (Q := fun o => match o with
      | .msg fs b _ => heldLen fs ≤ B + maxDf ∧ heldLen b ≤ B ∧ b.length ≤ K
      | .fail e b _ => (LimitErr e ∧ heldLen b ≤ B + maxDf ∧ b.length ≤ K + 1) ∨ (heldLen b ≤ B ∧ b.length ≤ K)
      | .bad _ b _ _ => heldLen b ≤ B ∧ b.length ≤ K
      | .more b _ _ => heldLen b ≤ B ∧ b.length ≤ K)
    (by show c.df.maxDf < 2 ^ 63; omega)
    (by
      intro b cur f rest ⟨j1, j2, j3⟩ hf _
      have := asyncStep_bound (K := K) (maxDf := maxDf) hB' hK j1 j2 j3 (show f.data.length ≤ maxDf from c1 ▸ (show f.data.length ≤ c.df.maxDf from hf))
      have e : c.cfg.step = asyncStep maxMsg := by rw [← c2]; rfl
      rw [e]
      cases hs : asyncStep maxMsg b cur f <;> rw [hs] at this <;> exact this)
    (fun b cur e start rest j _ => j.2) (fun b cur left j => j.2)
    c.buffer (heldLen c.buffer) bs ⟨Nat.le_refl _, c3, c4⟩
  show (∃ e, LimitErr e ∧ (c.decode bs).1 = .err e ∧ _) ∨ _
  unfold msgDecoder
  rw [MsgCodec.decode_eq c (by omega)]
  cases hp : pLoop c.cfg c.buffer (heldLen c.buffer) bs with
  | msg fs b rest =>
    rw [hp] at key
    refine .inr ⟨⟨c1, c2, key.2⟩, ?_⟩
    intro a ha
    simp only [asyncOut] at ha
    cases hf : OwnedMsg.fromDataframes (fs.map DataFrame.view) with
    | ok m =>
      rw [hf] at ha
      have : m = a := by simpa [Bind.bind, Res.bind, pure] using ha
      subst this
      rw [payload_length _ hf]
      · exact key.1
      · have : (u32Max : Nat) ≤ isizeMax := by decide
        have := key.1
        omega
    | err e => rw [hf] at ha; simp [Bind.bind, Res.bind] at ha
    | panic e => rw [hf] at ha; simp [Bind.bind, Res.bind] at ha
  | fail e b rest =>
    rw [hp] at key
    rcases key with h | h
    · exact .inl ⟨e, h.1, rfl, c1, c2, h.2⟩
    · exact .inr ⟨⟨c1, c2, h⟩, by intro a ha; cases ha⟩
  | bad e b start rest => rw [hp] at key; exact .inr ⟨⟨c1, c2, key⟩, by intro a ha; cases ha⟩
  | more b cur left => rw [hp] at key; exact .inr ⟨⟨c1, c2, key⟩, by intro a ha; cases ha⟩

/-! ### No panics -/

/-- What a step may do to the amount of data held. -/
def StepGrow (n : Nat) : Step → Prop
  | .msg fs b' => heldLen fs ≤ n ∧ heldLen b' ≤ n
  | .fail _ b' => heldLen b' ≤ n
  | .next b' _ => heldLen b' ≤ n

theorem syncStep_grow (maxMsg : Nat) (b : List DataFrame) (cur : Nat) (f : DataFrame) :
    StepGrow (heldLen b + f.data.length) (syncStep maxMsg b cur f) := by
  unfold syncStep
  repeat' split
  all_goals simp only [StepGrow, heldLen_snoc, heldLen_single, heldLen_nil]
  all_goals omega

theorem asyncStep_grow (maxMsg : Nat) (b : List DataFrame) (cur : Nat) (f : DataFrame) :
    StepGrow (heldLen b + f.data.length) (asyncStep maxMsg b cur f) := by
  unfold asyncStep
  repeat' split
  all_goals simp only [StepGrow, heldLen_snoc, heldLen_single, heldLen_nil]
  all_goals omega

theorem recvDataframe_consumes {r : Receiver} {s s' : Src} {f : DataFrame} (h : r.recvDataframe s = (.ok f, s')) :
    f.data.length + s'.flat.length ≤ s.flat.length := by
  have := parseFrame_lt (sound_frame r.mask r.maxDf (.io .invalidData) s s' f h)
  omega

theorem recvDataframe_shrink {r : Receiver} {s s' : Src} {x : Res DataFrame} (h : r.recvDataframe s = (x, s')) :
    s'.flat.length ≤ s.flat.length := by
  have := shrinks_frame r.mask r.maxDf s
  rw [show readDataframeWithLimit r.mask r.maxDf s = (x, s') from h] at this
  exact this

theorem isize_u32 : u32Max ≤ isizeMax := by decide

theorem sLoop_safe (N : Nat) (r : Receiver) (hr : r.maxDf ≤ u32Max) (cur : Nat) (s : Src)
    (h : heldLen r.buffer + s.flat.length ≤ N) :
    (sLoop r cur s).1.isPanic = false ∧ (sLoop r cur s).2.1.maxDf = r.maxDf ∧
      heldLen (sLoop r cur s).2.1.buffer + (sLoop r cur s).2.2.flat.length ≤ N ∧
      ∀ fs, (sLoop r cur s).1 = .ok fs → heldLen fs ≤ N := by
  fun_induction sLoop r cur s with
  | case1 r cur s f s' hd fs b hs =>
    have hc := recvDataframe_consumes hd
    have hg := syncStep_grow r.maxMsg r.buffer cur f
    rw [hs] at hg
    refine ⟨rfl, rfl, ?_, ?_⟩
    · show heldLen b + s'.flat.length ≤ N
      -- the delivered frames either take the buffer or leave it
      have := hg.2
      unfold syncStep at hs
      split at hs
      · split at hs
        · cases hs
        · split at hs <;> cases hs
          simp only [heldLen_nil]; omega
      · split at hs
        · split at hs
          · cases hs; simp only [heldLen_nil]; omega
          · split at hs
            · cases hs
            · split at hs <;> cases hs
        · split at hs <;> cases hs
          omega
    · intro fs' h'; cases h'
      have := hg.1; omega
  | case2 r cur s f s' hd e b hs =>
    have hc := recvDataframe_consumes hd
    have hg := syncStep_grow r.maxMsg r.buffer cur f
    rw [hs] at hg
    refine ⟨rfl, rfl, ?_, by intro fs h; cases h⟩
    have : heldLen b ≤ _ := hg
    show heldLen b + s'.flat.length ≤ N
    omega
  | case3 r cur s f s' hd b cur' hs ih =>
    have hc := recvDataframe_consumes hd
    have hg := syncStep_grow r.maxMsg r.buffer cur f
    rw [hs] at hg
    have hg : heldLen b ≤ _ := hg
    exact ih hr (show heldLen b + s'.flat.length ≤ N by omega)
  | case4 r cur s e s' hd =>
    have hc := recvDataframe_shrink hd
    exact ⟨rfl, rfl, show heldLen r.buffer + s'.flat.length ≤ N by omega, by intro fs h; cases h⟩
  | case5 r cur s e s' hd =>
    have := noPanic_frame r.mask r.maxDf (Nat.le_trans hr isize_u32) s
    rw [show readDataframeWithLimit r.mask r.maxDf s = (.panic e, s') from hd] at this
    simp at this

theorem fromFrames_no_panic {fs : List DataFrame} (h : heldLen fs ≤ isizeMax) :
    (OwnedMsg.fromDataframes (fs.map DataFrame.view)).isPanic = false := by
  apply OwnedMsg.fromDataframes_no_panic
  rw [List.map_map]
  exact h

theorem recvMessage_safe (r : Receiver) (hr : r.maxDf ≤ u32Max) (s : Src) (h : heldLen r.buffer + s.flat.length ≤ isizeMax) :
    (r.recvMessage s).1.isPanic = false ∧ (r.recvMessage s).2.1.maxDf = r.maxDf ∧
      heldLen (r.recvMessage s).2.1.buffer + (r.recvMessage s).2.2.flat.length ≤ isizeMax := by
  have key := sLoop_safe isizeMax r hr (heldLen r.buffer) s h
  rw [← recvMessageDataframes_eq] at key
  unfold Receiver.recvMessage
  split <;> rename_i heq <;> rw [heq] at key
  · exact ⟨fromFrames_no_panic (key.2.2.2 _ rfl), key.2.1, key.2.2.1⟩
  · exact ⟨rfl, key.2.1, key.2.2.1⟩
  · exact absurd key.1 (by simp)

theorem recvMany_safe (n : Nat) (r : Receiver) (hr : r.maxDf ≤ u32Max) (s : Src)
    (h : heldLen r.buffer + s.flat.length ≤ isizeMax) : ∀ x ∈ (r.recvMany n s).1, x.isPanic = false := by
  induction n generalizing r s with
  | zero => intro x hx; simp [Receiver.recvMany] at hx
  | succ n ih =>
    have step := recvMessage_safe r hr s h
    simp only [Receiver.recvMany]
    intro x hx
    rcases List.mem_cons.mp hx with h | h
    · rw [h]; exact step.1
    · exact ih _ (step.2.1 ▸ hr) _ step.2.2 x h

section
variable {σ α : Type} {dec : Decoder σ α} {size : σ → Nat} {P : σ → Prop} {N : Nat}

/-- A decoder does not panic and does not make the data it holds (with its input) grow. -/
def DecSafe (dec : Decoder σ α) (P : σ → Prop) (size : σ → Nat) (N : Nat) : Prop :=
  ∀ c bs, P c → size c + bs.length ≤ N →
    (dec c bs).1.isPanic = false ∧ P (dec c bs).2.1 ∧
      size (dec c bs).2.1 + (dec c bs).2.2.length ≤ size c + bs.length

def Item.isPanic : Item α → Bool
  | .panic _ => true
  | _ => false

/-- State of the stream and bytes still to come fit in `N`. -/
def Framed.Small (P : σ → Prop) (size : σ → Nat) (N : Nat) (fr : Framed σ) (s : Src) : Prop :=
  P fr.codec ∧ size fr.codec + fr.buf.length + s.flat.length ≤ N

theorem pollEof_safe (hd : DecSafe dec P size N) (fr : Framed σ) (s : Src) (h : fr.Small P size N s) :
    (Framed.pollEof dec fr).1.isPanic = false ∧ (Framed.pollEof dec fr).2.Small P size N s := by
  obtain ⟨hP, hs⟩ := h
  obtain ⟨a, b, c⟩ := hd fr.codec fr.buf hP (by omega)
  unfold Framed.pollEof
  split <;> rename_i heq <;> rw [heq] at a b c <;> simp only at a b c
  · exact ⟨rfl, b, by simp only; omega⟩
  · refine ⟨?_, b, by simp only; omega⟩
    split <;> rfl
  · exact ⟨rfl, b, by simp only; omega⟩
  · simp at a

theorem pollRead_safe (hd : DecSafe dec P size N) (s : Src) (fr : Framed σ) (h : fr.Small P size N s) :
    (∀ x, (fr.pollRead dec s).1 = .ready x → x.isPanic = false) ∧
      (fr.pollRead dec s).2.1.Small P size N (fr.pollRead dec s).2.2 := by
  induction s generalizing fr with
  | nil =>
    unfold Framed.pollRead
    obtain ⟨a, b⟩ := pollEof_safe hd { fr with eof := true, readable := true } [] h
    exact ⟨by intro x hx; simp only [Poll.ready.injEq] at hx; exact hx ▸ a, b⟩
  | cons ev rest ih =>
    cases ev with
    | error k =>
      unfold Framed.pollRead
      split
      · exact ⟨(by intro x hx; cases hx), h⟩
      · refine ⟨?_, h⟩
        intro x hx
        simp only [Poll.ready.injEq] at hx
        subst hx; rfl
    | chunk b =>
      have hfl : (Src.flat (.chunk b :: rest)).length = b.length + (Src.flat rest).length := by simp [Src.flat]
      obtain ⟨hP, hs⟩ := h
      rw [hfl] at hs
      unfold Framed.pollRead
      split
      · obtain ⟨a, b⟩ := pollEof_safe hd { fr with eof := true, readable := true } rest ⟨hP, by simp only; omega⟩
        exact ⟨by intro x hx; simp only [Poll.ready.injEq] at hx; exact hx ▸ a, b⟩
      · have hl : (fr.buf ++ b).length = fr.buf.length + b.length := List.length_append
        obtain ⟨k1, k2, k3⟩ := hd fr.codec (fr.buf ++ b) hP (by omega)
        split <;> rename_i heq <;> rw [heq] at k1 k2 k3 <;> simp only at k1 k2 k3
        · exact ⟨by intro x hx; cases hx; rfl, k2, by simp only; omega⟩
        · exact ih _ ⟨k2, by simp only; omega⟩
        · exact ⟨by intro x hx; cases hx; rfl, k2, by simp only; omega⟩
        · simp at k1

theorem poll_safe (hd : DecSafe dec P size N) (s : Src) (fr : Framed σ) (h : fr.Small P size N s) :
    (∀ x, (fr.poll dec s).1 = .ready x → x.isPanic = false) ∧
      (fr.poll dec s).2.1.Small P size N (fr.poll dec s).2.2 := by
  unfold Framed.poll
  split
  · split
    · obtain ⟨a, b⟩ := pollEof_safe hd fr s h
      exact ⟨by intro x hx; simp only [Poll.ready.injEq] at hx; exact hx ▸ a, b⟩
    · obtain ⟨hP, hs⟩ := h
      obtain ⟨k1, k2, k3⟩ := hd fr.codec fr.buf hP (by omega)
      split <;> rename_i heq <;> rw [heq] at k1 k2 k3 <;> simp only at k1 k2 k3
      · exact ⟨by intro x hx; cases hx; rfl, k2, by simp only; omega⟩
      · exact pollRead_safe hd s _ ⟨k2, by simp only; omega⟩
      · exact ⟨by intro x hx; cases hx; rfl, k2, by simp only; omega⟩
      · simp at k1
  · exact pollRead_safe hd s fr h

theorem next_safe (hd : DecSafe dec P size N) (s : Src) (fr : Framed σ) (h : fr.Small P size N s) :
    (fr.next dec s).1.isPanic = false ∧ (fr.next dec s).2.1.Small P size N (fr.next dec s).2.2 := by
  fun_induction Framed.next dec fr s with
  | case1 fr s x fr' s' hp =>
    have := poll_safe hd s fr h
    rw [hp] at this
    exact ⟨this.1 x rfl, this.2⟩
  | case2 fr s fr' s' hp ih =>
    have := poll_safe hd s fr h
    rw [hp] at this
    exact ih this.2

theorem nextMany_safe (hd : DecSafe dec P size N) (n : Nat) (s : Src) (fr : Framed σ) (h : fr.Small P size N s) :
    ∀ x ∈ (fr.nextMany dec n s).1, x.isPanic = false := by
  induction n generalizing fr s with
  | zero => intro x hx; simp [Framed.nextMany] at hx
  | succ n ih =>
    simp only [Framed.nextMany]
    obtain ⟨a, b⟩ := next_safe hd s fr h
    intro x hx
    rcases List.mem_cons.mp hx with h | h
    · exact h ▸ a
    · exact ih _ _ b x h
end

/-- A parser leaves a suffix no longer than its input. -/
def Tails {α} (m : Ps α) : Prop :=
  ∀ bs, (∀ a rest, m bs = .ok a rest → rest.length ≤ bs.length) ∧ (∀ e rest, m bs = .err e rest → rest.length ≤ bs.length)

theorem tails_pure {α} (a : α) : Tails (pure a : Ps α) := by
  intro bs
  exact ⟨by intro b rest h; cases h; exact Nat.le_refl _, by intro e rest h; cases h⟩

theorem tails_fail {α} (e : WsErr) : Tails (Ps.fail e : Ps α) := by
  intro bs
  exact ⟨(by intro b rest h; cases h), by intro e rest h; cases h; exact Nat.le_refl _⟩

theorem tails_take (n : Nat) : Tails (Ps.take n) := by
  intro bs
  unfold Ps.take
  split
  · exact ⟨by intro b rest h; cases h; simp, by intro e rest h; cases h⟩
  · exact ⟨(by intro b rest h; cases h), by intro e rest h; cases h⟩

theorem tails_u8 : Tails Ps.u8 := by
  intro bs
  cases bs with
  | nil => exact ⟨(by intro b rest h; cases h), by intro e rest h; cases h⟩
  | cons x xs => exact ⟨by intro b rest h; cases h; simp, by intro e rest h; cases h⟩

theorem tails_bind {α β} {m : Ps α} {f : α → Ps β} (hm : Tails m) (hf : ∀ a, Tails (f a)) : Tails (m >>= f) := by
  intro bs
  obtain ⟨h1, h2⟩ := hm bs
  simp only [Ps.bind_def]
  cases hmb : m bs with
  | ok a mid =>
    have := h1 a mid hmb
    exact ⟨fun b rest h => Nat.le_trans ((hf a mid).1 b rest h) this,
      fun e rest h => Nat.le_trans ((hf a mid).2 e rest h) this⟩
  | err e mid =>
    have := h2 e mid hmb
    exact ⟨(by intro b rest h; cases h), by intro e rest h; cases h; exact this⟩
  | more => exact ⟨(by intro b rest h; cases h), by intro e rest h; cases h⟩

theorem tails_ite {α} (c : Prop) [Decidable c] {p q : Ps α} (hp : Tails p) (hq : Tails q) :
    Tails (if c then p else q) := by split <;> assumption

theorem tails_frame (m : Bool) (lim : Nat) (big : WsErr) : Tails (parseFrame m lim big) := by
  unfold parseFrame parseHeader parseLen parseMask
  refine tails_bind ?_ fun h => tails_ite _ (tails_fail _) (tails_bind (tails_take _) fun d => ?_)
  · refine tails_bind tails_u8 fun b0 => tails_bind tails_u8 fun b1 => tails_bind ?_ fun len => ?_
    · refine tails_ite _ (tails_pure _) (tails_ite _ ?_ ?_)
      · exact tails_bind (tails_bind (tails_take _) fun _ => tails_pure _) fun _ =>
          tails_ite _ (tails_fail _) (tails_pure _)
      · exact tails_bind (tails_bind (tails_take _) fun _ => tails_pure _) fun _ =>
          tails_ite _ (tails_fail _) (tails_pure _)
    · refine tails_ite _ (tails_fail _) (tails_ite _ (tails_fail _) ?_)
      refine tails_bind (tails_ite _ ?_ (tails_pure _)) fun _ => tails_pure _
      exact tails_bind tails_u8 fun _ => tails_bind tails_u8 fun _ => tails_bind tails_u8 fun _ =>
        tails_bind tails_u8 fun _ => tails_pure _
  · intro bs
    unfold bodyPs
    split
    · exact ⟨by intro b rest h; cases h; exact Nat.le_refl _, by intro e rest h; cases h⟩
    · exact ⟨(by intro b rest h; cases h), by intro e rest h; cases h; exact Nat.le_refl _⟩
    · exact ⟨(by intro b rest h; cases h), by intro e rest h; cases h⟩

theorem parseFrame_err_len {m : Bool} {lim : Nat} {big e : WsErr} {bs rest : Bytes}
    (h : parseFrame m lim big bs = .err e rest) : rest.length ≤ bs.length :=
  (tails_frame m lim big bs).2 e rest h

theorem dfDecoder_safe (N : Nat) : DecSafe dfDecoder (fun c => c.maxDf ≤ u32Max) (fun _ => 0) N := by
  intro c bs hc _
  have hd := DfCodec.decode_eq c hc bs
  unfold dfDecoder
  cases hp : parseFrame c.isServer c.maxDf bigErr bs with
  | ok f rest =>
    have := parseFrame_lt hp
    rw [hp] at hd
    rw [hd]
    exact ⟨rfl, hc, by simp only; omega⟩
  | err e rest =>
    have := parseFrame_err_len hp
    rw [hp] at hd
    rw [hd]
    refine ⟨rfl, hc, ?_⟩
    simp only
    split <;> omega
  | more =>
    rw [hp] at hd
    rw [hd]
    exact ⟨rfl, hc, Nat.le_refl _⟩

theorem msgDecoder_safe : DecSafe msgDecoder (fun c => c.df.maxDf ≤ u32Max) (fun c => heldLen c.buffer) isizeMax := by
  intro c bs hc hN
  have key : ∀ (b : List DataFrame) (cur : Nat) (bs : Bytes), match pLoop c.cfg b cur bs with
      | .msg fs b' rest => heldLen fs ≤ heldLen b + bs.length ∧ heldLen b' + rest.length ≤ heldLen b + bs.length
      | .fail _ b' rest => heldLen b' + rest.length ≤ heldLen b + bs.length
      | .bad _ b' start rest => heldLen b' + start.length ≤ heldLen b + bs.length ∧ rest.length ≤ start.length
      | .more b' _ left => heldLen b' + left.length ≤ heldLen b + bs.length := by
    intro b cur bs
    fun_induction pLoop c.cfg b cur bs with
    | case1 b cur bs f rest h fs b' hs =>
      have hl := parseFrame_lt h
      have hg := asyncStep_grow c.maxMsg b cur f
      have hs : asyncStep c.maxMsg b cur f = .msg fs b' := hs
      rw [hs] at hg
      have := hg.1
      have := hg.2
      exact ⟨by omega, by omega⟩
    | case2 b cur bs f rest h e b' hs =>
      have hl := parseFrame_lt h
      have hg := asyncStep_grow c.maxMsg b cur f
      have hs : asyncStep c.maxMsg b cur f = .fail e b' := hs
      rw [hs] at hg
      have : heldLen b' ≤ _ := hg
      show heldLen b' + _ ≤ _
      omega
    | case3 b cur bs f rest h b' cur' hs ih =>
      have hl := parseFrame_lt h
      have hg := asyncStep_grow c.maxMsg b cur f
      have hs : asyncStep c.maxMsg b cur f = .next b' cur' := hs
      rw [hs] at hg
      have : heldLen b' ≤ _ := hg
      cases hp : pLoop c.cfg b' cur' rest <;> rw [hp] at ih <;> simp only at ih ⊢ <;> omega
    | case4 b cur bs e rest h => exact ⟨Nat.le_refl _, parseFrame_err_len h⟩
    | case5 b cur bs h => exact Nat.le_refl _
  have key := key c.buffer (heldLen c.buffer) bs
  unfold msgDecoder
  rw [MsgCodec.decode_eq c hc]
  cases hp : pLoop c.cfg c.buffer (heldLen c.buffer) bs with
  | msg fs b rest =>
    rw [hp] at key
    refine ⟨?_, hc, key.2⟩
    have := fromFrames_no_panic (fs := fs) (Nat.le_trans key.1 hN)
    simp only [asyncOut]
    cases hf : OwnedMsg.fromDataframes (fs.map DataFrame.view) with
    | ok m => rfl
    | err e => rfl
    | panic e => rw [hf] at this; simp at this
  | fail e b rest => rw [hp] at key; exact ⟨rfl, hc, key⟩
  | bad e b start rest =>
    rw [hp] at key
    refine ⟨rfl, hc, ?_⟩
    obtain ⟨k1, k2⟩ := key
    simp only
    split <;> omega
  | more b cur left => rw [hp] at key; exact ⟨rfl, hc, key⟩

end WS
