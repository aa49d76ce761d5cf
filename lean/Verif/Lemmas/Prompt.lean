import Verif.Lemmas.Framed
import Verif.Model.Receiver
import Verif.Model.HttpCodec
import Verif.Lemmas.Head
/-! What a receive call answered does not depend on what the transport does afterwards. -/

namespace WS

open Spec (FirstBlank)

/-! ### Blocking -/

/-- An answer other than "no data" is given without looking at, or taking, anything that comes after the script `s`. -/
def Rd.Local {α} (m : Rd α) : Prop :=
  ∀ s t r s', m s = (r, s') → r ≠ .err .noData → m (s ++ t) = (r, s' ++ t)

theorem readExact_zero (s : Src) : readExact 0 s = (.ok [], s) := by
  cases s with
  | nil => rfl
  | cons e s => cases e <;> rfl

theorem takeToEnd_zero (s : Src) : takeToEnd 0 s = (.ok [], s) := by
  cases s with
  | nil => rfl
  | cons e s => cases e <;> rfl

theorem readExact_prompt (n : Nat) (s t : Src) (r : Except IoKind Bytes) (s' : Src) (h : readExact n s = (r, s'))
    (hr : r ≠ .error .unexpectedEof) : readExact n (s ++ t) = (r, s' ++ t) := by
  induction s generalizing n r s' with
  | nil =>
    unfold readExact at h
    split at h
    · next hn => subst hn; cases h; exact readExact_zero _
    · cases h; exact absurd rfl hr
  | cons e s ih =>
    cases e with
    | error k =>
      rw [List.cons_append]
      unfold readExact at h ⊢
      by_cases hn : n = 0
      · simp only [hn, if_true] at h ⊢; cases h; rfl
      · simp only [hn, if_false] at h ⊢
        by_cases hk : k = .interrupted
        · simp only [hk, if_true] at h ⊢; exact ih _ _ _ h hr
        · simp only [hk, if_false] at h ⊢; cases h; rfl
    | chunk b =>
      rw [List.cons_append]
      unfold readExact at h ⊢
      by_cases hn : n = 0
      · simp only [hn, if_true] at h ⊢; cases h; rfl
      · simp only [hn, if_false] at h ⊢
        by_cases hb : b = []
        · simp only [hb, if_true] at h ⊢; cases h; rfl
        · simp only [hb, if_false] at h ⊢
          by_cases hl : b.length ≤ n
          · simp only [hl, if_true] at h ⊢
            cases hc : readExact (n - b.length) s with
            | mk r1 s1 =>
              rw [hc] at h
              cases r1 with
              | ok bs => rw [ih _ _ _ hc (by simp)]; cases h; rfl
              | error k => cases h; rw [ih _ _ _ hc hr]
          · simp only [hl, if_false] at h ⊢; cases h; rfl

theorem takeToEnd_prompt (n : Nat) (s t : Src) (r : Except IoKind Bytes) (s' : Src) (h : takeToEnd n s = (r, s'))
    (hr : ∀ b, r = .ok b → n ≤ b.length) : takeToEnd n (s ++ t) = (r, s' ++ t) := by
  induction s generalizing n r s' with
  | nil =>
    unfold takeToEnd at h
    cases h
    have := hr [] rfl
    have hn : n = 0 := by simpa using this
    subst hn; exact takeToEnd_zero _
  | cons e s ih =>
    cases e with
    | error k =>
      rw [List.cons_append]
      unfold takeToEnd at h ⊢
      by_cases hn : n = 0
      · simp only [hn, if_true] at h ⊢; cases h; rfl
      · simp only [hn, if_false] at h ⊢
        by_cases hk : k = .interrupted
        · simp only [hk, if_true] at h ⊢; exact ih _ _ _ h hr
        · simp only [hk, if_false] at h ⊢; cases h; rfl
    | chunk b =>
      rw [List.cons_append]
      unfold takeToEnd at h ⊢
      by_cases hn : n = 0
      · simp only [hn, if_true] at h ⊢; cases h; rfl
      · simp only [hn, if_false] at h ⊢
        by_cases hb : b = []
        · simp only [hb, if_true] at h ⊢; cases h; rfl
        · simp only [hb, if_false] at h ⊢
          by_cases hl : b.length ≤ n
          · simp only [hl, if_true] at h ⊢
            cases hc : takeToEnd (n - b.length) s with
            | mk r1 s1 =>
              rw [hc] at h
              cases r1 with
              | ok bs =>
                cases h
                rw [ih _ _ _ hc (by
                  intro b' hb'; cases hb'
                  have := hr _ rfl
                  rw [List.length_append] at this; omega)]
              | error k => cases h; rw [ih _ _ _ hc (by intro b hb; cases hb)]
          · simp only [hl, if_false] at h ⊢; cases h; rfl

theorem ofIo_noData {k : IoKind} (h : k ≠ .unexpectedEof) : WsErr.ofIo k ≠ .noData := by
  cases k <;> simp_all [WsErr.ofIo]

theorem Rd.Local.exact (n : Nat) : (Rd.exact n).Local := by
  intro s t r s' h hr
  unfold Rd.exact at h ⊢
  cases hc : readExact n s with
  | mk r1 s1 =>
    rw [hc] at h
    cases r1 with
    | ok b => rw [readExact_prompt n s t _ _ hc (by simp)]; cases h; rfl
    | error k =>
      cases h
      rw [readExact_prompt n s t _ _ hc (by intro hk; cases hk; exact hr rfl)]

theorem Rd.Local.pure {α} (a : α) : (Pure.pure a : Rd α).Local := by
  intro s t r s' h _; cases h; rfl

theorem Rd.Local.fail {α} (e : WsErr) : (Rd.fail e : Rd α).Local := by
  intro s t r s' h _; cases h; rfl

theorem Rd.Local.lift {α} (r : Res α) : (Rd.lift r).Local := by
  intro s t r s' h _; cases h; rfl

theorem Rd.Local.bind {α β} {m : Rd α} {f : α → Rd β} (hm : m.Local) (hf : ∀ a, (f a).Local) : (m >>= f).Local := by
  intro s t r s' h hr
  change Rd.bind m f s = (r, s') at h
  change Rd.bind m f (s ++ t) = _
  unfold Rd.bind at h ⊢
  cases hc : m s with
  | mk r1 s1 =>
    rw [hc] at h
    cases r1 with
    | ok a => rw [hm s t _ _ hc (by simp)]; exact hf a s1 t r s' h hr
    | err e => cases h; rw [hm s t _ _ hc (by intro h; cases h; exact hr rfl)]
    | panic e => cases h; rw [hm s t _ _ hc (by simp)]

theorem Rd.Local.ite {α} {c : Prop} [Decidable c] {m m' : Rd α} (h : m.Local) (h' : m'.Local) : (if c then m else m').Local := by
  split <;> assumption

theorem Rd.Local.u8 : Rd.u8.Local := .bind (.exact 1) fun _ => .pure _
theorem Rd.Local.u16 : Rd.u16.Local := .bind (.exact 2) fun _ => .pure _
theorem Rd.Local.u64 : Rd.u64.Local := .bind (.exact 8) fun _ => .pure _

theorem readLen_prompt (b : UInt8) : (readLen b).Local :=
  .ite (.pure _) (.ite (.bind .u16 fun _ => .ite (.fail _) (.pure _)) (.bind .u64 fun _ => .ite (.fail _) (.pure _)))

theorem readMask_prompt (b : UInt8) : (readMask b).Local :=
  .ite (.bind .u8 fun _ => .bind .u8 fun _ => .bind .u8 fun _ => .bind .u8 fun _ => .pure _) (.pure _)

theorem readHeader_prompt : readHeader.Local :=
  .bind .u8 fun _ => .bind .u8 fun _ => .bind (readLen_prompt _) fun _ =>
    .ite (.fail _) (.ite (.fail _) (.bind (readMask_prompt _) fun _ => .pure _))

theorem vecWithCapacity_prompt (n : Nat) : (vecWithCapacity n).Local := .ite (.lift _) (.pure _)

theorem readPayload_prompt (n : Nat) : (readPayload n).Local := by
  intro s t r s' h hr
  unfold readPayload at h ⊢
  cases hc : takeToEnd n s with
  | mk r1 s1 =>
    rw [hc] at h
    cases r1 with
    | ok b =>
      by_cases hl : b.length < n
      · simp only [hl, if_true] at h; cases h; exact absurd rfl hr
      · simp only [hl, if_false] at h; cases h
        rw [takeToEnd_prompt n s t _ _ hc (by intro b' hb; cases hb; omega)]
        simp only [hl, if_false]
    | error k => cases h; rw [takeToEnd_prompt n s t _ _ hc (by intro b hb; cases hb)]

theorem readDataframe_prompt (m : Bool) : (readDataframe m).Local :=
  .bind readHeader_prompt fun _ => .bind (vecWithCapacity_prompt _) fun _ => .bind (readPayload_prompt _) fun _ => .lift _

theorem readDataframeWithLimit_prompt (m : Bool) (n : Nat) : (readDataframeWithLimit m n).Local :=
  .bind readHeader_prompt fun _ => .ite (.fail _)
    (.bind (vecWithCapacity_prompt _) fun _ => .bind (readPayload_prompt _) fun _ => .lift _)

theorem recvDataframe_prompt (r : Receiver) : Rd.Local (r.recvDataframe) := readDataframeWithLimit_prompt _ _

theorem recvLoop_prompt (r : Receiver) (cur : Nat) (s t : Src) (x : Res (List DataFrame)) (r' : Receiver) (s' : Src)
    (h : recvLoop r cur s = (x, r', s')) (hx : x ≠ .err .noData) : recvLoop r cur (s ++ t) = (x, r', s' ++ t) := by
  fun_induction recvLoop r cur s with
  | case1 r cur s next s1 hd ho r1 hf =>
    simp only [Prod.mk.injEq] at h
    rw [recvLoop.eq_def, recvDataframe_prompt r s t _ _ hd (by simp), ← h.1, ← h.2.1, ← h.2.2]
    simp only [ho, if_true, hf, r1]
  | case2 r cur s next s1 hd ho r1 hf hl =>
    simp only [Prod.mk.injEq] at h
    rw [recvLoop.eq_def, recvDataframe_prompt r s t _ _ hd (by simp), ← h.1, ← h.2.1, ← h.2.2]
    simp only [r1] at hl ⊢
    simp only [ho, if_true, hf, hl, Bool.false_eq_true, if_false]
  | case3 r cur s next s1 hd ho cur1 r1 hf hl hc =>
    simp only [Prod.mk.injEq] at h
    rw [recvLoop.eq_def, recvDataframe_prompt r s t _ _ hd (by simp), ← h.1, ← h.2.1, ← h.2.2]
    simp only [cur1, r1] at hl hc ⊢
    simp only [ho, if_true, hf, hl, hc, Bool.false_eq_true, if_false]
  | case4 r cur s next s1 hd ho cur1 r1 hf hl hc ih =>
    rw [recvLoop.eq_def, recvDataframe_prompt r s t _ _ hd (by simp)]
    have := ih h
    simp only [cur1, r1] at hl hc this ⊢
    simp only [ho, hf, hl, hc, if_true, if_false, Bool.false_eq_true]
    exact this
  | case5 r cur s next s1 hd ho ho' =>
    simp only [Prod.mk.injEq] at h
    rw [recvLoop.eq_def, recvDataframe_prompt r s t _ _ hd (by simp), ← h.1, ← h.2.1, ← h.2.2]
    simp only [ho, if_false, ho', if_true, and_self]
  | case6 r cur s next s1 hd ho ho' =>
    simp only [Prod.mk.injEq] at h
    rw [recvLoop.eq_def, recvDataframe_prompt r s t _ _ hd (by simp), ← h.1, ← h.2.1, ← h.2.2]
    simp only [ho, if_false, ho']
  | case7 r cur s e s1 hd =>
    simp only [Prod.mk.injEq] at h
    rw [recvLoop.eq_def, recvDataframe_prompt r s t _ _ hd (by intro h'; cases h'; exact hx h.1.symm), ← h.1, ← h.2.1, ← h.2.2]
  | case8 r cur s e s1 hd =>
    simp only [Prod.mk.injEq] at h
    rw [recvLoop.eq_def, recvDataframe_prompt r s t _ _ hd (by simp), ← h.1, ← h.2.1, ← h.2.2]

theorem recvMessageDataframes_prompt (r : Receiver) (s t : Src) (x : Res (List DataFrame)) (r' : Receiver) (s' : Src)
    (h : r.recvMessageDataframes s = (x, r', s')) (hx : x ≠ .err .noData) :
    r.recvMessageDataframes (s ++ t) = (x, r', s' ++ t) := by
  unfold Receiver.recvMessageDataframes at h ⊢
  by_cases hb : r.buffer = []
  · simp only [hb, if_true] at h ⊢
    cases hd : r.recvDataframe s with
    | mk y s1 =>
      rw [hd] at h
      cases y with
      | ok first =>
        rw [recvDataframe_prompt r s t _ _ hd (by simp)]
        simp only at h ⊢
        by_cases h1 : first.opcode = .continuation
        · simp only [h1, if_true] at h ⊢; cases h; rfl
        · simp only [h1, if_false] at h ⊢
          by_cases h2 : first.finished = true
          · simp only [h2, if_true] at h ⊢; cases h; rfl
          · simp only [h2, if_false, Bool.false_eq_true] at h ⊢
            exact recvLoop_prompt _ _ _ _ _ _ _ h hx
      | err e => cases h; rw [recvDataframe_prompt r s t _ _ hd (by intro h; cases h; exact hx rfl)]
      | panic e => cases h; rw [recvDataframe_prompt r s t _ _ hd (by simp)]
  · simp only [hb, if_false] at h ⊢
    exact recvLoop_prompt _ _ _ _ _ _ _ h hx

theorem recvMessage_prompt (r : Receiver) (s t : Src) (x : Res OwnedMsg) (r' : Receiver) (s' : Src)
    (h : r.recvMessage s = (x, r', s')) (hx : x ≠ .err .noData) : r.recvMessage (s ++ t) = (x, r', s' ++ t) := by
  unfold Receiver.recvMessage at h ⊢
  cases hd : r.recvMessageDataframes s with
  | mk y p =>
    obtain ⟨r1, s1⟩ := p
    rw [hd] at h
    cases y with
    | ok fs => rw [recvMessageDataframes_prompt r s t _ _ _ hd (by simp)]; cases h; rfl
    | err e => cases h; rw [recvMessageDataframes_prompt r s t _ _ _ hd (by intro h; cases h; exact hx rfl)]
    | panic e => cases h; rw [recvMessageDataframes_prompt r s t _ _ _ hd (by simp)]

theorem recvMany_prompt (n : Nat) (r : Receiver) (s t : Src) (xs : List (Res OwnedMsg)) (r' : Receiver) (s' : Src)
    (h : r.recvMany n s = (xs, r', s')) (hx : .err .noData ∉ xs) : r.recvMany n (s ++ t) = (xs, r', s' ++ t) := by
  induction n generalizing r s xs with
  | zero => cases h; rfl
  | succ n ih =>
    unfold Receiver.recvMany at h ⊢
    cases h1 : r.recvMessage s with
    | mk x p =>
      obtain ⟨r1, s1⟩ := p
      cases h2 : r1.recvMany n s1 with
      | mk ys p =>
        obtain ⟨r2, s2⟩ := p
        simp only [h1, h2] at h
        cases h
        rw [recvMessage_prompt r s t _ _ _ h1 (by intro h; subst h; simp at hx)]
        simp only
        rw [ih r1 s1 ys h2 (by simp at hx; exact hx.2)]

/-! ### Async -/

section
variable {σ α : Type} {dec : Decoder σ α}

theorem pollEof_eof (fr : Framed σ) : (Framed.pollEof dec fr).2.eof = fr.eof := by
  unfold Framed.pollEof; split <;> rfl

theorem pollRead_mono (fr : Framed σ) (s : Src) (h : (fr.pollRead dec s).2.1.eof = false) : fr.eof = false := by
  induction s generalizing fr with
  | nil => unfold Framed.pollRead at h; simp only [pollEof_eof] at h; cases h
  | cons e s ih =>
    cases e with
    | error k => unfold Framed.pollRead at h; split at h <;> exact h
    | chunk b =>
      unfold Framed.pollRead at h
      split at h
      · simp only [pollEof_eof] at h; cases h
      · split at h
        · exact h
        · exact (ih _ h :)
        · exact h
        · exact h

theorem poll_mono (fr : Framed σ) (s : Src) (h : (fr.poll dec s).2.1.eof = false) : fr.eof = false := by
  unfold Framed.poll at h
  split at h
  · split at h
    · simp only [pollEof_eof] at h; exact h
    · split at h
      · exact h
      · exact (pollRead_mono _ _ h :)
      · exact h
      · exact h
  · exact pollRead_mono _ _ h

theorem pollRead_prompt (fr fr' : Framed σ) (s s' t : Src) (x : Poll α) (h : fr.pollRead dec s = (x, fr', s'))
    (he : fr'.eof = false) : fr.pollRead dec (s ++ t) = (x, fr', s' ++ t) := by
  induction s generalizing fr with
  | nil =>
    exfalso
    unfold Framed.pollRead at h
    simp only [Prod.mk.injEq] at h
    rw [← h.2.1, pollEof_eof] at he
    cases he
  | cons e s ih =>
    rw [List.cons_append]
    cases e with
    | error k =>
      unfold Framed.pollRead at h ⊢
      by_cases hk : k = .wouldBlock
      · simp only [hk, if_true] at h ⊢; cases h; rfl
      · simp only [hk, if_false] at h ⊢; cases h; rfl
    | chunk b =>
      unfold Framed.pollRead at h ⊢
      by_cases hb : b = []
      · simp only [hb, if_true] at h ⊢; cases h; rfl
      · simp only [hb, if_false] at h ⊢
        cases hd : dec fr.codec (fr.buf ++ b) with
        | mk y p =>
          obtain ⟨c, b'⟩ := p
          rw [hd] at h
          cases y with
          | ok o =>
            cases o with
            | some a => simp only at h ⊢; cases h; rfl
            | none => exact ih _ h
          | err e => simp only at h ⊢; cases h; rfl
          | panic e => simp only at h ⊢; cases h; rfl

theorem poll_prompt (fr fr' : Framed σ) (s s' t : Src) (x : Poll α) (h : fr.poll dec s = (x, fr', s'))
    (he : fr'.eof = false) : fr.poll dec (s ++ t) = (x, fr', s' ++ t) := by
  have hm : fr.eof = false := poll_mono (dec := dec) fr s (by rw [h]; exact he)
  unfold Framed.poll at h ⊢
  by_cases hr : fr.readable = true
  · simp only [hr, if_true, hm, Bool.false_eq_true, if_false] at h ⊢
    cases hd : dec fr.codec fr.buf with
    | mk y p =>
      obtain ⟨c, b'⟩ := p
      rw [hd] at h
      cases y with
      | ok o =>
        cases o with
        | some a => simp only at h ⊢; cases h; rfl
        | none => exact pollRead_prompt _ _ _ _ _ _ h he
      | err e => simp only at h ⊢; cases h; rfl
      | panic e => simp only at h ⊢; cases h; rfl
  · simp only [hr, if_false, Bool.false_eq_true] at h ⊢
    exact pollRead_prompt _ _ _ _ _ _ h he

theorem next_mono (fr : Framed σ) (s : Src) (h : (fr.next dec s).2.1.eof = false) : fr.eof = false := by
  fun_induction Framed.next dec fr s with
  | case1 fr s x fr' s' hp => exact poll_mono (dec := dec) fr s (by rw [hp]; exact h)
  | case2 fr s fr' s' hp ih => exact poll_mono (dec := dec) fr s (by rw [hp]; exact ih h)

theorem next_prompt (fr fr' : Framed σ) (s s' t : Src) (x : Item α) (h : fr.next dec s = (x, fr', s'))
    (he : fr'.eof = false) : fr.next dec (s ++ t) = (x, fr', s' ++ t) := by
  fun_induction Framed.next dec fr s with
  | case1 fr s x1 fr1 s1 hp =>
    simp only [Prod.mk.injEq] at h
    obtain ⟨rfl, rfl, rfl⟩ := h
    rw [Framed.next.eq_def, poll_prompt _ _ _ _ t _ hp he]
  | case2 fr s fr1 s1 hp ih =>
    have hm : fr1.eof = false := next_mono (dec := dec) fr1 s1 (by rw [h]; exact he)
    rw [Framed.next.eq_def, poll_prompt _ _ _ _ t _ hp hm]
    exact ih h

theorem nextMany_mono (n : Nat) (fr : Framed σ) (s : Src) (h : (fr.nextMany dec n s).2.1.eof = false) : fr.eof = false := by
  induction n generalizing fr s with
  | zero => exact h
  | succ n ih => exact next_mono (dec := dec) fr s (ih _ _ h)

theorem nextMany_prompt (n : Nat) (fr fr' : Framed σ) (s s' t : Src) (xs : List (Item α))
    (h : fr.nextMany dec n s = (xs, fr', s')) (he : fr'.eof = false) :
    fr.nextMany dec n (s ++ t) = (xs, fr', s' ++ t) := by
  induction n generalizing fr s xs with
  | zero => cases h; rfl
  | succ n ih =>
    unfold Framed.nextMany at h ⊢
    cases h1 : fr.next dec s with
    | mk x p =>
      obtain ⟨fr1, s1⟩ := p
      cases h2 : fr1.nextMany dec n s1 with
      | mk ys p =>
        obtain ⟨fr2, s2⟩ := p
        simp only [h1, h2] at h
        cases h
        rw [next_prompt _ _ _ _ t _ h1 (nextMany_mono (dec := dec) n fr1 s1 (by rw [h2]; exact he))]
        simp only
        rw [ih fr1 s1 ys h2]

/-- Nothing is left to do for the decoder. -/
def Idle (dec : Decoder σ α) (fr : Framed σ) : Prop :=
  dec fr.codec fr.buf = (.ok none, fr.codec, fr.buf)

/-- A decoder that asked for more asks for more again. -/
structure Settles (dec : Decoder σ α) (P : σ → Prop) : Prop where
  inv : ∀ c bs, P c → P (dec c bs).2.1
  idle : ∀ {c bs c' left}, P c → dec c bs = (.ok none, c', left) → dec c' left = (.ok none, c', left)

theorem Chunkable.settles {P : σ → Prop} {good : Res (Option α) → Prop} (hd : Chunkable dec P good) : Settles dec P :=
  ⟨hd.inv, fun hP h => hd.idle hP h⟩

variable {P : σ → Prop}

theorem pollRead_item (hd : Settles dec P) (fr fr' : Framed σ) (s s' : Src) (a : α) (hP : P fr.codec)
    (hi : Idle dec fr) (he : fr.eof = false)
    (h : fr.pollRead dec s = (.ready (.item a), fr', s')) : fr'.eof = false := by
  induction s generalizing fr with
  | nil =>
    exfalso
    unfold Framed.pollRead at h
    rw [pollEof_eq] at h
    unfold decNext at h
    unfold Idle at hi
    simp only [hi] at h
    split at h <;> simp at h
  | cons e s ih =>
    cases e with
    | error k => unfold Framed.pollRead at h; split at h <;> simp at h
    | chunk b =>
      unfold Framed.pollRead at h
      split at h
      · rw [pollEof_eq] at h
        unfold decNext at h
        unfold Idle at hi
        simp only [hi] at h
        split at h <;> simp at h
      · cases hdec : dec fr.codec (fr.buf ++ b) with
        | mk y p =>
          obtain ⟨c, b'⟩ := p
          rw [hdec] at h
          cases y with
          | ok o =>
            cases o with
            | some a' =>
              simp only [Prod.mk.injEq] at h
              rw [← h.2.1]; exact he
            | none =>
              have hc : P c := by have := hd.inv fr.codec (fr.buf ++ b) hP; rw [hdec] at this; exact this
              exact ih _ (by exact hc) (by exact hd.idle hP hdec) (by exact he) h
          | err e => simp at h
          | panic e => simp at h

theorem pollRead_waits (hd : Settles dec P) (fr fr' : Framed σ) (s s' : Src) (hP : P fr.codec)
    (hi : Idle dec fr) (h : fr.pollRead dec s = (.notReady, fr', s')) :
    (∃ p, s = p ++ .error .wouldBlock :: s') ∧ Idle dec fr' ∧ P fr'.codec ∧ fr'.eof = fr.eof := by
  induction s generalizing fr with
  | nil => unfold Framed.pollRead at h; simp at h
  | cons e s ih =>
    cases e with
    | error k =>
      unfold Framed.pollRead at h
      by_cases hk : k = .wouldBlock
      · simp only [hk, if_true, Prod.mk.injEq, true_and] at h
        obtain ⟨rfl, rfl⟩ := h
        exact ⟨⟨[], by rw [hk]; rfl⟩, hi, hP, rfl⟩
      · simp [hk] at h
    | chunk b =>
      unfold Framed.pollRead at h
      split at h
      · simp at h
      · cases hdec : dec fr.codec (fr.buf ++ b) with
        | mk y p =>
          obtain ⟨c, b'⟩ := p
          rw [hdec] at h
          cases y with
          | ok o =>
            cases o with
            | some a' => simp at h
            | none =>
              have hc : P c := by have := hd.inv fr.codec (fr.buf ++ b) hP; rw [hdec] at this; exact this
              obtain ⟨⟨p, hp⟩, h2⟩ := ih _ (by exact hc) (by exact hd.idle hP hdec) h
              exact ⟨⟨.chunk b :: p, by rw [hp]; rfl⟩, h2⟩
          | err e => simp at h
          | panic e => simp at h

/-- A state in which the decoder has seen what is buffered, or will be asked at the next poll. -/
def Awake (dec : Decoder σ α) (fr : Framed σ) : Prop := fr.readable = false → Idle dec fr

theorem poll_item (hd : Settles dec P) (fr fr' : Framed σ) (s s' : Src) (a : α) (hP : P fr.codec)
    (hi : Awake dec fr) (he : fr.eof = false)
    (h : fr.poll dec s = (.ready (.item a), fr', s')) : fr'.eof = false := by
  obtain ⟨c0, b0, rd, ef⟩ := fr
  cases (show ef = false from he)
  unfold Framed.poll at h
  cases rd with
  | true =>
    simp only [if_true, Bool.false_eq_true, if_false] at h
    cases hdec : dec c0 b0 with
    | mk y p =>
      obtain ⟨c, b'⟩ := p
      rw [hdec] at h
      cases y with
      | ok o =>
        cases o with
        | some a' => simp only [Prod.mk.injEq] at h; rw [← h.2.1]
        | none =>
          have hc : P c := by have := hd.inv c0 b0 hP; rw [hdec] at this; exact this
          exact pollRead_item hd ⟨c, b', false, false⟩ _ _ _ _ hc (hd.idle hP hdec) rfl h
      | err e => simp at h
      | panic e => simp at h
  | false =>
    simp only [if_false, Bool.false_eq_true] at h
    exact pollRead_item hd _ _ _ _ _ hP (hi rfl) rfl h

theorem poll_waits (hd : Settles dec P) (fr fr' : Framed σ) (s s' : Src) (hP : P fr.codec)
    (hi : Awake dec fr) (h : fr.poll dec s = (.notReady, fr', s')) :
    (∃ p, s = p ++ .error .wouldBlock :: s') ∧ Idle dec fr' ∧ P fr'.codec ∧ fr'.eof = fr.eof := by
  obtain ⟨c0, b0, rd, ef⟩ := fr
  unfold Framed.poll at h
  cases rd with
  | true =>
    cases ef with
    | true => simp at h
    | false =>
      simp only [if_true, Bool.false_eq_true, if_false] at h
      cases hdec : dec c0 b0 with
      | mk y p =>
        obtain ⟨c, b'⟩ := p
        rw [hdec] at h
        cases y with
        | ok o =>
          cases o with
          | some a' => simp at h
          | none =>
            have hc : P c := by have := hd.inv c0 b0 hP; rw [hdec] at this; exact this
            exact pollRead_waits hd ⟨c, b', false, false⟩ _ _ _ hc (hd.idle hP hdec) h
        | err e => simp at h
        | panic e => simp at h
  | false =>
    simp only [if_false, Bool.false_eq_true] at h
    exact pollRead_waits hd _ _ _ _ hP (hi rfl) h

/-- Every poll leaves the stream in a state in which nothing buffered can be overlooked. -/
theorem pollEof_awake (hd : Settles dec P) (c : σ) (b : Bytes) (ef : Bool) (hP : P c) :
    Awake dec (Framed.pollEof dec ⟨c, b, true, ef⟩).2 ∧ P (Framed.pollEof dec ⟨c, b, true, ef⟩).2.codec := by
  have hc := hd.inv c b hP
  rw [pollEof_eq]
  refine ⟨fun h => (by cases h), ?_⟩
  unfold decNext
  cases hdec : dec c b with
  | mk y p =>
    obtain ⟨c', b'⟩ := p
    rw [hdec] at hc
    cases y with
    | ok o => cases o <;> exact hc
    | err e => exact hc
    | panic e => exact hc

theorem pollRead_awake (hd : Settles dec P) (fr : Framed σ) (s : Src) (hP : P fr.codec)
    (hi : Idle dec fr) :
    Awake dec (fr.pollRead dec s).2.1 ∧ P (fr.pollRead dec s).2.1.codec := by
  induction s generalizing fr with
  | nil => exact pollEof_awake hd _ _ _ hP
  | cons e s ih =>
    cases e with
    | error k => unfold Framed.pollRead; split <;> exact ⟨fun _ => hi, hP⟩
    | chunk b =>
      unfold Framed.pollRead
      split
      · exact pollEof_awake hd _ _ _ hP
      · have hc := hd.inv fr.codec (fr.buf ++ b) hP
        cases hdec : dec fr.codec (fr.buf ++ b) with
        | mk y p =>
          obtain ⟨c, b'⟩ := p
          rw [hdec] at hc
          cases y with
          | ok o =>
            cases o with
            | some a' => exact ⟨fun h => (by cases h), hc⟩
            | none => exact ih ⟨c, b', false, fr.eof⟩ hc (hd.idle hP hdec)
          | err e => exact ⟨fun h => (by cases h), hc⟩
          | panic e => exact ⟨fun h => (by cases h), hc⟩

theorem poll_awake (hd : Settles dec P) (fr : Framed σ) (s : Src) (hP : P fr.codec)
    (hi : Awake dec fr) :
    Awake dec (fr.poll dec s).2.1 ∧ P (fr.poll dec s).2.1.codec := by
  obtain ⟨c0, b0, rd, ef⟩ := fr
  have hc := hd.inv c0 b0 hP
  unfold Framed.poll
  cases rd with
  | true =>
    cases ef with
    | true => exact pollEof_awake hd _ _ _ hP
    | false =>
      simp only [if_true, Bool.false_eq_true, if_false]
      cases hdec : dec c0 b0 with
      | mk y p =>
        obtain ⟨c, b'⟩ := p
        rw [hdec] at hc
        cases y with
        | ok o =>
          cases o with
          | some a' => exact ⟨fun h => (by cases h), hc⟩
          | none => exact pollRead_awake hd ⟨c, b', false, false⟩ _ hc (hd.idle hP hdec)
        | err e => exact ⟨fun h => (by cases h), hc⟩
        | panic e => exact ⟨fun h => (by cases h), hc⟩
  | false =>
    simp only [if_false, Bool.false_eq_true]
    exact pollRead_awake hd _ _ hP (hi rfl)

theorem next_item (hd : Settles dec P) (fr fr' : Framed σ) (s s' : Src) (a : α) (hP : P fr.codec)
    (hi : Awake dec fr) (he : fr.eof = false) (h : fr.next dec s = (.item a, fr', s')) :
    fr'.eof = false ∧ Awake dec fr' ∧ P fr'.codec := by
  fun_induction Framed.next dec fr s with
  | case1 fr s x1 fr1 s1 hp =>
    simp only [Prod.mk.injEq] at h
    obtain ⟨rfl, rfl, rfl⟩ := h
    have := poll_awake hd fr s hP hi
    rw [hp] at this
    exact ⟨poll_item hd _ _ _ _ _ hP hi he hp, this⟩
  | case2 fr s fr1 s1 hp ih =>
    obtain ⟨_, h1, h2, h3⟩ := poll_waits hd _ _ _ _ hP hi hp
    exact ih h2 (fun _ => h1) (h3.trans he) h

theorem nextMany_items (hd : Settles dec P) (n : Nat) (fr fr' : Framed σ) (s s' : Src) (as : List α) (hP : P fr.codec)
    (hi : Awake dec fr) (he : fr.eof = false) (h : fr.nextMany dec n s = (as.map Item.item, fr', s')) :
    fr'.eof = false ∧ Awake dec fr' ∧ P fr'.codec := by
  induction n generalizing fr s as with
  | zero => unfold Framed.nextMany at h; simp only [Prod.mk.injEq] at h; rw [← h.2.1]; exact ⟨he, hi, hP⟩
  | succ n ih =>
    unfold Framed.nextMany at h
    cases h1 : fr.next dec s with
    | mk x p =>
      obtain ⟨fr1, s1⟩ := p
      cases h2 : fr1.nextMany dec n s1 with
      | mk ys p =>
        obtain ⟨fr2, s2⟩ := p
        simp only [h1, h2, Prod.mk.injEq] at h
        obtain ⟨ha, rfl, rfl⟩ := h
        cases as with
        | nil => cases ha
        | cons a as =>
          simp only [List.map_cons, List.cons.injEq] at ha
          obtain ⟨rfl, rfl⟩ := ha
          obtain ⟨e1, e2, e3⟩ := next_item hd _ _ _ _ _ hP hi he h1
          exact ih fr1 s1 as e3 e2 e1 h2

end

/-! ### Heads -/

section
variable {R : Type} [HasSrc R]

/-- The same buffer over a transport that goes on with `t`. -/
def BufReader.later (t : Src) (b : BufReader R) : BufReader R :=
  { b with inner := HasSrc.set b.inner (HasSrc.get b.inner ++ t) }

theorem read1_prompt (n : Nat) (s t : Src) (r : Except IoKind Bytes) (s' : Src) (h : read1 n s = (r, s')) (hr : r ≠ .ok []) :
    read1 n (s ++ t) = (r, s' ++ t) := by
  cases s with
  | nil => cases h; exact absurd rfl hr
  | cons e s =>
    rw [List.cons_append]
    cases e with
    | error k => cases h; rfl
    | chunk b =>
      unfold read1 at h ⊢
      by_cases hl : b.length ≤ n
      · simp only [hl, if_true] at h ⊢; cases h; rfl
      · simp only [hl, if_false] at h ⊢; cases h; rfl

theorem later_reserve (t : Src) (b : BufReader R) : (b.later t).maybeReserve = b.maybeReserve.later t := by
  unfold BufReader.later BufReader.maybeReserve
  by_cases h : b.cap = b.buf.length ∧ b.buf.length < maxBufferSize
  · simp only [h, and_self, if_true]
  · simp only [h, if_false]

theorem readIntoBuf_prompt (b b' : BufReader R) (t : Src) (r : Except IoKind Nat) (h : b.readIntoBuf = (r, b')) (hr : r ≠ .ok 0) :
    (b.later t).readIntoBuf = (r, b'.later t) := by
  unfold BufReader.readIntoBuf at h ⊢
  simp only [later_reserve] at h ⊢
  generalize b.maybeReserve = b1 at h ⊢
  simp only [BufReader.later] at h ⊢
  by_cases hl : b1.cap < b1.buf.length
  · simp only [hl, if_true, HasSrc.get_set] at h ⊢
    cases hc : read1 (b1.buf.length - b1.cap) (HasSrc.get b1.inner) with
    | mk y s =>
      rw [hc] at h
      cases y with
      | ok bs =>
        rw [read1_prompt _ _ t _ _ hc (by intro h'; cases h'; cases h; exact hr rfl)]
        cases h
        simp only [HasSrc.get_set, HasSrc.set_set]
      | error k =>
        rw [read1_prompt _ _ t _ _ hc (by simp)]
        cases h
        simp only [HasSrc.get_set, HasSrc.set_set]
  · simp only [hl, if_false] at h; cases h; exact absurd rfl hr

/-- Answers of the head parser that are about what was received. -/
def Settled {σ} : Except HyperErr (HttpHead σ) → Prop
  | .ok _ => True
  | .error .http => True
  | .error _ => False

theorem parseHead_prompt {σ line ok} (p : HeadParser σ line ok) (b b' : BufReader R) (t : Src)
    (r : Except HyperErr (HttpHead σ)) (h : parseHead p b = (r, b')) (hr : Settled r) :
    parseHead p (b.later t) = (r, b'.later t) := by
  fun_induction parseHead p b with
  | case1 b m n hp =>
    simp only [Prod.mk.injEq] at h
    obtain ⟨rfl, rfl⟩ := h
    rw [parseHead.eq_def, show (b.later t).window = b.window from rfl, hp]
    unfold BufReader.later BufReader.consume
    by_cases hc : min (b.pos + n) b.cap = b.cap
    · simp only [hc, if_true]
    · simp only [hc, if_false]
  | case2 b hp =>
    simp only [Prod.mk.injEq] at h
    obtain ⟨rfl, rfl⟩ := h
    rw [parseHead.eq_def, show (b.later t).window = b.window from rfl, hp]
  | case3 b hp k b1 hb =>
    simp only [Prod.mk.injEq] at h
    rw [← h.1] at hr; exact hr.elim
  | case4 b hp b1 hb hl =>
    simp only [Prod.mk.injEq] at h
    rw [← h.1] at hr; exact hr.elim
  | case5 b hp b1 hb hl =>
    simp only [Prod.mk.injEq] at h
    rw [← h.1] at hr; exact hr.elim
  | case6 b hp n b1 hb hn ih =>
    rw [parseHead.eq_def, show (b.later t).window = b.window from rfl, hp]
    have hb' := readIntoBuf_prompt b b1 t _ hb (by intro h; cases h; exact hn rfl)
    simp only
    split
    · next k b2 h2 => rw [hb'] at h2; cases h2
    · next n2 b2 h2 =>
      rw [hb'] at h2
      cases h2
      simp only [hn, dite_false]
      exact ih h

end

/-! ### The decoders -/

theorem msgDecoder_settles : Settles msgDecoder (fun c => c.df.maxDf ≤ u32Max) := msgDecoder_chunkable.settles
theorem dfDecoder_settles : Settles dfDecoder (fun c => c.maxDf ≤ u32Max) := dfDecoder_chunkable.settles

/-- Reading a head that arrives in full does not get to the end of the stream. -/
theorem pollRead_head_eof {σ line ok} (p : HeadParser σ line ok) (s : Src) (fr : Framed Unit) {head rest : Bytes}
    (hf : FirstBlank (fr.buf ++ s.flat) head rest) (hn : splitOffHttp fr.buf = none)
    (ha : headAnswer p head ≠ .ok none) (hs : ∀ e ∈ s, ¬ e.fails) :
    (fr.pollRead (httpDecoder p) s).2.1.eof = fr.eof := by
  induction s generalizing fr with
  | nil =>
    rw [Src.flat, List.append_nil] at hf
    rw [splitOff_iff.mpr hf] at hn; cases hn
  | cons e tl ih =>
    cases e with
    | error k =>
      rw [Framed.pollRead]
      split <;> rfl
    | chunk b =>
      rw [Framed.pollRead]
      have hb : b ≠ [] := hs (.chunk b) (by simp)
      rw [if_neg hb]
      have hf2 : FirstBlank ((fr.buf ++ b) ++ Src.flat tl) head rest := by
        rw [List.append_assoc]; exact hf
      rcases splitOff_prefix hf2 with ⟨r, h1, h2, h3⟩ | h3
      · rw [decode_head p h3]
        cases hh : headAnswer p head with
        | ok o =>
          cases o with
          | none => exact absurd hh ha
          | some m => rfl
        | err e => rfl
        | panic w => rfl
      · rw [decode_none p h3]
        exact ih { fr with codec := (), buf := fr.buf ++ b, readable := false } hf2 h3 (fun e he => hs e (by simp [he]))

theorem next_head_eof {σ line ok} (p : HeadParser σ line ok) (s : Src) (fr : Framed Unit) {head rest : Bytes}
    (hf : FirstBlank (fr.buf ++ s.flat) head rest) (hn : splitOffHttp fr.buf = none) (hr : fr.readable = false)
    (ha : headAnswer p head ≠ .ok none) (hs : ∀ e ∈ s, ¬ e.fails) :
    (fr.next (httpDecoder p) s).2.1.eof = fr.eof := by
  generalize hlen : s.length = n
  induction n using Nat.strongRecOn generalizing s fr with
  | ind n ih =>
    have hpoll : fr.poll (httpDecoder p) s = fr.pollRead (httpDecoder p) s := by
      unfold Framed.poll; rw [if_neg (by rw [hr]; decide)]
    have he := pollRead_head_eof p s fr hf hn ha hs
    have hp := pollRead_head p s fr hf hn hr ha
    rw [Framed.next]
    split
    · next x f t h => rw [hpoll] at h; rw [h] at he; exact he
    · next f t h =>
      rw [hpoll] at h
      rw [h] at he
      rcases hp with ⟨a, fr', s', h1, _⟩ | ⟨a, fr', s', h1, _⟩ | ⟨fr', s', h1, h2, h4, h5, h6⟩
      · rw [h] at h1; cases h1
      · rw [h] at h1; cases h1
      · rw [h] at h1
        simp only [Prod.mk.injEq, true_and] at h1
        obtain ⟨rfl, rfl⟩ := h1
        have hlt := Framed.pollRead_lt _ _ _ _ _ h
        rw [ih t.length (by omega) t f ⟨h2, hf.2⟩ h4 h6 (fun e he => hs e (h5.subset he)) rfl]
        exact he

theorem awake_fromParts (c : MsgCodec) (hc : c.df.maxDf ≤ u32Max) (buf : Bytes) : Awake msgDecoder (Framed.fromParts c buf) := by
  intro h
  have hb : buf = [] := by
    cases buf with
    | nil => rfl
    | cons => cases h
  subst hb
  unfold Idle
  change c.decode [] = _
  rw [MsgCodec.decode_eq c hc, pLoop_more rfl]
  rfl

theorem pLoop_left {c : Cfg} {buffer b' : List DataFrame} {cur cur' : Nat} {bs left : Bytes}
    (h : pLoop c buffer cur bs = .more b' cur' left) : left.length ≤ bs.length := by
  fun_induction pLoop c buffer cur bs with
  | case1 => cases h
  | case2 => cases h
  | case3 buffer cur bs f rest hp b cur1 hs ih => have := ih h; have := parseFrame_lt hp; omega
  | case4 => cases h
  | case5 => cases h; exact Nat.le_refl _

/-- A message decoder that waits has no complete frame in front of it. -/
theorem idle_no_frame {fr : Framed MsgCodec} (hc : fr.codec.df.maxDf ≤ u32Max) (h : Idle msgDecoder fr) :
    parseFrame fr.codec.df.isServer fr.codec.df.maxDf bigErr fr.buf = .more := by
  unfold Idle at h
  change fr.codec.decode fr.buf = _ at h
  rw [MsgCodec.decode_eq _ hc] at h
  cases hp : parseFrame fr.codec.df.isServer fr.codec.df.maxDf bigErr fr.buf with
  | more => rfl
  | err e rest =>
    rw [pLoop_err (c := fr.codec.cfg) (by exact hp)] at h
    simp at h
  | ok f rest =>
    exfalso
    have hlt := parseFrame_lt hp
    rw [pLoop_ok (c := fr.codec.cfg) (by exact hp)] at h
    cases hs : fr.codec.cfg.step fr.codec.buffer (heldLen fr.codec.buffer) f with
    | msg fs b =>
      simp only [hs, Prod.mk.injEq] at h
      rw [h.2.2] at hlt; omega
    | fail e b => simp [hs] at h
    | next b cur' =>
      simp only [hs] at h
      cases hl : pLoop fr.codec.cfg b cur' rest with
      | msg fs b' rest' =>
        simp only [hl, Prod.mk.injEq] at h
        obtain ⟨h2, -, h3⟩ := h
        unfold asyncOut at h2
        cases hx : OwnedMsg.fromDataframes (fs.map DataFrame.view) <;> rw [hx] at h2 <;> simp [bind, Res.bind] at h2
      | fail e b' rest' => simp [hl] at h
      | bad e b' start rest' => simp [hl] at h
      | more b' cur2 left =>
        simp only [hl, Prod.mk.injEq] at h
        have := pLoop_left hl
        rw [h.2.2] at this; omega

end WS
