import Verif.Model.BufReader
import Verif.Model.Receiver
/-!
# Reading through `BufReader`

Reading through the buffer is reading from the script `BufReader.src`: for a single `read`
(`read_src`), for the standard library loops (`bufExact_src`, `bufTake_src`), and hence for every
receive function; what they leave behind is a remainder (`Rem`) of the script, which `restore`
turns back into the state of the buffer.
-/

namespace WS

variable {R : Type} [HasSrc R]

/-- `t` is what can be left of `s` after reading some of it. -/
inductive Rem : Src → Src → Prop
  | refl (s) : Rem s s
  | skip {e s t} : Rem s t → Rem (e :: s) t
  | part {b s} (n : Nat) : n < b.length → Rem (.chunk b :: s) (.chunk (b.drop n) :: s)

theorem Rem.length {s t : Src} (h : Rem s t) : t.length ≤ s.length := by
  induction h with
  | refl => exact Nat.le_refl _
  | skip _ ih => simp only [List.length_cons]; omega
  | part => simp

theorem Rem.trans {s t u : Src} (h : Rem s t) (g : Rem t u) : Rem s u := by
  induction h with
  | refl => exact g
  | skip _ ih => exact .skip (ih g)
  | @part b s n hn =>
    cases g with
    | refl => exact .part n hn
    | skip g => exact .skip g
    | part m hm =>
      rw [List.drop_drop]
      rw [List.length_drop] at hm
      exact .part _ (by omega)

omit [HasSrc R] in
theorem window_length {b : BufReader R} (h : b.WF) : b.window.length = b.cap - b.pos := by
  obtain ⟨h1, h2⟩ := h
  simp only [BufReader.window, List.length_drop, List.length_take]
  omega

theorem restore_wf {b : BufReader R} (h : b.WF) (s : Src) : (b.restore s).WF := by
  obtain ⟨h1, h2⟩ := h
  unfold BufReader.restore
  repeat' split
  all_goals (simp only [BufReader.WF]; omega)

theorem restore_src {b : BufReader R} (h : b.WF) {s : Src} (hs : Rem b.src s) : (b.restore s).src = s := by
  have hl := window_length h
  obtain ⟨h1, h2⟩ := h
  unfold BufReader.src at hs
  unfold BufReader.restore
  by_cases hw : b.window = []
  · rw [if_pos hw] at hs ⊢
    unfold BufReader.src
    have : ({ b with inner := HasSrc.set b.inner s } : BufReader R).window = b.window := rfl
    rw [this, if_pos hw]
    exact HasSrc.get_set _ _
  · rw [if_neg hw] at hs ⊢
    have hw0 : b.window.length ≠ 0 := fun h0 => hw (List.length_eq_zero_iff.mp h0)
    have hempty : ∀ t : Src, ({ b with pos := 0, cap := 0, inner := HasSrc.set b.inner t } : BufReader R).src = t := by
      intro t
      unfold BufReader.src
      rw [if_pos (by simp [BufReader.window])]
      exact HasSrc.get_set _ _
    have hpart : ∀ n, n < b.window.length →
        ({ b with pos := b.cap - (b.window.drop n).length } : BufReader R).src =
          .chunk (b.window.drop n) :: HasSrc.get b.inner := by
      intro n hn
      have hwin : ({ b with pos := b.cap - (b.window.drop n).length } : BufReader R).window = b.window.drop n := by
        unfold BufReader.window
        rw [List.drop_drop]
        simp only
        congr 1
        simp only [List.length_drop, List.length_take]
        rw [hl] at hn
        omega
      unfold BufReader.src
      rw [hwin, if_neg]
      intro h0
      have := congrArg List.length h0
      simp only [List.length_drop, List.length_nil] at this
      omega
    cases hs with
    | refl =>
      simp only [if_true]
      have := hpart 0 (by omega)
      simpa using this
    | skip hr =>
      have hlen := hr.length
      split
      · next w rest =>
        rw [if_neg]
        · exact hempty _
        · intro he
          simp only [List.length_cons] at hlen
          omega
      · exact hempty _
    | part n hn =>
      simp only [if_true]
      exact hpart n hn

/-- One `read` through the buffer is one `read` of `src`. -/
theorem read_src {b : BufReader R} (h : b.WF) (n : Nat) :
    b.read n = ((read1 n b.src).1, b.restore (read1 n b.src).2) := by
  have hl := window_length h
  obtain ⟨h1, h2⟩ := h
  unfold BufReader.read BufReader.src BufReader.restore
  by_cases hw : b.cap = b.pos
  · have h0 : b.window = [] := List.length_eq_zero_iff.mp (by omega)
    rw [if_pos hw, if_pos h0, if_pos h0]
  · have h0 : b.window ≠ [] := by intro h; rw [h] at hl; simp only [List.length_nil] at hl; omega
    rw [if_neg hw, if_neg h0, if_neg h0]
    by_cases hn : b.window.length ≤ n
    · have hne : ∀ (w : Bytes) (rest : Src), HasSrc.get b.inner = .chunk w :: rest → ¬ rest.length = (HasSrc.get b.inner).length := by
        intro w rest he; rw [he]; simp
      simp only [read1, hn, if_true, List.take_of_length_le hn, BufReader.consume]
      rw [if_pos (by omega)]
      congr 1
      split
      · next w rest he =>
        rw [if_neg (hne w rest he), HasSrc.set_get]
      · rw [HasSrc.set_get]
    · simp only [read1, hn, if_false, if_true, BufReader.consume, List.length_take, List.length_drop]
      rw [if_neg (by omega)]
      congr 2
      omega

theorem rem_read1 (n : Nat) (s : Src) : Rem s (read1 n s).2 := by
  cases s with
  | nil => exact .refl _
  | cons e rest =>
    cases e with
    | error k => exact .skip (.refl _)
    | chunk b =>
      by_cases hl : b.length ≤ n
      · simp only [read1, hl, if_true]; exact .skip (.refl _)
      · simp only [read1, hl, if_false]; exact .part n (by omega)

theorem restore_restore {b : BufReader R} (h : b.WF) {s t : Src} (hs : Rem b.src s) (ht : Rem s t) :
    (b.restore s).restore t = b.restore t := by
  have hl := window_length h
  obtain ⟨h1, h2⟩ := h
  have hst := hs.trans ht
  unfold BufReader.src at hs hst
  by_cases hw : b.window = []
  · have e : ∀ u : Src, b.restore u = { b with inner := HasSrc.set b.inner u } := by
      intro u; unfold BufReader.restore; rw [if_pos hw]
    rw [e s, e t]
    unfold BufReader.restore
    have : ({ b with inner := HasSrc.set b.inner s } : BufReader R).window = b.window := rfl
    rw [this, if_pos hw]
    simp only [HasSrc.set_set]
  · rw [if_neg hw] at hs hst
    have hw0 : b.window.length ≠ 0 := fun h0 => hw (List.length_eq_zero_iff.mp h0)
    -- restoring from within the input
    have inner : ∀ u : Src, Rem (HasSrc.get b.inner) u → b.restore u = { b with pos := 0, cap := 0, inner := HasSrc.set b.inner u } := by
      intro u hu
      have hlen := hu.length
      unfold BufReader.restore
      rw [if_neg hw]
      split
      · next w rest =>
        rw [if_neg]
        intro he
        simp only [List.length_cons] at hlen
        omega
      · rfl
    have part : ∀ n, n < b.window.length → b.restore (.chunk (b.window.drop n) :: HasSrc.get b.inner) =
        { b with pos := b.cap - (b.window.drop n).length } := by
      intro n hn
      unfold BufReader.restore
      rw [if_neg hw]
      simp only [if_true]
    have winp : ∀ n, n < b.window.length →
        ({ b with pos := b.cap - (b.window.drop n).length } : BufReader R).window = b.window.drop n := by
      intro n hn
      unfold BufReader.window
      rw [List.drop_drop]
      simp only
      congr 1
      simp only [List.length_drop, List.length_take]
      rw [hl] at hn
      omega
    -- the state after the first step, for remainders inside the window
    have main : ∀ n, n < b.window.length → ∀ t, Rem (.chunk (b.window.drop n) :: HasSrc.get b.inner) t →
        (b.restore (.chunk (b.window.drop n) :: HasSrc.get b.inner)).restore t = b.restore t := by
      intro n hn t ht
      rw [part n hn]
      have hne : b.window.drop n ≠ [] := by
        intro h0
        have := congrArg List.length h0
        simp only [List.length_drop, List.length_nil] at this
        omega
      unfold BufReader.restore
      rw [winp n hn, if_neg hne, if_neg hw]
    cases hs with
    | refl => exact main 0 (by omega) t (by simpa using ht)
    | part n hn => exact main n hn t ht
    | skip hr =>
      rw [inner s hr, inner t (hr.trans ht)]
      unfold BufReader.restore
      rw [if_pos (by simp [BufReader.window])]
      simp only [HasSrc.set_set]

/-! ## The standard library loops over the buffer -/

theorem read_measure {n : Nat} (hn : n ≠ 0) {b b' : BufReader R} (hw : b.WF) {r : Except IoKind Bytes}
    (h : b.read n = (r, b')) (hr : r ≠ .ok []) : b'.WF ∧ b'.src.measure < b.src.measure := by
  rw [read_src hw] at h
  simp only [Prod.mk.injEq] at h
  obtain ⟨h1, h2⟩ := h
  rw [← h2]
  refine ⟨restore_wf hw _, ?_⟩
  rw [restore_src hw (rem_read1 n _)]
  exact read1_measure hn (r := r) (by rw [← h1]) hr

/-- `std::io::default_read_exact` over a buffered reader. -/
def bufExact (n : Nat) (b : BufReader R) (hw : b.WF) : Except IoKind Bytes × BufReader R :=
  if hn : n = 0 then (.ok [], b)
  else match h : b.read n with
    | (.ok [], b') => (.error .unexpectedEof, b')
    | (.ok (c :: cs), b') =>
      match bufExact (n - (c :: cs).length) b' (read_measure hn hw h (by simp)).1 with
      | (.ok rest, b'') => (.ok (c :: cs ++ rest), b'')
      | (.error k, b'') => (.error k, b'')
    | (.error k, b') =>
      if k = .interrupted then bufExact n b' (read_measure hn hw h (by simp)).1 else (.error k, b')
termination_by b.src.measure
decreasing_by
  all_goals exact (read_measure hn hw h (by simp)).2

/-- `std::io::default_read_to_end` on a `Take` of a buffered reader. -/
def bufTake (n : Nat) (b : BufReader R) (hw : b.WF) : Except IoKind Bytes × BufReader R :=
  if hn : n = 0 then (.ok [], b)
  else match h : b.read n with
    | (.ok [], b') => (.ok [], b')
    | (.ok (c :: cs), b') =>
      match bufTake (n - (c :: cs).length) b' (read_measure hn hw h (by simp)).1 with
      | (.ok rest, b'') => (.ok (c :: cs ++ rest), b'')
      | (.error k, b'') => (.error k, b'')
    | (.error k, b') =>
      if k = .interrupted then bufTake n b' (read_measure hn hw h (by simp)).1 else (.error k, b')
termination_by b.src.measure
decreasing_by
  all_goals exact (read_measure hn hw h (by simp)).2

theorem restore_self {b : BufReader R} (h : b.WF) : b.restore b.src = b := by
  have hl := window_length h
  obtain ⟨h1, h2⟩ := h
  unfold BufReader.src BufReader.restore
  by_cases hw : b.window = []
  · rw [if_pos hw, if_pos hw, HasSrc.set_get]
  · have hw0 : b.window.length ≠ 0 := fun h0 => hw (List.length_eq_zero_iff.mp h0)
    rw [if_neg hw, if_neg hw]
    simp only [if_true]
    have : b.cap - b.window.length = b.pos := by omega
    rw [this]

theorem rem_exactLoop (n : Nat) (s : Src) : Rem s (readExactLoop n s).2 := by
  fun_induction readExactLoop n s with
  | case1 s => exact .refl _
  | case2 n s hn s' h => have := rem_read1 n s; rw [h] at this; exact this
  | case3 n s hn b bs s' h rest s'' he ih =>
    have := rem_read1 n s; rw [h] at this; rw [he] at ih; exact this.trans ih
  | case4 n s hn b bs s' h k s'' he ih =>
    have := rem_read1 n s; rw [h] at this; rw [he] at ih; exact this.trans ih
  | case5 n s hn s' h ih => have := rem_read1 n s; rw [h] at this; exact this.trans ih
  | case6 n s hn k s' h hk => have := rem_read1 n s; rw [h] at this; exact this

theorem rem_takeLoop (n : Nat) (s : Src) : Rem s (takeToEndLoop n s).2 := by
  fun_induction takeToEndLoop n s with
  | case1 s => exact .refl _
  | case2 n s hn s' h => have := rem_read1 n s; rw [h] at this; exact this
  | case3 n s hn b bs s' h rest s'' he ih =>
    have := rem_read1 n s; rw [h] at this; rw [he] at ih; exact this.trans ih
  | case4 n s hn b bs s' h k s'' he ih =>
    have := rem_read1 n s; rw [h] at this; rw [he] at ih; exact this.trans ih
  | case5 n s hn s' h ih => have := rem_read1 n s; rw [h] at this; exact this.trans ih
  | case6 n s hn k s' h hk => have := rem_read1 n s; rw [h] at this; exact this

theorem bufExact_loop (n : Nat) (b : BufReader R) (hw : b.WF) :
    bufExact n b hw = ((readExactLoop n b.src).1, b.restore (readExactLoop n b.src).2) := by
  fun_induction bufExact n b hw with
  | case1 b hw => rw [readExactLoop_zero, restore_self hw]
  | case2 n b hw hn b' h =>
    rw [read_src hw] at h
    simp only [Prod.mk.injEq] at h
    rw [readExactLoop, dif_neg hn]
    split
    · next h' => rw [h'] at h; rw [h.2]
    · next h' => rw [h'] at h; simp at h
    · next h' => rw [h'] at h; simp at h
  | case3 n b hw hn c cs b' h rest b'' he ih =>
    rw [read_src hw] at h
    simp only [Prod.mk.injEq] at h
    have hr := rem_read1 n b.src
    rw [readExactLoop_some hn (b := c :: cs) (s' := (read1 n b.src).2) (by simp) (by rw [← h.1])]
    rw [he] at ih
    have hb : b'.src = (read1 n b.src).2 := by rw [← h.2, restore_src hw hr]
    rw [hb] at ih
    have hl := rem_exactLoop (n - (c :: cs).length) (read1 n b.src).2
    revert ih hl
    generalize readExactLoop (n - (c :: cs).length) (read1 n b.src).2 = q
    intro ih hl
    obtain ⟨q1, q2⟩ := q
    simp only [Prod.mk.injEq] at ih
    rw [← ih.1]
    simp only
    rw [ih.2, ← h.2, restore_restore hw hr hl]
  | case4 n b hw hn c cs b' h k b'' he ih =>
    rw [read_src hw] at h
    simp only [Prod.mk.injEq] at h
    have hr := rem_read1 n b.src
    rw [readExactLoop_some hn (b := c :: cs) (s' := (read1 n b.src).2) (by simp) (by rw [← h.1])]
    rw [he] at ih
    have hb : b'.src = (read1 n b.src).2 := by rw [← h.2, restore_src hw hr]
    rw [hb] at ih
    have hl := rem_exactLoop (n - (c :: cs).length) (read1 n b.src).2
    revert ih hl
    generalize readExactLoop (n - (c :: cs).length) (read1 n b.src).2 = q
    intro ih hl
    obtain ⟨q1, q2⟩ := q
    simp only [Prod.mk.injEq] at ih
    rw [← ih.1]
    simp only
    rw [ih.2, ← h.2, restore_restore hw hr hl]
  | case5 n b hw hn b' h ih =>
    rw [read_src hw] at h
    simp only [Prod.mk.injEq] at h
    have hr := rem_read1 n b.src
    have hb : b'.src = (read1 n b.src).2 := by rw [← h.2, restore_src hw hr]
    have e : readExactLoop n b.src = readExactLoop n (read1 n b.src).2 := by
      rw [readExactLoop, dif_neg hn]
      split
      · next h' => rw [h'] at h; simp at h
      · next h' => rw [h'] at h; simp at h
      · next h' => rw [h'] at h ⊢; simp only [Except.error.injEq] at h; rw [if_pos h.1]
    rw [ih, hb, e, ← h.2, restore_restore hw hr (rem_exactLoop _ _)]
  | case6 n b hw hn k b' h hk =>
    rw [read_src hw] at h
    simp only [Prod.mk.injEq] at h
    rw [readExactLoop, dif_neg hn]
    split
    · next h' => rw [h'] at h; simp at h
    · next h' => rw [h'] at h; simp at h
    · next h' =>
      rw [h'] at h
      simp only [Except.error.injEq] at h
      rw [h.1, if_neg hk, ← h.2]

theorem bufTake_loop (n : Nat) (b : BufReader R) (hw : b.WF) :
    bufTake n b hw = ((takeToEndLoop n b.src).1, b.restore (takeToEndLoop n b.src).2) := by
  fun_induction bufTake n b hw with
  | case1 b hw => rw [takeToEndLoop_zero, restore_self hw]
  | case2 n b hw hn b' h =>
    rw [read_src hw] at h
    simp only [Prod.mk.injEq] at h
    rw [takeToEndLoop, dif_neg hn]
    split
    · next h' => rw [h'] at h; rw [h.2]
    · next h' => rw [h'] at h; simp at h
    · next h' => rw [h'] at h; simp at h
  | case3 n b hw hn c cs b' h rest b'' he ih =>
    rw [read_src hw] at h
    simp only [Prod.mk.injEq] at h
    have hr := rem_read1 n b.src
    rw [takeToEndLoop_some hn (b := c :: cs) (s' := (read1 n b.src).2) (by simp) (by rw [← h.1])]
    rw [he] at ih
    have hb : b'.src = (read1 n b.src).2 := by rw [← h.2, restore_src hw hr]
    rw [hb] at ih
    have hl := rem_takeLoop (n - (c :: cs).length) (read1 n b.src).2
    revert ih hl
    generalize takeToEndLoop (n - (c :: cs).length) (read1 n b.src).2 = q
    intro ih hl
    obtain ⟨q1, q2⟩ := q
    simp only [Prod.mk.injEq] at ih
    rw [← ih.1]
    simp only
    rw [ih.2, ← h.2, restore_restore hw hr hl]
  | case4 n b hw hn c cs b' h k b'' he ih =>
    rw [read_src hw] at h
    simp only [Prod.mk.injEq] at h
    have hr := rem_read1 n b.src
    rw [takeToEndLoop_some hn (b := c :: cs) (s' := (read1 n b.src).2) (by simp) (by rw [← h.1])]
    rw [he] at ih
    have hb : b'.src = (read1 n b.src).2 := by rw [← h.2, restore_src hw hr]
    rw [hb] at ih
    have hl := rem_takeLoop (n - (c :: cs).length) (read1 n b.src).2
    revert ih hl
    generalize takeToEndLoop (n - (c :: cs).length) (read1 n b.src).2 = q
    intro ih hl
    obtain ⟨q1, q2⟩ := q
    simp only [Prod.mk.injEq] at ih
    rw [← ih.1]
    simp only
    rw [ih.2, ← h.2, restore_restore hw hr hl]
  | case5 n b hw hn b' h ih =>
    rw [read_src hw] at h
    simp only [Prod.mk.injEq] at h
    have hr := rem_read1 n b.src
    have hb : b'.src = (read1 n b.src).2 := by rw [← h.2, restore_src hw hr]
    have e : takeToEndLoop n b.src = takeToEndLoop n (read1 n b.src).2 := by
      rw [takeToEndLoop, dif_neg hn]
      split
      · next h' => rw [h'] at h; simp at h
      · next h' => rw [h'] at h; simp at h
      · next h' => rw [h'] at h ⊢; simp only [Except.error.injEq] at h; rw [if_pos h.1]
    rw [ih, hb, e, ← h.2, restore_restore hw hr (rem_takeLoop _ _)]
  | case6 n b hw hn k b' h hk =>
    rw [read_src hw] at h
    simp only [Prod.mk.injEq] at h
    rw [takeToEndLoop, dif_neg hn]
    split
    · next h' => rw [h'] at h; simp at h
    · next h' => rw [h'] at h; simp at h
    · next h' =>
      rw [h'] at h
      simp only [Except.error.injEq] at h
      rw [h.1, if_neg hk, ← h.2]

/-- `read_exact` through the buffer is `read_exact` on `src`. -/
theorem bufExact_src (n : Nat) (b : BufReader R) (hw : b.WF) :
    bufExact n b hw = ((readExact n b.src).1, b.restore (readExact n b.src).2) := by
  rw [bufExact_loop, readExact_eq_loop]

/-- `take(n).read_to_end` through the buffer is the same on `src`. -/
theorem bufTake_src (n : Nat) (b : BufReader R) (hw : b.WF) :
    bufTake n b hw = ((takeToEnd n b.src).1, b.restore (takeToEnd n b.src).2) := by
  rw [bufTake_loop, takeToEnd_eq_loop]

/-! ## Receive functions leave a remainder -/

/-- `m` leaves a remainder of the script. -/
def Leaves {α} (m : Rd α) : Prop := ∀ s, Rem s (m s).2

theorem leaves_pure {α} (a : α) : Leaves (pure a) := fun s => .refl s
theorem leaves_fail {α} (e : WsErr) : Leaves (Rd.fail e : Rd α) := fun s => .refl s
theorem leaves_lift {α} (r : Res α) : Leaves (Rd.lift r) := fun s => .refl s

theorem leaves_exact (n : Nat) : Leaves (Rd.exact n) := by
  intro s
  have := rem_exactLoop n s
  rw [← readExact_eq_loop] at this
  unfold Rd.exact
  split <;> simp_all

theorem leaves_payload (n : Nat) : Leaves (readPayload n) := by
  intro s
  have := rem_takeLoop n s
  rw [← takeToEnd_eq_loop] at this
  unfold readPayload
  split
  · split <;> simp_all
  · simp_all

theorem leaves_bind {α β} {m : Rd α} {f : α → Rd β} (hm : Leaves m) (hf : ∀ a, Leaves (f a)) : Leaves (m >>= f) := by
  intro s
  show Rem s (Rd.bind m f s).2
  have h := hm s
  unfold Rd.bind
  cases hms : m s with
  | mk r s' =>
    rw [hms] at h
    cases r with
    | ok a => exact h.trans (hf a s')
    | err e => exact h
    | panic e => exact h

theorem leaves_ite {α} {c : Prop} [Decidable c] {m m' : Rd α} (h : Leaves m) (h' : Leaves m') :
    Leaves (if c then m else m') := by split <;> assumption

theorem leaves_u8 : Leaves Rd.u8 := leaves_bind (leaves_exact 1) fun _ => leaves_pure _

theorem leaves_cap (n : Nat) : Leaves (vecWithCapacity n) := by
  unfold vecWithCapacity; exact leaves_ite (leaves_lift _) (leaves_pure _)

theorem leaves_len (b : UInt8) : Leaves (readLen b) := by
  unfold readLen
  refine leaves_ite (leaves_pure _) (leaves_ite ?_ ?_)
  · exact leaves_bind (leaves_bind (leaves_exact _) fun _ => leaves_pure _) fun _ =>
      leaves_ite (leaves_fail _) (leaves_pure _)
  · exact leaves_bind (leaves_bind (leaves_exact _) fun _ => leaves_pure _) fun _ =>
      leaves_ite (leaves_fail _) (leaves_pure _)

theorem leaves_mask (b : UInt8) : Leaves (readMask b) := by
  unfold readMask
  exact leaves_ite (leaves_bind leaves_u8 fun _ => leaves_bind leaves_u8 fun _ =>
    leaves_bind leaves_u8 fun _ => leaves_bind leaves_u8 fun _ => leaves_pure _) (leaves_pure _)

theorem leaves_header : Leaves readHeader := by
  unfold readHeader
  exact leaves_bind leaves_u8 fun _ => leaves_bind leaves_u8 fun _ => leaves_bind (leaves_len _) fun _ =>
    leaves_ite (leaves_fail _) (leaves_ite (leaves_fail _) (leaves_bind (leaves_mask _) fun _ => leaves_pure _))

theorem leaves_dataframe (m : Bool) (limit : Nat) : Leaves (readDataframeWithLimit m limit) := by
  unfold readDataframeWithLimit
  exact leaves_bind leaves_header fun _ => leaves_ite (leaves_fail _)
    (leaves_bind (leaves_cap _) fun _ => leaves_bind (leaves_payload _) fun _ => leaves_lift _)

theorem rem_recvDataframe (r : Receiver) (s : Src) : Rem s (r.recvDataframe s).2 := leaves_dataframe _ _ s

theorem rem_recvLoop (r : Receiver) (cur : Nat) (s : Src) : Rem s (recvLoop r cur s).2.2 := by
  induction hm : s.measure using Nat.strongRecOn generalizing r cur s with
  | _ m ih =>
    have hd := rem_recvDataframe r s
    rw [recvLoop]
    split
    · next next s' h =>
      rw [h] at hd
      split
      · simp only
        split
        · exact hd
        · split
          · exact hd
          · split
            · exact hd
            · refine hd.trans (ih s'.measure ?_ _ _ s' rfl)
              rw [← hm]
              exact readDataframeWithLimit_lt h
      · split <;> exact hd
    · next h => rw [h] at hd; exact hd
    · next h => rw [h] at hd; exact hd

theorem rem_recvMessageDataframes (r : Receiver) (s : Src) : Rem s (r.recvMessageDataframes s).2.2 := by
  have hd := rem_recvDataframe r s
  unfold Receiver.recvMessageDataframes
  simp only
  split
  · split
    · next first s' h =>
      rw [h] at hd
      split
      · exact hd
      · split
        · exact hd
        · exact hd.trans (rem_recvLoop _ _ _)
    · next h => rw [h] at hd; exact hd
    · next h => rw [h] at hd; exact hd
  · exact rem_recvLoop _ _ _

theorem rem_recvMessage (r : Receiver) (s : Src) : Rem s (r.recvMessage s).2.2 := by
  have h := rem_recvMessageDataframes r s
  unfold Receiver.recvMessage
  split <;> (next he => rw [he] at h; exact h)

end WS
