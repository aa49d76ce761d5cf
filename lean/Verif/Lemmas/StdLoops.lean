import Verif.Model.IO
/-! The structural definitions of `readExact`, `takeToEnd` and `writeAll` are the loops of the Rust
standard library over single `read` / `write` calls. -/

namespace WS

theorem read1_measure {n : Nat} (hn : n ≠ 0) {s : Src} {r : Except IoKind Bytes} {s' : Src} (h : read1 n s = (r, s'))
    (hr : r ≠ .ok []) : s'.measure < s.measure := by
  cases s with
  | nil => simp only [read1, Prod.mk.injEq] at h; exact absurd h.1.symm hr
  | cons e rest =>
    cases e with
    | error k => simp only [read1, Prod.mk.injEq] at h; rw [← h.2]; simp only [Src.measure]; omega
    | chunk b =>
      by_cases hl : b.length ≤ n
      · simp only [read1, hl, if_true, Prod.mk.injEq] at h; rw [← h.2]; simp only [Src.measure]; omega
      · simp only [read1, hl, if_false, Prod.mk.injEq] at h; rw [← h.2]; simp only [Src.measure, List.length_drop]; omega

/-- `std::io::default_read_exact`. -/
def readExactLoop (n : Nat) (s : Src) : Except IoKind Bytes × Src :=
  if hn : n = 0 then (.ok [], s)
  else match h : read1 n s with
    | (.ok [], s') => (.error .unexpectedEof, s')
    | (.ok (b :: bs), s') =>
      match readExactLoop (n - (b :: bs).length) s' with
      | (.ok rest, s'') => (.ok (b :: bs ++ rest), s'')
      | (.error k, s'') => (.error k, s'')
    | (.error k, s') => if k = .interrupted then readExactLoop n s' else (.error k, s')
termination_by s.measure
decreasing_by
  all_goals exact read1_measure hn h (by simp)

/-- `std::io::default_read_to_end` on a `Take` of `n` bytes (which reads nothing more at `n = 0`). -/
def takeToEndLoop (n : Nat) (s : Src) : Except IoKind Bytes × Src :=
  if hn : n = 0 then (.ok [], s)
  else match h : read1 n s with
    | (.ok [], s') => (.ok [], s')
    | (.ok (b :: bs), s') =>
      match takeToEndLoop (n - (b :: bs).length) s' with
      | (.ok rest, s'') => (.ok (b :: bs ++ rest), s'')
      | (.error k, s'') => (.error k, s'')
    | (.error k, s') => if k = .interrupted then takeToEndLoop n s' else (.error k, s')
termination_by s.measure
decreasing_by
  all_goals exact read1_measure hn h (by simp)

/-- `std::io::Write::write_all`. -/
def writeAllLoop (bs : Bytes) (w : Sink) : Except IoKind Unit × Sink :=
  if bs = [] then (.ok (), w)
  else match w with
    | ⟨wire, []⟩ =>
      -- one `write` takes everything
      match (Sink.mk wire []).write bs with
      | (.ok _, w') => (.ok (), w')
      | (.error k, w') => (.error k, w')
    | ⟨wire, e :: s⟩ =>
      match (Sink.mk wire (e :: s)).write bs with
      | (.ok n, w') => if n = 0 then (.error .writeZero, w') else writeAllLoop (bs.drop n) ⟨w'.wire, s⟩
      | (.error k, w') => if k = .interrupted then writeAllLoop bs ⟨w'.wire, s⟩ else (.error k, w')
termination_by w.script.length

theorem readExactLoop_some {n : Nat} (hn : n ≠ 0) {s s' : Src} {b : Bytes} (hb : b ≠ []) (h : read1 n s = (.ok b, s')) :
    readExactLoop n s = match readExactLoop (n - b.length) s' with
      | (.ok rest, s'') => (.ok (b ++ rest), s'')
      | (.error k, s'') => (.error k, s'') := by
  obtain ⟨c, cs, rfl⟩ := List.exists_cons_of_ne_nil hb
  rw [readExactLoop, dif_neg hn]
  split
  · next h' => rw [h] at h'; simp at h'
  · next h' =>
    rw [h] at h'
    simp only [Prod.mk.injEq, Except.ok.injEq, List.cons.injEq] at h'
    obtain ⟨⟨rfl, rfl⟩, rfl⟩ := h'
    rfl
  · next h' => rw [h] at h'; simp at h'

theorem readExactLoop_zero (s : Src) : readExactLoop 0 s = (.ok [], s) := by rw [readExactLoop]; simp

theorem takeToEndLoop_some {n : Nat} (hn : n ≠ 0) {s s' : Src} {b : Bytes} (hb : b ≠ []) (h : read1 n s = (.ok b, s')) :
    takeToEndLoop n s = match takeToEndLoop (n - b.length) s' with
      | (.ok rest, s'') => (.ok (b ++ rest), s'')
      | (.error k, s'') => (.error k, s'') := by
  obtain ⟨c, cs, rfl⟩ := List.exists_cons_of_ne_nil hb
  rw [takeToEndLoop, dif_neg hn]
  split
  · next h' => rw [h] at h'; simp at h'
  · next h' =>
    rw [h] at h'
    simp only [Prod.mk.injEq, Except.ok.injEq, List.cons.injEq] at h'
    obtain ⟨⟨rfl, rfl⟩, rfl⟩ := h'
    rfl
  · next h' => rw [h] at h'; simp at h'

theorem takeToEndLoop_zero (s : Src) : takeToEndLoop 0 s = (.ok [], s) := by rw [takeToEndLoop]; simp

/-- `read_exact` is the loop. -/
theorem readExact_eq_loop (n : Nat) (s : Src) : readExact n s = readExactLoop n s := by
  induction s generalizing n with
  | nil =>
    rw [readExactLoop]
    by_cases hn : n = 0
    · simp [readExact, hn]
    · simp only [readExact, hn, if_false, dif_neg, not_false_eq_true]
      split <;> simp_all [read1]
  | cons e rest ih =>
    by_cases hn : n = 0
    · subst hn; rw [readExactLoop_zero]; cases e <;> simp [readExact]
    · cases e with
      | error k =>
        rw [readExactLoop]
        simp only [readExact, hn, if_false, dif_neg, not_false_eq_true]
        split <;> simp_all [read1]
      | chunk b =>
        simp only [readExact, hn, if_false]
        by_cases hb : b = []
        · subst hb
          rw [readExactLoop, dif_neg hn]
          simp only [if_true]
          split <;> simp_all [read1]
        · simp only [hb, if_false]
          by_cases hl : b.length ≤ n
          · rw [readExactLoop_some hn hb (s' := rest) (by simp [read1, hl]), if_pos hl, ih]
            rfl
          · rw [readExactLoop_some hn (b := b.take n) (s' := .chunk (b.drop n) :: rest) (by simp [hn, hb]) (by simp [read1, hl]),
              if_neg hl, List.length_take, Nat.min_eq_left (by omega), Nat.sub_self, readExactLoop_zero]
            simp

/-- `take(n).read_to_end` is the loop. -/
theorem takeToEnd_eq_loop (n : Nat) (s : Src) : takeToEnd n s = takeToEndLoop n s := by
  induction s generalizing n with
  | nil =>
    rw [takeToEndLoop]
    by_cases hn : n = 0
    · simp [takeToEnd, hn]
    · simp only [takeToEnd, hn, dif_neg, not_false_eq_true]
      split <;> simp_all [read1]
  | cons e rest ih =>
    by_cases hn : n = 0
    · subst hn; rw [takeToEndLoop_zero]; cases e <;> simp [takeToEnd]
    · cases e with
      | error k =>
        rw [takeToEndLoop]
        simp only [takeToEnd, hn, if_false, dif_neg, not_false_eq_true]
        split <;> simp_all [read1]
      | chunk b =>
        simp only [takeToEnd, hn, if_false]
        by_cases hb : b = []
        · subst hb
          rw [takeToEndLoop, dif_neg hn]
          simp only [if_true]
          split <;> simp_all [read1]
        · simp only [hb, if_false]
          by_cases hl : b.length ≤ n
          · rw [takeToEndLoop_some hn hb (s' := rest) (by simp [read1, hl]), if_pos hl, ih]
            rfl
          · rw [takeToEndLoop_some hn (b := b.take n) (s' := .chunk (b.drop n) :: rest) (by simp [hn, hb]) (by simp [read1, hl]),
              if_neg hl, List.length_take, Nat.min_eq_left (by omega), Nat.sub_self, takeToEndLoop_zero]
            simp

/-- `write_all` is the loop. -/
theorem writeAll_eq_loop (bs : Bytes) (w : Sink) : w.writeAll bs = writeAllLoop bs w := by
  fun_induction Sink.writeAll bs w with
  | case1 w => rw [writeAllLoop.eq_def]; simp
  | case2 bs h wire => rw [writeAllLoop.eq_def]; simp [h, Sink.write]
  | case3 bs h wire s ih => rw [ih, writeAllLoop.eq_def (w := ⟨wire, _ :: s⟩)]; simp [h, Sink.write]
  | case4 bs h wire k s hk => rw [writeAllLoop.eq_def]; simp [h, Sink.write, hk]
  | case5 bs h wire s => rw [writeAllLoop.eq_def]; simp [h, Sink.write]
  | case6 bs h wire n s h0 ih =>
    rw [ih, writeAllLoop.eq_def (w := ⟨wire, _ :: s⟩)]
    have hb : bs.length ≠ 0 := by simpa using h
    have hm : min n bs.length ≠ 0 := by omega
    have hd : bs.drop (min n bs.length) = bs.drop n := by
      by_cases hn : n ≤ bs.length
      · rw [Nat.min_eq_left hn]
      · rw [Nat.min_eq_right (by omega), List.drop_length, List.drop_eq_nil_of_le (by omega)]
    simp only [h, if_false, Sink.write, hm, hd]

end WS
