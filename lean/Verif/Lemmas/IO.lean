import Verif.Model.DataFrame
/-! Reading scripts refines reading a byte string. -/

namespace WS

/-- Outcome of parsing a byte string: a value and the unread rest, an error and the unread
rest, or "the input ended too early". -/
inductive PRes (α : Type) where
  | ok (a : α) (rest : Bytes)
  | err (e : WsErr) (rest : Bytes)
  | more
  deriving DecidableEq, Repr

/-- A parser on byte strings. -/
def Ps (α : Type) := Bytes → PRes α

def Ps.bind {α β} (m : Ps α) (f : α → Ps β) : Ps β := fun bs =>
  match m bs with
  | .ok a rest => f a rest
  | .err e rest => .err e rest
  | .more => .more

instance : Monad Ps where
  pure a := fun bs => .ok a bs
  bind := Ps.bind

def Ps.fail {α} (e : WsErr) : Ps α := fun bs => .err e bs

def Ps.take (n : Nat) : Ps Bytes := fun bs =>
  if n ≤ bs.length then .ok (bs.take n) (bs.drop n) else .more

/-- On a non-failing transport `m` behaves like the parser `p` on the transported bytes. -/
def Refines {α} (m : Rd α) (p : Ps α) : Prop :=
  ∀ s : Src, s.Clean →
    ∃ s' : Src, s'.Clean ∧
      match p s.flat with
      | .ok a rest => m s = (.ok a, s') ∧ s'.flat = rest
      | .err e rest => m s = (.err e, s') ∧ s'.flat = rest
      | .more => m s = (.err .noData, s') ∧ s'.flat = []

theorem readExact_clean (n : Nat) (s : Src) (hs : s.Clean) :
    ∃ s' : Src, s'.Clean ∧
      if n ≤ s.flat.length then readExact n s = (.ok (s.flat.take n), s') ∧ s'.flat = s.flat.drop n
      else readExact n s = (.error .unexpectedEof, s') ∧ s'.flat = [] := by
  induction s generalizing n with
  | nil =>
    refine ⟨[], trivial, ?_⟩
    cases n <;> simp [readExact, Src.flat]
  | cons e rest ih =>
    cases e with
    | error k =>
      obtain ⟨rfl, hc⟩ := hs
      by_cases h0 : n = 0
      · subst h0
        exact ⟨.error .interrupted :: rest, ⟨rfl, hc⟩, by simp [readExact, Src.flat]⟩
      · obtain ⟨s', hs', h⟩ := ih n hc
        refine ⟨s', hs', ?_⟩
        simpa [readExact, h0, Src.flat] using h
    | chunk b =>
      obtain ⟨hb, hc⟩ := hs
      by_cases h0 : n = 0
      · subst h0
        exact ⟨.chunk b :: rest, ⟨hb, hc⟩, by simp [readExact, Src.flat]⟩
      · by_cases hl : b.length ≤ n
        · obtain ⟨s', hs', h⟩ := ih (n - b.length) hc
          refine ⟨s', hs', ?_⟩
          simp only [readExact, h0, hb, hl, if_true, if_false, Src.flat, List.length_append]
          by_cases hn : n - b.length ≤ (Src.flat rest).length
          · rw [if_pos hn] at h
            rw [if_pos (by omega), h.1]
            refine ⟨?_, ?_⟩
            · rw [List.take_append, List.take_of_length_le hl]
            · rw [h.2, List.drop_append, List.drop_of_length_le hl, List.nil_append]
          · rw [if_neg hn] at h
            rw [if_neg (by omega), h.1]
            exact ⟨rfl, h.2⟩
        · refine ⟨.chunk (b.drop n) :: rest, ⟨?_, hc⟩, ?_⟩
          · intro h; have := congrArg List.length h; simp at this; omega
          · simp only [readExact, h0, hb, hl, if_false, Src.flat, List.length_append]
            rw [if_pos (by omega), List.take_append_of_le_length (by omega),
              List.drop_append_of_le_length (by omega)]
            exact ⟨rfl, rfl⟩

theorem takeToEnd_clean (n : Nat) (s : Src) (hs : s.Clean) :
    ∃ s' : Src, s'.Clean ∧ takeToEnd n s = (.ok (s.flat.take n), s') ∧ s'.flat = s.flat.drop n := by
  induction s generalizing n with
  | nil => exact ⟨[], trivial, by simp [takeToEnd, Src.flat]⟩
  | cons e rest ih =>
    cases e with
    | error k =>
      obtain ⟨rfl, hc⟩ := hs
      by_cases h0 : n = 0
      · subst h0
        exact ⟨.error .interrupted :: rest, ⟨rfl, hc⟩, by simp [takeToEnd, Src.flat]⟩
      · obtain ⟨s', hs', h⟩ := ih n hc
        refine ⟨s', hs', ?_⟩
        simpa [takeToEnd, h0, Src.flat] using h
    | chunk b =>
      obtain ⟨hb, hc⟩ := hs
      by_cases h0 : n = 0
      · subst h0
        exact ⟨.chunk b :: rest, ⟨hb, hc⟩, by simp [takeToEnd, Src.flat]⟩
      · by_cases hl : b.length ≤ n
        · obtain ⟨s', hs', h⟩ := ih (n - b.length) hc
          refine ⟨s', hs', ?_⟩
          simp only [takeToEnd, h0, hb, hl, if_true, if_false, Src.flat]
          rw [h.1]
          refine ⟨?_, ?_⟩
          · rw [List.take_append, List.take_of_length_le hl]
          · rw [h.2, List.drop_append, List.drop_of_length_le hl, List.nil_append]
        · refine ⟨.chunk (b.drop n) :: rest, ⟨?_, hc⟩, ?_⟩
          · intro h; have := congrArg List.length h; simp at this; omega
          · simp only [takeToEnd, h0, hb, hl, if_false, Src.flat]
            rw [List.take_append_of_le_length (by omega), List.drop_append_of_le_length (by omega)]
            exact ⟨rfl, rfl⟩

theorem refines_exact (n : Nat) : Refines (Rd.exact n) (Ps.take n) := by
  intro s hs
  obtain ⟨s', hs', h⟩ := readExact_clean n s hs
  refine ⟨s', hs', ?_⟩
  unfold Ps.take Rd.exact
  by_cases hn : n ≤ s.flat.length
  · rw [if_pos hn] at h
    simp [if_pos hn, h.1, h.2]
  · rw [if_neg hn] at h
    simp [if_neg hn, h.1, h.2, WsErr.ofIo]

theorem refines_payload (n : Nat) : Refines (readPayload n) (Ps.take n) := by
  intro s hs
  obtain ⟨s', hs', h1, h2⟩ := takeToEnd_clean n s hs
  refine ⟨s', hs', ?_⟩
  unfold Ps.take readPayload
  rw [h1]
  by_cases hn : n ≤ s.flat.length
  · simp [if_pos hn, h2, Nat.min_eq_left hn]
  · have : s.flat.length < n := by omega
    simp [if_neg hn, WsErr.ofIo, h2, List.drop_of_length_le (Nat.le_of_lt this), Nat.min_eq_right (Nat.le_of_lt this), this]

theorem refines_pure {α} (a : α) : Refines (pure a) (pure a) := fun s hs => ⟨s, hs, rfl, rfl⟩

theorem refines_fail {α} (e : WsErr) : Refines (Rd.fail e : Rd α) (Ps.fail e) :=
  fun s hs => ⟨s, hs, rfl, rfl⟩

theorem refines_bind {α β} {m : Rd α} {p : Ps α} {f : α → Rd β} {g : α → Ps β}
    (hm : Refines m p) (hf : ∀ a, Refines (f a) (g a)) : Refines (m >>= f) (p >>= g) := by
  intro s hs
  obtain ⟨s', hs', h⟩ := hm s hs
  show ∃ s'', _ ∧ (match Ps.bind p g s.flat with
      | .ok a rest => Rd.bind m f s = (.ok a, s'') ∧ s''.flat = rest
      | .err e rest => Rd.bind m f s = (.err e, s'') ∧ s''.flat = rest
      | .more => Rd.bind m f s = (.err .noData, s'') ∧ s''.flat = [])
  unfold Ps.bind Rd.bind
  cases hp : p s.flat with
  | ok a rest =>
    rw [hp] at h
    obtain ⟨s'', hs'', h'⟩ := hf a s' hs'
    refine ⟨s'', hs'', ?_⟩
    simp only [h.1]
    rw [← h.2]
    exact h'
  | err e rest =>
    rw [hp] at h
    exact ⟨s', hs', by simp [h.1, h.2]⟩
  | more =>
    rw [hp] at h
    exact ⟨s', hs', by simp [h.1, h.2]⟩

theorem refines_ite {α} (c : Prop) [Decidable c] {m m' : Rd α} {p p' : Ps α}
    (h : Refines m p) (h' : Refines m' p') : Refines (if c then m else m') (if c then p else p') := by
  split <;> assumption

end WS
