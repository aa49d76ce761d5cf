import Verif.Model.Tasks
/-!
# Lemmas: two async tasks and a network, in numbers only

What examples/async-client.rs and examples/async-server.rs do to each other depends on the lengths of the frames alone. Here are only lengths; Lemmas/Tasks shows that the
programs keep step with these numbers.
-/

namespace WS

/-- The first `n` together. -/
def cum (len : Nat → Nat) : Nat → Nat
  | 0 => 0
  | n + 1 => cum len n + len n

inductive CPhase
  | idle | holding | closing | over
  deriving DecidableEq, Repr

inductive SPhase
  | greet | greeting | idle | holding | closing | part | parting | over
  deriving DecidableEq, Repr

/-- The lengths of the frames both ways, and which line asks to leave. -/
structure Lens where
  up : Nat → Nat
  down : Nat → Nat
  last : Nat → Bool

structure Count where
  typed : Nat
  chan : Bool
  cphase : CPhase
  flag : Bool
  eof : Bool
  /-- bytes the client has given to the network, and the server has read -/
  sent : Nat
  got : Nat
  heard : Nat
  sphase : SPhase
  back : Nat
  read : Nat
  deriving DecidableEq, Repr

namespace Count

/-- Messages the client's task has taken, and put into its sink. -/
def held (a : Count) : Nat := a.typed - a.chan.toNat

def pushed (a : Count) : Nat := a.held - (decide (a.cphase = .holding)).toNat

/-- Messages in the server's sink. -/
def answered (a : Count) : Nat :=
  match a.sphase with
  | .greet => 0
  | .greeting => 1
  | .idle | .parting | .over => a.heard + 1
  | .holding | .closing | .part => a.heard

def gone (L : Lens) (a : Count) : Bool := decide (0 < a.typed) && L.last (a.typed - 1)

def cflush (L : Lens) (r : Room) (k : Nat) (a : Count) : Count :=
  { a with sent := a.sent + min (min (r.up - (a.sent - a.got)) k) (cum L.up a.pushed - a.sent) }

def sflush (L : Lens) (r : Room) (k : Nat) (a : Count) : Count :=
  { a with back := a.back + min (min (r.down - (a.back - a.read)) k) (cum L.down a.answered - a.back) }

def spush (L : Lens) (r : Room) (k : Nat) (next : SPhase) (a : Count) : Count :=
  if cum L.down a.answered - a.back < 8192 then { a with sphase := next }
  else if cum L.down a.answered - (a.sflush L r k).back < 8192 then { a.sflush L r k with sphase := next } else a.sflush L r k

def sdone (L : Lens) (r : Room) (k : Nat) (next : SPhase) (a : Count) : Count :=
  if (a.sflush L r k).back = cum L.down a.answered then { a.sflush L r k with sphase := next } else a.sflush L r k

def item (L : Lens) (a : Count) : Count := { a with heard := a.heard + 1, sphase := if L.last a.heard then .closing else .holding }

def serve (L : Lens) (r : Room) (n k : Nat) (a : Count) : Count :=
  match a.sphase with
  | .over => a
  | .greet => a.spush L r k .greeting
  | .greeting => a.sdone L r k .idle
  | .holding => a.spush L r k .idle
  | .idle =>
    if cum L.up (a.heard + 1) ≤ a.got then a.item L
    else if cum L.up (a.heard + 1) ≤ a.got + min n (a.sent - a.got) then { a with got := a.got + min n (a.sent - a.got) }.item L
    else { a with got := a.got + min n (a.sent - a.got) }.sflush L r k
  | .closing => a.sdone L r k .part
  | .part => a.spush L r k .parting
  | .parting => a.sdone L r k .over

def type (L : Lens) (a : Count) : Count :=
  if a.gone L || a.chan || decide (a.cphase = .over) then a else { a with typed := a.typed + 1, chan := true }

/-- Whether the client's `Select` polls the stream. -/
def polls (a : Count) : Bool := !a.eof && !(a.flag && a.chan)

def reading (n : Nat) (a : Count) : Count :=
  { a with read := if a.polls then a.read + min n (a.back - a.read) else a.read,
           eof := a.eof || (a.polls && decide (0 < n) && decide (a.back = a.read) && decide (a.sphase = .over)) }

def chat (L : Lens) (r : Room) (n k : Nat) (a : Count) : Count :=
  match a.cphase with
  | .over => a
  | .closing => if (a.cflush L r k).sent = cum L.up a.pushed then { a.cflush L r k with cphase := .over } else a.cflush L r k
  | .holding =>
    if cum L.up a.pushed - a.sent < 8192 then { a with cphase := .idle }
    else if cum L.up a.pushed - (a.cflush L r k).sent < 8192 then { a.cflush L r k with cphase := .idle } else a.cflush L r k
  | .idle =>
    if a.chan then { a.reading n with chan := false, cphase := .holding, flag := !a.flag && (a.reading n).eof }
    else if a.gone L && (a.reading n).eof then { a.reading n with cphase := .closing, flag := !a.flag }
    else { a.reading n with flag := !a.flag }.cflush L r k

end Count

theorem cum_mono {len : Nat → Nat} {a b : Nat} (h : a ≤ b) : cum len a ≤ cum len b := by
  induction b with
  | zero => obtain rfl : a = 0 := by omega
            exact Nat.le_refl _
  | succ b ih =>
    by_cases h' : a = b + 1
    · subst h'; exact Nat.le_refl _
    · exact Nat.le_trans (ih (by omega)) (Nat.le_add_right _ _)

theorem cum_lt {len : Nat → Nat} (hl : ∀ i, 0 < len i) {a b : Nat} (h : a < b) : cum len a < cum len b :=
  Nat.lt_of_lt_of_le (show cum len a < cum len (a + 1) from Nat.lt_add_of_pos_right (hl a)) (cum_mono h)

theorem cum_le_inv {len : Nat → Nat} (hl : ∀ i, 0 < len i) {a b : Nat} (h : cum len a ≤ cum len b) : a ≤ b := by
  by_cases hab : a ≤ b
  · exact hab
  · have := cum_lt hl (show b < a by omega)
    omega

theorem le_cum {len : Nat → Nat} (hl : ∀ i, 0 < len i) (n : Nat) : n ≤ cum len n := by
  induction n with
  | zero => exact Nat.le_refl _
  | succ n ih => have := hl n; simp only [cum]; omega

namespace Count

/-- What holds in every state that can be reached. -/
structure Sane (L : Lens) (r : Room) (a : Count) : Prop where
  heard_got : cum L.up a.heard ≤ a.got
  got_sent : a.got ≤ a.sent
  sent_pushed : a.sent ≤ cum L.up a.pushed
  read_back : a.read ≤ a.back
  back_answered : a.back ≤ cum L.down a.answered
  typed_pos : a.chan = true → 0 < a.typed
  held_pos : a.cphase = .holding → 0 < a.held
  before : ∀ i, i + 1 < a.typed → L.last i = false
  starting : a.sphase = .greet ∨ a.sphase = .greeting → a.heard = 0
  middle : a.sphase = .idle ∨ a.sphase = .holding → 0 < a.heard → L.last (a.heard - 1) = false
  holds : a.sphase = .holding → 0 < a.heard
  ending : a.sphase = .closing ∨ a.sphase = .part ∨ a.sphase = .parting ∨ a.sphase = .over → 0 < a.heard ∧ L.last (a.heard - 1) = true
  over : a.sphase = .over → a.back = cum L.down a.answered
  eof : a.eof = true → a.sphase = .over ∧ a.read = a.back
  leaving : a.cphase = .closing ∨ a.cphase = .over → a.eof = true ∧ a.gone L = true ∧ a.chan = false
  left : a.cphase = .over → a.sent = cum L.up a.pushed
  up_queue : 0 < a.pushed → cum L.up (a.pushed - 1) < 8192 + a.sent
  down_queue : 0 < a.answered → cum L.down (a.answered - 1) < 8192 + a.back
  up_net : a.sent ≤ a.got + r.up
  down_net : a.back ≤ a.read + r.down
  up_read : a.got ≤ cum L.up (a.heard + 1) + r.up

variable {L : Lens} {r : Room} {a : Count}

/-- No more is heard than was pushed. -/
theorem Sane.heard_pushed (hu : ∀ i, 0 < L.up i) (h : a.Sane L r) : a.heard ≤ a.pushed :=
  cum_le_inv hu (by have := h.heard_got; have := h.got_sent; have := h.sent_pushed; omega)

theorem sane_type (h : a.Sane L r) : (a.type L).Sane L r := by
  unfold type
  split
  · exact h
  · rename_i hc
    simp only [Bool.or_eq_true, decide_eq_true_eq, not_or, Bool.not_eq_true] at hc
    obtain ⟨⟨hg, hch⟩, hp⟩ := hc
    have hpu : ({ a with typed := a.typed + 1, chan := true } : Count).pushed = a.pushed := by simp [pushed, held, hch]
    have hhe : ({ a with typed := a.typed + 1, chan := true } : Count).held = a.held := by simp [held, hch]
    have han : ({ a with typed := a.typed + 1, chan := true } : Count).answered = a.answered := rfl
    refine ⟨h.heard_got, h.got_sent, ?_, h.read_back, h.back_answered, fun _ => Nat.succ_pos _, ?_, ?_, h.starting, h.middle, h.holds, h.ending, h.over, h.eof, ?_, ?_, ?_,
      h.down_queue, h.up_net, h.down_net, h.up_read⟩
    · rw [hpu]; exact h.sent_pushed
    · rw [hhe]; exact h.held_pos
    · intro i hi
      by_cases hi' : i + 1 < a.typed
      · exact h.before i hi'
      · simp only at hi
        simp only [gone, Bool.and_eq_false_iff, decide_eq_false_iff_not] at hg
        obtain rfl : i = a.typed - 1 := by omega
        exact hg.resolve_left (by omega)
    · intro hl
      have := h.leaving hl
      rw [hg] at this
      exact absurd this.2.1 (by decide)
    · rw [hpu]; exact h.left
    · rw [hpu]; exact h.up_queue

theorem sane_cflush (k : Nat) (h : a.Sane L r) : (a.cflush L r k).Sane L r := by
  have h1 := h.got_sent
  have h2 := h.sent_pushed
  have h3 := h.up_net
  refine ⟨h.heard_got, ?_, ?_, h.read_back, h.back_answered, h.typed_pos, h.held_pos, h.before, h.starting, h.middle, h.holds, h.ending, h.over, h.eof, h.leaving, ?_, ?_,
    h.down_queue, ?_, h.down_net, h.up_read⟩
  · simp only [cflush]; omega
  · show (a.cflush L r k).sent ≤ cum L.up a.pushed
    simp only [cflush]; omega
  · intro hp
    have := h.left hp
    show (a.cflush L r k).sent = cum L.up a.pushed
    simp only [cflush]; omega
  · intro hp
    have := h.up_queue hp
    show cum L.up (a.pushed - 1) < 8192 + (a.cflush L r k).sent
    simp only [cflush]; omega
  · simp only [cflush]; omega

theorem sane_sflush (k : Nat) (h : a.Sane L r) : (a.sflush L r k).Sane L r := by
  have h1 := h.read_back
  have h2 := h.back_answered
  have h3 := h.down_net
  refine ⟨h.heard_got, h.got_sent, h.sent_pushed, ?_, ?_, h.typed_pos, h.held_pos, h.before, h.starting, h.middle, h.holds, h.ending, ?_, ?_, h.leaving, h.left, h.up_queue, ?_,
    h.up_net, ?_, h.up_read⟩
  · simp only [sflush]; omega
  · show (a.sflush L r k).back ≤ cum L.down a.answered
    simp only [sflush]; omega
  · intro hp
    have := h.over hp
    show (a.sflush L r k).back = cum L.down a.answered
    simp only [sflush]; omega
  · intro he
    have := h.eof he
    have h4 := h.over this.1
    refine ⟨this.1, ?_⟩
    simp only [sflush]; omega
  · intro hp
    have := h.down_queue hp
    show cum L.down (a.answered - 1) < 8192 + (a.sflush L r k).back
    simp only [sflush]; omega
  · simp only [sflush]; omega

/-- A change of the client's phase. -/
theorem sane_cphase (h : a.Sane L r) (p : CPhase) (hs : a.sent ≤ cum L.up ({ a with cphase := p } : Count).pushed)
    (hh : p = .holding → 0 < a.held) (hl : p = .closing ∨ p = .over → a.eof = true ∧ a.gone L = true ∧ a.chan = false)
    (ho : p = .over → a.sent = cum L.up a.pushed ∧ a.cphase ≠ .holding)
    (hq : 0 < ({ a with cphase := p } : Count).pushed → cum L.up (({ a with cphase := p } : Count).pushed - 1) < 8192 + a.sent) :
    ({ a with cphase := p } : Count).Sane L r := by
  refine ⟨h.heard_got, h.got_sent, hs, h.read_back, h.back_answered, h.typed_pos, hh, h.before, h.starting, h.middle, h.holds, h.ending, h.over, h.eof, hl, ?_, hq,
    h.down_queue, h.up_net, h.down_net, h.up_read⟩
  intro hp
  simp only at hp
  subst hp
  have := ho rfl
  simp only [pushed, held] at this ⊢
  simpa [this.2] using this.1

/-- The server puts a message into its sink. -/
theorem sane_sphase (h : a.Sane L r) (p : SPhase) (hans : ({ a with sphase := p } : Count).answered = a.answered + 1)
    (hq : cum L.down a.answered - a.back < 8192) (hst : p = .greet ∨ p = .greeting → a.heard = 0)
    (hmid : p = .idle ∨ p = .holding → 0 < a.heard → L.last (a.heard - 1) = false) (hho : p ≠ .holding)
    (hend : p = .closing ∨ p = .part ∨ p = .parting ∨ p = .over → 0 < a.heard ∧ L.last (a.heard - 1) = true) (hov : p ≠ .over) (hov' : a.sphase ≠ .over) :
    ({ a with sphase := p } : Count).Sane L r := by
  have h2 := h.back_answered
  have hm := cum_mono (len := L.down) (Nat.le_add_right a.answered 1)
  refine ⟨h.heard_got, h.got_sent, h.sent_pushed, h.read_back, ?_, h.typed_pos, h.held_pos, h.before, hst, hmid, fun hp => absurd hp hho, hend, fun hp => absurd hp hov,
    fun he => absurd (h.eof he).1 hov', h.leaving, h.left, h.up_queue, ?_, h.up_net, h.down_net, h.up_read⟩
  · rw [hans]; show a.back ≤ _; omega
  · intro _
    rw [hans]
    show cum L.down (a.answered + 1 - 1) < 8192 + a.back
    rw [Nat.add_sub_cancel]
    omega

/-- Or goes on when everything is flushed. -/
theorem sane_sphase' (h : a.Sane L r) (p : SPhase) (hans : ({ a with sphase := p } : Count).answered = a.answered)
    (hq : a.back = cum L.down a.answered) (hst : p = .greet ∨ p = .greeting → a.heard = 0)
    (hmid : p = .idle ∨ p = .holding → 0 < a.heard → L.last (a.heard - 1) = false) (hho : p ≠ .holding)
    (hend : p = .closing ∨ p = .part ∨ p = .parting ∨ p = .over → 0 < a.heard ∧ L.last (a.heard - 1) = true) (hov' : a.sphase ≠ .over) :
    ({ a with sphase := p } : Count).Sane L r := by
  refine ⟨h.heard_got, h.got_sent, h.sent_pushed, h.read_back, ?_, h.typed_pos, h.held_pos, h.before, hst, hmid, fun hp => absurd hp hho, hend, ?_,
    fun he => absurd (h.eof he).1 hov', h.leaving, h.left, h.up_queue, ?_, h.up_net, h.down_net, h.up_read⟩
  · rw [hans]; exact h.back_answered
  · intro _; rw [hans]; exact hq
  · rw [hans]; exact h.down_queue

theorem sane_item (h : a.Sane L r) (hi : a.sphase = .idle) (hg : cum L.up (a.heard + 1) ≤ a.got) : (a.item L).Sane L r := by
  have hm := cum_mono (len := L.up) (Nat.le_add_right (a.heard + 1) 1)
  have hans : (a.item L).answered = a.answered := by
    simp only [item, answered, hi]
    split <;> rename_i hx <;> split at hx <;> simp_all
  refine ⟨hg, h.got_sent, h.sent_pushed, h.read_back, ?_, h.typed_pos, h.held_pos, h.before, ?_, ?_, fun _ => Nat.succ_pos _, ?_, ?_, ?_, h.leaving, h.left, h.up_queue, ?_,
    h.up_net, h.down_net, ?_⟩
  · rw [hans]; exact h.back_answered
  · intro hp; simp only [item] at hp; split at hp <;> simp at hp
  · intro hp _
    simp only [item] at hp ⊢
    split at hp
    · simp at hp
    · rename_i hl; simpa using hl
  · intro hp
    simp only [item] at hp ⊢
    split at hp
    · rename_i hl; simpa using hl
    · simp at hp
  · intro hp; simp only [item] at hp; split at hp <;> simp at hp
  · intro he; exact absurd (h.eof he).1 (by rw [hi]; decide)
  · rw [hans]; exact h.down_queue
  · show a.got ≤ cum L.up (a.heard + 1 + 1) + r.up
    have := h.up_read
    omega

theorem sane_got (h : a.Sane L r) (n : Nat) (hg : ¬ cum L.up (a.heard + 1) ≤ a.got) :
    ({ a with got := a.got + min n (a.sent - a.got) } : Count).Sane L r := by
  have h1 := h.got_sent
  have h2 := h.heard_got
  have h3 := h.up_net
  refine ⟨?_, ?_, h.sent_pushed, h.read_back, h.back_answered, h.typed_pos, h.held_pos, h.before, h.starting, h.middle, h.holds, h.ending, h.over, h.eof, h.leaving, h.left,
    h.up_queue, h.down_queue, ?_, h.down_net, ?_⟩ <;> simp only <;> omega

theorem sane_spush (k : Nat) (next : SPhase) (h : a.Sane L r) (hans : ({ a with sphase := next } : Count).answered = a.answered + 1)
    (hst : next = .greet ∨ next = .greeting → a.heard = 0)
    (hmid : next = .idle ∨ next = .holding → 0 < a.heard → L.last (a.heard - 1) = false) (hho : next ≠ .holding)
    (hend : next = .closing ∨ next = .part ∨ next = .parting ∨ next = .over → 0 < a.heard ∧ L.last (a.heard - 1) = true) (hov : next ≠ .over)
    (hov' : a.sphase ≠ .over) : (a.spush L r k next).Sane L r := by
  unfold spush
  split
  · rename_i hq
    exact sane_sphase h next hans hq hst hmid hho hend hov hov'
  · split
    · rename_i hq
      exact sane_sphase (sane_sflush k h) next hans hq hst hmid hho hend hov hov'
    · exact sane_sflush k h

theorem sane_sdone (k : Nat) (next : SPhase) (h : a.Sane L r) (hans : ({ a with sphase := next } : Count).answered = a.answered)
    (hst : next = .greet ∨ next = .greeting → a.heard = 0)
    (hmid : next = .idle ∨ next = .holding → 0 < a.heard → L.last (a.heard - 1) = false) (hho : next ≠ .holding)
    (hend : next = .closing ∨ next = .part ∨ next = .parting ∨ next = .over → 0 < a.heard ∧ L.last (a.heard - 1) = true)
    (hov' : a.sphase ≠ .over) : (a.sdone L r k next).Sane L r := by
  unfold sdone
  split
  · rename_i hq
    exact sane_sphase' (sane_sflush k h) next hans hq hst hmid hho hend hov'
  · exact sane_sflush k h

theorem sane_serve (n k : Nat) (h : a.Sane L r) : (a.serve L r n k).Sane L r := by
  unfold serve
  split <;> rename_i hp
  · exact h
  · have h0 := h.starting (.inl hp)
    exact sane_spush k _ h (by simp [answered, hp]) (fun _ => h0) (by simp) (by simp) (by simp) (by simp) (by simp [hp])
  · have h0 := h.starting (.inr hp)
    exact sane_sdone k _ h (by simp [answered, hp, h0]) (by simp) (fun _ => by omega) (by simp) (by simp) (by simp [hp])
  · have h0 := h.middle (.inr hp)
    exact sane_spush k _ h (by simp [answered, hp]) (by simp) (fun _ => h0) (by simp) (by simp) (by simp) (by simp [hp])
  · split
    · exact sane_item h hp ‹_›
    · split
      · exact sane_item (sane_got h n ‹_›) hp ‹_›
      · exact sane_sflush k (sane_got h n ‹_›)
  · have h0 := h.ending (.inl hp)
    exact sane_sdone k _ h (by simp [answered, hp]) (by simp) (by simp) (by simp) (fun _ => h0) (by simp [hp])
  · have h0 := h.ending (.inr (.inl hp))
    exact sane_spush k _ h (by simp [answered, hp]) (by simp) (by simp) (by simp) (fun _ => h0) (by simp) (by simp [hp])
  · have h0 := h.ending (.inr (.inr (.inl hp)))
    exact sane_sdone k _ h (by simp [answered, hp]) (by simp) (by simp) (by simp) (fun _ => h0) (by simp [hp])

theorem sane_reading (n : Nat) (h : a.Sane L r) : (a.reading n).Sane L r := by
  have h1 := h.read_back
  have h2 := h.down_net
  have hrb : (a.reading n).read ≤ (a.reading n).back := by
    simp only [reading]
    split <;> omega
  have hrr : a.read ≤ (a.reading n).read := by
    simp only [reading]
    split <;> omega
  refine ⟨h.heard_got, h.got_sent, h.sent_pushed, hrb, h.back_answered, h.typed_pos, h.held_pos, h.before, h.starting, h.middle, h.holds, h.ending, h.over, ?_, ?_, h.left,
    h.up_queue, h.down_queue, h.up_net, ?_, h.up_read⟩
  · intro he
    have : a.sphase = .over ∧ a.read = a.back := by
      simp only [reading, Bool.or_eq_true, Bool.and_eq_true, decide_eq_true_eq] at he
      rcases he with he | ⟨⟨_, hr⟩, ho⟩
      · exact h.eof he
      · exact ⟨ho, hr.symm⟩
    refine ⟨this.1, ?_⟩
    have : (a.reading n).back = a.back := rfl
    omega
  · intro hl
    have := h.leaving hl
    refine ⟨?_, this.2⟩
    simp [reading, this.1]
  · have : (a.reading n).back = a.back := rfl
    omega

theorem sane_flag (f : Bool) (h : a.Sane L r) : ({ a with flag := f } : Count).Sane L r :=
  ⟨h.heard_got, h.got_sent, h.sent_pushed, h.read_back, h.back_answered, h.typed_pos, h.held_pos, h.before, h.starting, h.middle, h.holds, h.ending, h.over, h.eof, h.leaving,
    h.left, h.up_queue, h.down_queue, h.up_net, h.down_net, h.up_read⟩

/-- The client's task takes a message out of the channel. -/
theorem sane_take (h : a.Sane L r) (hc : a.chan = true) (hp : a.cphase = .idle) : ({ a with chan := false, cphase := .holding } : Count).Sane L r := by
  have h0 := h.typed_pos hc
  have hpu : ({ a with chan := false, cphase := .holding } : Count).pushed = a.pushed := by simp [pushed, held, hc, hp]
  refine ⟨h.heard_got, h.got_sent, ?_, h.read_back, h.back_answered, by simp, ?_, h.before, h.starting, h.middle, h.holds, h.ending, h.over, h.eof, by simp, by simp, ?_,
    h.down_queue, h.up_net, h.down_net, h.up_read⟩
  · rw [hpu]; exact h.sent_pushed
  · intro _; simpa [held] using h0
  · rw [hpu]; exact h.up_queue

theorem sane_unhold (h : a.Sane L r) (hp : a.cphase = .holding) (hq : cum L.up a.pushed - a.sent < 8192) : ({ a with cphase := .idle } : Count).Sane L r := by
  have h0 := h.held_pos hp
  have h1 := h.sent_pushed
  have hpu : ({ a with cphase := .idle } : Count).pushed = a.pushed + 1 := by
    simp only [pushed, held, hp] at h0 ⊢
    simp only [decide_true, Bool.toNat_true, reduceCtorEq, decide_false, Bool.toNat_false]
    omega
  have hm := cum_mono (len := L.up) (Nat.le_add_right a.pushed 1)
  refine sane_cphase h .idle ?_ (by simp) (by simp) (by simp) ?_
  · rw [hpu]; omega
  · intro _
    rw [hpu, Nat.add_sub_cancel]
    omega

theorem sane_chat (n k : Nat) (h : a.Sane L r) : (a.chat L r n k).Sane L r := by
  unfold chat
  split <;> rename_i hp
  · exact h
  · have hf := sane_cflush k h
    split
    · rename_i he
      have hl := h.leaving (.inl hp)
      have hpu : ({ a.cflush L r k with cphase := .over } : Count).pushed = a.pushed := by
        simp [pushed, held, cflush, hp]
      refine sane_cphase hf .over ?_ (by simp) (fun _ => hl) (fun _ => ⟨he, ?_⟩) ?_
      · rw [hpu]; omega
      · show a.cphase ≠ _; simp [hp]
      · rw [hpu]; exact hf.up_queue
    · exact hf
  · split
    · exact sane_unhold h hp ‹_›
    · split
      · exact sane_unhold (sane_cflush k h) hp ‹_›
      · exact sane_cflush k h
  · have hr := sane_reading n h
    split
    · exact sane_flag _ (sane_take hr ‹_› hp)
    · split
      · rename_i hg
        have hpu : ({ a.reading n with cphase := .closing } : Count).pushed = (a.reading n).pushed := by
          simp [pushed, held, reading, hp]
        simp only [Bool.and_eq_true] at hg
        refine sane_flag _ (sane_cphase hr .closing ?_ (by simp) (fun _ => ⟨hg.2, hg.1, ?_⟩) (by simp) ?_)
        · rw [hpu]; exact hr.sent_pushed
        · show a.chan = false
          simpa using ‹¬ a.chan = true›
        · rw [hpu]; exact hr.up_queue
      · exact sane_cflush k (sane_flag _ hr)


def step (L : Lens) (r : Room) (a : Count) : Move → Count
  | .type => a.type L
  | .chat n k => a.chat L r n k
  | .serve n k => a.serve L r n k

theorem sane_step (h : a.Sane L r) (e : Move) : (a.step L r e).Sane L r := by
  cases e with
  | type => exact sane_type h
  | chat n k => exact sane_chat n k h
  | serve n k => exact sane_serve n k h

/-! ## What only grows -/

def cstage (a : Count) : Nat :=
  match a.cphase with
  | .idle | .holding => 0
  | .closing => 1
  | .over => 2

def sstage (a : Count) : Nat :=
  match a.sphase with
  | .greet => 0
  | .greeting => 1
  | .idle | .holding => 2
  | .closing => 3
  | .part => 4
  | .parting => 5
  | .over => 6

def pot (a : Count) : Nat :=
  a.typed + a.held + a.pushed + a.sent + a.got + a.heard + a.answered + a.sstage + a.back + a.read + a.eof.toNat + a.cstage

structure Grows (a b : Count) : Prop where
  typed : a.typed ≤ b.typed
  held : a.held ≤ b.held
  pushed : a.pushed ≤ b.pushed
  sent : a.sent ≤ b.sent
  got : a.got ≤ b.got
  heard : a.heard ≤ b.heard
  answered : a.answered ≤ b.answered
  sstage : a.sstage ≤ b.sstage
  back : a.back ≤ b.back
  read : a.read ≤ b.read
  eof : a.eof.toNat ≤ b.eof.toNat
  cstage : a.cstage ≤ b.cstage

theorem Grows.refl (a : Count) : Grows a a :=
  ⟨Nat.le_refl _, Nat.le_refl _, Nat.le_refl _, Nat.le_refl _, Nat.le_refl _, Nat.le_refl _, Nat.le_refl _, Nat.le_refl _, Nat.le_refl _, Nat.le_refl _, Nat.le_refl _,
    Nat.le_refl _⟩

theorem Grows.trans {a b c : Count} (h : Grows a b) (g : Grows b c) : Grows a c :=
  ⟨Nat.le_trans h.1 g.1, Nat.le_trans h.2 g.2, Nat.le_trans h.3 g.3, Nat.le_trans h.4 g.4, Nat.le_trans h.5 g.5, Nat.le_trans h.6 g.6, Nat.le_trans h.7 g.7,
    Nat.le_trans h.8 g.8, Nat.le_trans h.9 g.9, Nat.le_trans h.10 g.10, Nat.le_trans h.11 g.11, Nat.le_trans h.12 g.12⟩

theorem Grows.pot_le {a b : Count} (h : Grows a b) : a.pot ≤ b.pot := by
  obtain ⟨h1, h2, h3, h4, h5, h6, h7, h8, h9, h10, h11, h12⟩ := h
  simp only [pot]
  omega

/-- If nothing grows, nothing changes but whose turn it is inside `Select`. -/
theorem Grows.same {a b : Count} (h : Grows a b) (ha : a.Sane L r) (hb : b.Sane L r) (hp : b.pot ≤ a.pot) : b = { a with flag := b.flag } := by
  obtain ⟨h1, h2, h3, h4, h5, h6, h7, h8, h9, h10, h11, h12⟩ := h
  have e1 : b.typed = a.typed := by simp only [pot] at hp; omega
  have e2 : b.held = a.held := by simp only [pot] at hp; omega
  have e3 : b.pushed = a.pushed := by simp only [pot] at hp; omega
  have e4 : b.sent = a.sent := by simp only [pot] at hp; omega
  have e5 : b.got = a.got := by simp only [pot] at hp; omega
  have e6 : b.heard = a.heard := by simp only [pot] at hp; omega
  have e7 : b.answered = a.answered := by simp only [pot] at hp; omega
  have e8 : b.sstage = a.sstage := by simp only [pot] at hp; omega
  have e9 : b.back = a.back := by simp only [pot] at hp; omega
  have e10 : b.read = a.read := by simp only [pot] at hp; omega
  have e11 : b.eof.toNat = a.eof.toNat := by simp only [pot] at hp; omega
  have e12 : b.cstage = a.cstage := by simp only [pot] at hp; omega
  have c11 : b.eof = a.eof := by
    revert e11; cases b.eof <;> cases a.eof <;> simp
  have c2 : b.chan = a.chan := by
    have t1 := ha.typed_pos
    have t2 := hb.typed_pos
    simp only [Count.held, e1] at e2
    rw [e1] at t2
    revert t1 t2 e2
    cases b.chan <;> cases a.chan <;> simp <;> omega
  have c3 : b.cphase = a.cphase := by
    have t1 := ha.held_pos
    have t2 := hb.held_pos
    rw [e2] at t2
    simp only [Count.pushed, e2] at e3
    simp only [Count.cstage] at e12
    revert t1 t2 e3 e12
    cases b.cphase <;> cases a.cphase <;> simp <;> omega
  have c8 : b.sphase = a.sphase := by
    simp only [Count.answered, e6] at e7
    simp only [Count.sstage] at e8
    revert e7 e8
    cases b.sphase <;> cases a.sphase <;> simp
  cases a; cases b
  simp only at e1 e4 e5 e6 e9 e10 c11 c2 c3 c8
  subst e1 e4 e5 e6 e9 e10 c11 c2 c3 c8
  rfl

theorem grows_type : Grows a (a.type L) := by
  unfold type
  split
  · exact .refl a
  · rename_i hc
    simp only [Bool.or_eq_true, decide_eq_true_eq, not_or, Bool.not_eq_true] at hc
    refine ⟨Nat.le_add_right _ _, ?_, ?_, Nat.le_refl _, Nat.le_refl _, Nat.le_refl _, Nat.le_refl _, Nat.le_refl _, Nat.le_refl _, Nat.le_refl _, Nat.le_refl _, Nat.le_refl _⟩
    · simp [held, hc.1.2]
    · simp [pushed, held, hc.1.2]

theorem grows_cflush (k : Nat) : Grows a (a.cflush L r k) :=
  ⟨Nat.le_refl _, Nat.le_refl _, Nat.le_refl _, Nat.le_add_right _ _, Nat.le_refl _, Nat.le_refl _, Nat.le_refl _, Nat.le_refl _, Nat.le_refl _, Nat.le_refl _, Nat.le_refl _,
    Nat.le_refl _⟩

theorem grows_sflush (k : Nat) : Grows a (a.sflush L r k) :=
  ⟨Nat.le_refl _, Nat.le_refl _, Nat.le_refl _, Nat.le_refl _, Nat.le_refl _, Nat.le_refl _, Nat.le_refl _, Nat.le_refl _, Nat.le_add_right _ _, Nat.le_refl _, Nat.le_refl _,
    Nat.le_refl _⟩

theorem grows_flag (f : Bool) : Grows a { a with flag := f } :=
  ⟨Nat.le_refl _, Nat.le_refl _, Nat.le_refl _, Nat.le_refl _, Nat.le_refl _, Nat.le_refl _, Nat.le_refl _, Nat.le_refl _, Nat.le_refl _, Nat.le_refl _, Nat.le_refl _,
    Nat.le_refl _⟩

theorem grows_reading (n : Nat) : Grows a (a.reading n) := by
  refine ⟨Nat.le_refl _, Nat.le_refl _, Nat.le_refl _, Nat.le_refl _, Nat.le_refl _, Nat.le_refl _, Nat.le_refl _, Nat.le_refl _, Nat.le_refl _, ?_, ?_, Nat.le_refl _⟩
  · simp only [reading]; split <;> omega
  · simp only [reading]
    cases a.eof <;> simp

theorem grows_sphase (p : SPhase) (h1 : a.answered ≤ ({ a with sphase := p } : Count).answered) (h2 : a.sstage ≤ ({ a with sphase := p } : Count).sstage) :
    Grows a { a with sphase := p } :=
  ⟨Nat.le_refl _, Nat.le_refl _, Nat.le_refl _, Nat.le_refl _, Nat.le_refl _, Nat.le_refl _, h1, h2, Nat.le_refl _, Nat.le_refl _, Nat.le_refl _,
    Nat.le_refl _⟩

theorem grows_cphase (p : CPhase) (h1 : a.pushed ≤ ({ a with cphase := p } : Count).pushed) (h2 : a.cstage ≤ ({ a with cphase := p } : Count).cstage) :
    Grows a { a with cphase := p } :=
  ⟨Nat.le_refl _, Nat.le_refl _, h1, Nat.le_refl _, Nat.le_refl _, Nat.le_refl _, Nat.le_refl _, Nat.le_refl _, Nat.le_refl _, Nat.le_refl _, Nat.le_refl _,
    h2⟩

theorem grows_item (hi : a.sphase = .idle) : Grows a (a.item L) := by
  refine ⟨Nat.le_refl _, Nat.le_refl _, Nat.le_refl _, Nat.le_refl _, Nat.le_refl _, Nat.le_add_right _ _, ?_, ?_, Nat.le_refl _, Nat.le_refl _, Nat.le_refl _, Nat.le_refl _⟩
  · simp only [item, answered, hi]
    cases L.last a.heard <;> simp
  · simp only [item, sstage, hi]
    cases L.last a.heard <;> simp

theorem grows_got (n : Nat) : Grows a { a with got := a.got + min n (a.sent - a.got) } :=
  ⟨Nat.le_refl _, Nat.le_refl _, Nat.le_refl _, Nat.le_refl _, Nat.le_add_right _ _, Nat.le_refl _, Nat.le_refl _, Nat.le_refl _, Nat.le_refl _, Nat.le_refl _, Nat.le_refl _,
    Nat.le_refl _⟩

theorem grows_spush (k : Nat) (p : SPhase) (h1 : a.answered ≤ ({ a with sphase := p } : Count).answered) (h2 : a.sstage ≤ ({ a with sphase := p } : Count).sstage) :
    Grows a (a.spush L r k p) := by
  unfold spush
  split
  · exact grows_sphase p h1 h2
  · split
    · exact (grows_sflush k).trans (grows_sphase (a := a.sflush L r k) p h1 h2)
    · exact grows_sflush k

theorem grows_sdone (k : Nat) (p : SPhase) (h1 : a.answered ≤ ({ a with sphase := p } : Count).answered) (h2 : a.sstage ≤ ({ a with sphase := p } : Count).sstage) :
    Grows a (a.sdone L r k p) := by
  unfold sdone
  split
  · exact (grows_sflush k).trans (grows_sphase (a := a.sflush L r k) p h1 h2)
  · exact grows_sflush k

theorem grows_serve (n k : Nat) : Grows a (a.serve L r n k) := by
  unfold serve
  split <;> rename_i hp
  · exact .refl a
  · exact grows_spush k _ (by simp [answered, hp]) (by simp [sstage, hp])
  · exact grows_sdone k _ (by simp [answered, hp]) (by simp [sstage, hp])
  · exact grows_spush k _ (by simp [answered, hp]) (by simp [sstage, hp])
  · split
    · exact grows_item hp
    · split
      · exact (grows_got n).trans (grows_item (a := { a with got := a.got + min n (a.sent - a.got) }) hp)
      · exact (grows_got n).trans (grows_sflush k)
  · exact grows_sdone k _ (by simp [answered, hp]) (by simp [sstage, hp])
  · exact grows_spush k _ (by simp [answered, hp]) (by simp [sstage, hp])
  · exact grows_sdone k _ (by simp [answered, hp]) (by simp [sstage, hp])

theorem grows_take (f : Bool) (hc : a.chan = true) (hp : a.cphase = .idle) : Grows a { a with chan := false, cphase := .holding, flag := f } := by
  refine ⟨Nat.le_refl _, ?_, ?_, Nat.le_refl _, Nat.le_refl _, Nat.le_refl _, Nat.le_refl _, Nat.le_refl _, Nat.le_refl _, Nat.le_refl _, Nat.le_refl _, ?_⟩
  · simp [held]
  · simp [pushed, held, hc, hp]
  · simp [cstage, hp]

theorem grows_chat (n k : Nat) : Grows a (a.chat L r n k) := by
  unfold chat
  split <;> rename_i hp
  · exact .refl a
  · split
    · exact (grows_cflush k).trans (grows_cphase (a := a.cflush L r k) .over (by simp [pushed, held, cflush, hp]) (by simp [cstage, cflush, hp]))
    · exact grows_cflush k
  · have h1 : ∀ b : Count, b.cphase = .holding → Grows b { b with cphase := .idle } := fun b hb =>
      grows_cphase .idle (by simp [pushed, held, hb]) (by simp [cstage, hb])
    split
    · exact h1 a hp
    · split
      · exact (grows_cflush k).trans (h1 (a.cflush L r k) hp)
      · exact grows_cflush k
  · split
    · exact (grows_reading n).trans (grows_take (a := a.reading n) _ ‹_› hp)
    · split
      · refine (grows_reading n).trans ((grows_flag (!a.flag)).trans (grows_cphase (a := { a.reading n with flag := !a.flag }) .closing ?_ ?_))
        · simp [pushed, held, reading, hp]
        · simp [cstage, reading, hp]
      · exact (grows_reading n).trans ((grows_flag (!a.flag)).trans (grows_cflush k))

theorem grows_step (e : Move) : Grows a (a.step L r e) := by
  cases e with
  | type => exact grows_type
  | chat n k => exact grows_chat n k
  | serve n k => exact grows_serve n k

/-! ## When nothing grows -/

def Final (a : Count) : Prop := a.cphase = .over ∧ a.sphase = .over

/-- The client holds a line that its sink does not take, the server does not read because it waits to send, and the network is full both ways. -/
def Jam (L : Lens) (r : Room) (a : Count) : Prop :=
  a.cphase = .holding ∧ 8192 ≤ cum L.up a.pushed - a.sent ∧ r.up ≤ a.sent - a.got ∧ r.down ≤ a.back - a.read ∧
    (a.sphase = .holding ∧ 8192 ≤ cum L.down a.answered - a.back ∨ a.sphase = .greeting ∧ a.back < cum L.down a.answered)

theorem pot_lt_of_sent {b : Count} (h : Grows a b) (hs : a.sent < b.sent) : a.pot < b.pot := by
  obtain ⟨h1, h2, h3, h4, h5, h6, h7, h8, h9, h10, h11, h12⟩ := h
  simp only [pot]; omega

theorem pot_lt_of_back {b : Count} (h : Grows a b) (hs : a.back < b.back) : a.pot < b.pot := by
  obtain ⟨h1, h2, h3, h4, h5, h6, h7, h8, h9, h10, h11, h12⟩ := h
  simp only [pot]; omega

theorem pot_lt_of_got {b : Count} (h : Grows a b) (hs : a.got < b.got) : a.pot < b.pot := by
  obtain ⟨h1, h2, h3, h4, h5, h6, h7, h8, h9, h10, h11, h12⟩ := h
  simp only [pot]; omega

theorem pot_lt_of_heard {b : Count} (h : Grows a b) (hs : a.heard < b.heard) : a.pot < b.pot := by
  obtain ⟨h1, h2, h3, h4, h5, h6, h7, h8, h9, h10, h11, h12⟩ := h
  simp only [pot]; omega

theorem pot_lt_of_typed {b : Count} (h : Grows a b) (hs : a.typed < b.typed) : a.pot < b.pot := by
  obtain ⟨h1, h2, h3, h4, h5, h6, h7, h8, h9, h10, h11, h12⟩ := h
  simp only [pot]; omega

theorem pot_lt_of_read {b : Count} (h : Grows a b) (hs : a.read < b.read) : a.pot < b.pot := by
  obtain ⟨h1, h2, h3, h4, h5, h6, h7, h8, h9, h10, h11, h12⟩ := h
  simp only [pot]; omega

theorem pot_lt_of_sstage {b : Count} (h : Grows a b) (hs : a.sstage < b.sstage) : a.pot < b.pot := by
  obtain ⟨h1, h2, h3, h4, h5, h6, h7, h8, h9, h10, h11, h12⟩ := h
  simp only [pot]; omega

theorem pot_lt_of_cstage {b : Count} (h : Grows a b) (hs : a.cstage < b.cstage) : a.pot < b.pot := by
  obtain ⟨h1, h2, h3, h4, h5, h6, h7, h8, h9, h10, h11, h12⟩ := h
  simp only [pot]; omega

theorem pot_lt_of_eof {b : Count} (h : Grows a b) (hs : a.eof = false) (hs' : b.eof = true) : a.pot < b.pot := by
  obtain ⟨h1, h2, h3, h4, h5, h6, h7, h8, h9, h10, h11, h12⟩ := h
  simp only [pot, hs, hs', Bool.toNat_true, Bool.toNat_false]; omega

theorem pot_lt_of_answered {b : Count} (h : Grows a b) (hs : a.answered < b.answered) : a.pot < b.pot := by
  obtain ⟨h1, h2, h3, h4, h5, h6, h7, h8, h9, h10, h11, h12⟩ := h
  simp only [pot]; omega

theorem pot_lt_of_held {b : Count} (h : Grows a b) (hs : a.held < b.held) : a.pot < b.pot := by
  obtain ⟨h1, h2, h3, h4, h5, h6, h7, h8, h9, h10, h11, h12⟩ := h
  simp only [pot]; omega

theorem pot_lt_of_pushed {b : Count} (h : Grows a b) (hs : a.pushed < b.pushed) : a.pot < b.pot := by
  obtain ⟨h1, h2, h3, h4, h5, h6, h7, h8, h9, h10, h11, h12⟩ := h
  simp only [pot]; omega

/-- The sends of the server: it goes on, or something leaves, unless the network is full and there is a reason to wait. -/
theorem spush_moves (k : Nat) (p : SPhase) (n : Nat) (hp' : a.serve L r n (k + 1) = a.spush L r (k + 1) p)
    (h1 : a.answered < ({ a with sphase := p } : Count).answered)
    (hw : ¬ (r.down ≤ a.back - a.read ∧ 8192 ≤ cum L.down a.answered - a.back)) : a.pot < (a.serve L r n (k + 1)).pot := by
  have hg := grows_serve (L := L) (r := r) (a := a) n (k + 1)
  by_cases hq : cum L.down a.answered - a.back < 8192
  · refine pot_lt_of_answered hg ?_
    rw [hp']; unfold spush; rw [if_pos hq]; exact h1
  · have hb : a.back < (a.sflush L r (k + 1)).back := by simp only [sflush]; omega
    refine pot_lt_of_back hg ?_
    rw [hp']; unfold spush; rw [if_neg hq]
    split
    · exact hb
    · exact hb

theorem sdone_moves (k n : Nat) (p : SPhase) (hp : a.serve L r n (k + 1) = a.sdone L r (k + 1) p) (hs : a.Sane L r)
    (h1 : a.sstage < ({ a with sphase := p } : Count).sstage)
    (hw : ¬ (r.down ≤ a.back - a.read ∧ a.back < cum L.down a.answered)) : a.pot < (a.serve L r n (k + 1)).pot := by
  have hg := grows_serve (L := L) (r := r) (a := a) n (k + 1)
  have hba := hs.back_answered
  by_cases hq : a.back = cum L.down a.answered
  · refine pot_lt_of_sstage hg ?_
    have : (a.sflush L r (k + 1)).back = cum L.down a.answered := by simp only [sflush]; omega
    rw [hp]; unfold sdone; rw [if_pos this]; exact h1
  · have hb : a.back < (a.sflush L r (k + 1)).back := by simp only [sflush]; omega
    refine pot_lt_of_back hg ?_
    rw [hp]; unfold sdone
    split
    · exact hb
    · exact hb

/-- The server in its loop. -/
theorem idle_moves (k n : Nat) (hp : a.sphase = .idle) (hw : cum L.up (a.heard + 1) ≤ a.got ∨ a.got < a.sent) : a.pot < (a.serve L r (n + 1) (k + 1)).pot := by
  have hg := grows_serve (L := L) (r := r) (a := a) (n + 1) (k + 1)
  by_cases h : cum L.up (a.heard + 1) ≤ a.got
  · refine pot_lt_of_heard hg ?_
    unfold serve; simp only [hp]; rw [if_pos h]; exact Nat.lt_succ_self _
  · have hlt := hw.resolve_left h
    refine pot_lt_of_got hg ?_
    unfold serve; simp only [hp]; rw [if_neg h]
    split
    · simp only [item]; omega
    · simp only [sflush]; omega

theorem sane_gone_typed (h : a.gone L = true) : 0 < a.typed ∧ L.last (a.typed - 1) = true := by
  simpa [gone] using h

theorem chat_closing (hp : a.cphase = .closing) (n k : Nat) : a.chat L r n k =
    if (a.cflush L r k).sent = cum L.up a.pushed then { a.cflush L r k with cphase := .over } else a.cflush L r k := by
  unfold chat; simp only [hp]

theorem chat_holding (hp : a.cphase = .holding) (n k : Nat) : a.chat L r n k =
    if cum L.up a.pushed - a.sent < 8192 then { a with cphase := .idle }
    else if cum L.up a.pushed - (a.cflush L r k).sent < 8192 then { a.cflush L r k with cphase := .idle } else a.cflush L r k := by
  unfold chat; simp only [hp]

theorem chat_idle (hp : a.cphase = .idle) (n k : Nat) : a.chat L r n k =
    if a.chan then { a.reading n with chan := false, cphase := .holding, flag := !a.flag && (a.reading n).eof }
    else if a.gone L && (a.reading n).eof then { a.reading n with cphase := .closing, flag := !a.flag }
    else { a.reading n with flag := !a.flag }.cflush L r k := by
  unfold chat; simp only [hp]

/-- While the server has not seen the Close, or is idle after everything, there is more to do. -/
theorem moves (hu : ∀ i, 0 < L.up i) (hru : 0 < r.up) (hrd : 0 < r.down) (h : a.Sane L r) :
    a.Final ∨ a.Jam L r ∨ a.pot < (a.type L).pot ∨
      (∀ f n k, (0 < n ∨ a.gone L = false) → a.pot < (({ a with flag := f } : Count).chat L r n (k + 1)).pot) ∨
      (∀ n k, a.pot < (a.serve L r (n + 1) (k + 1)).pot) := by
  have hhp := h.heard_pushed hu
  have hgs := h.got_sent
  have hhg := h.heard_got
  have hsp := h.sent_pushed
  have hrb := h.read_back
  have hba := h.back_answered
  have hgc : ∀ f n k, Grows a (({ a with flag := f } : Count).chat L r n k) := fun f n k => (grows_flag f).trans (grows_chat n k)
  have hcs : a.cphase = .over ∨ a.cphase = .closing ∨ a.cphase = .holding ∨ a.cphase = .idle := by cases a.cphase <;> simp
  rcases hcs with hc | hc | hc | hc
  · have hl := h.leaving (.inr hc)
    exact .inl ⟨hc, (h.eof hl.1).1⟩
  · have hl := h.leaving (.inl hc)
    have hso := (h.eof hl.1).1
    have hend := h.ending (.inr (.inr (.inr hso)))
    have hpt : a.pushed ≤ a.typed := by simp only [pushed, held]; omega
    have hht : a.heard = a.typed := by
      by_cases hlt : a.heard - 1 + 1 < a.typed
      · have := h.before _ hlt
        rw [this] at hend
        exact absurd hend.2 (by decide)
      · omega
    have hph : a.pushed = a.heard := by omega
    refine .inr (.inr (.inr (.inl fun f n k _ => ?_)))
    refine pot_lt_of_cstage (hgc f n (k + 1)) ?_
    have : (({ a with flag := f } : Count).cflush L r (k + 1)).sent = cum L.up ({ a with flag := f } : Count).pushed := by
      have : ({ a with flag := f } : Count).pushed = a.pushed := rfl
      simp only [cflush, this, hph]
      rw [hph] at hsp
      omega
    rw [chat_closing (a := { a with flag := f }) hc, if_pos this]
    simp [cstage, hc]
  · have hheld := h.held_pos hc
    have hpl : a.pushed < a.typed := by
      have : a.pushed = a.held - 1 := by simp [pushed, hc]
      have : a.held ≤ a.typed := by simp only [held]; omega
      omega
    have hnl : ∀ p, (p = .closing ∨ p = .part ∨ p = .parting ∨ p = .over) → a.sphase ≠ p := by
      intro p hp he
      have hend := h.ending (by rw [he]; exact hp)
      have := h.before (a.heard - 1) (by omega)
      rw [this] at hend
      exact absurd hend.2 (by decide)
    by_cases hq : cum L.up a.pushed - a.sent < 8192
    · refine .inr (.inr (.inr (.inl fun f n k _ => ?_)))
      refine pot_lt_of_pushed (hgc f n (k + 1)) ?_
      rw [chat_holding (a := { a with flag := f }) hc, if_pos (show cum L.up ({ a with flag := f } : Count).pushed - a.sent < 8192 from hq)]
      have e : a.pushed = a.held - 1 := by simp [pushed, hc]
      have e' : ({ a with flag := f, cphase := .idle } : Count).pushed = a.held := by simp [pushed, held]
      show a.pushed < ({ a with flag := f, cphase := .idle } : Count).pushed
      rw [e', e]
      omega
    · by_cases hn : a.sent - a.got < r.up
      · refine .inr (.inr (.inr (.inl fun f n k _ => ?_)))
        refine pot_lt_of_sent (hgc f n (k + 1)) ?_
        have hb : a.sent < (({ a with flag := f } : Count).cflush L r (k + 1)).sent := by
          have : ({ a with flag := f } : Count).pushed = a.pushed := rfl
          simp only [cflush, this]
          omega
        rw [chat_holding (a := { a with flag := f }) hc, if_neg (show ¬ cum L.up ({ a with flag := f } : Count).pushed - a.sent < 8192 from hq)]
        split
        · exact hb
        · exact hb
      · cases hs : a.sphase with
        | greet =>
          refine .inr (.inr (.inr (.inr fun n k => ?_)))
          refine spush_moves k .greeting _ (by simp [serve, hs]) (by simp [answered, hs]) ?_
          rintro ⟨_, h2⟩
          simp [answered, hs, cum] at h2
        | greeting =>
          by_cases hd : r.down ≤ a.back - a.read ∧ a.back < cum L.down a.answered
          · exact .inr (.inl ⟨hc, by omega, by omega, hd.1, .inr ⟨hs, hd.2⟩⟩)
          · exact .inr (.inr (.inr (.inr fun n k => sdone_moves k _ .idle (by simp [serve, hs]) h (by simp [sstage, hs]) hd)))
        | idle => exact .inr (.inr (.inr (.inr fun n k => idle_moves k n hs (.inr (by omega)))))
        | holding =>
          by_cases hd : r.down ≤ a.back - a.read ∧ 8192 ≤ cum L.down a.answered - a.back
          · exact .inr (.inl ⟨hc, by omega, by omega, hd.1, .inl ⟨hs, hd.2⟩⟩)
          · exact .inr (.inr (.inr (.inr fun n k => spush_moves k .idle _ (by simp [serve, hs]) (by simp [answered, hs]) hd)))
        | closing => exact absurd hs (hnl _ (by simp))
        | part => exact absurd hs (hnl _ (by simp))
        | parting => exact absurd hs (hnl _ (by simp))
        | over => exact absurd hs (hnl _ (by simp))
  · rcases Bool.eq_false_or_eq_true a.chan with hch | hch
    · refine .inr (.inr (.inr (.inl fun f n k _ => ?_)))
      refine pot_lt_of_held (hgc f n (k + 1)) ?_
      have := h.typed_pos hch
      rw [chat_idle (a := { a with flag := f }) hc, if_pos (show ({ a with flag := f } : Count).chan = true from hch)]
      simp only [held, reading, hch, Bool.toNat_true, Bool.toNat_false]
      omega
    · cases hg : a.gone L with
      | false =>
        refine .inr (.inr (.inl ?_))
        refine pot_lt_of_typed grows_type ?_
        unfold type
        rw [if_neg (by simp [hg, hch, hc])]
        exact Nat.lt_succ_self _
      | true =>
        have hpu : a.pushed = a.typed := by simp [pushed, held, hch, hc]
        have chatIdle : ∀ f n k, ({ a with flag := f } : Count).chat L r n k =
            if (({ a with flag := f } : Count).reading n).eof then { ({ a with flag := f } : Count).reading n with cphase := .closing, flag := !f }
            else { ({ a with flag := f } : Count).reading n with flag := !f }.cflush L r k := by
          intro f n k
          have hg' : ({ a with flag := f } : Count).gone L = true := hg
          rw [chat_idle (a := { a with flag := f }) hc, if_neg (show ¬ ({ a with flag := f } : Count).chan = true by simp [hch]), hg', Bool.true_and]
        rcases Bool.eq_false_or_eq_true a.eof with he | he
        · refine .inr (.inr (.inr (.inl fun f n k _ => ?_)))
          refine pot_lt_of_cstage (hgc f n (k + 1)) ?_
          rw [chatIdle, if_pos (by simp [reading, he])]
          simp [cstage, hc]
        · have hpo : ∀ f, ({ a with flag := f } : Count).polls = true := by intro f; simp [polls, he, hch]
          by_cases hrd' : a.read < a.back
          · refine .inr (.inr (.inr (.inl fun f n k hn => ?_)))
            refine pot_lt_of_read (hgc f n (k + 1)) ?_
            rw [chatIdle]
            split
            · simp only [reading, hpo, if_true]
              rcases hn with hn | hn
              · omega
              · simp at hn
            · simp only [reading, cflush, hpo, if_true]
              rcases hn with hn | hn
              · omega
              · simp at hn
          · have hrb' : a.back = a.read := by omega
            by_cases hso : a.sphase = .over
            · refine .inr (.inr (.inr (.inl fun f n k hn => ?_)))
              refine pot_lt_of_eof (hgc f n (k + 1)) he ?_
              have hn' : 0 < n := by
                rcases hn with hn | hn
                · exact hn
                · simp at hn
              have : (({ a with flag := f } : Count).reading n).eof = true := by
                simp only [reading, hpo f]
                simp [hn', hrb', hso]
              rw [chatIdle, if_pos this]
              exact this
            · by_cases hfl : a.sent < cum L.up a.pushed ∧ a.sent - a.got < r.up
              · refine .inr (.inr (.inr (.inl fun f n k hn => ?_)))
                refine pot_lt_of_sent (hgc f n (k + 1)) ?_
                have : (({ a with flag := f } : Count).reading n).eof = false := by
                  simp [reading, he, hso]
                rw [chatIdle, if_neg (by simp [this])]
                have : ({ ({ a with flag := f } : Count).reading n with flag := !f } : Count).pushed = a.pushed := rfl
                simp only [cflush, this]
                simp only [reading]
                omega
              · have hw : ∀ P : Prop, ¬ (r.down ≤ a.back - a.read ∧ P) := fun P hh => by omega
                refine .inr (.inr (.inr (.inr fun n k => ?_)))
                cases hs : a.sphase with
                | greet => exact spush_moves k .greeting _ (by simp [serve, hs]) (by simp [answered, hs]) (hw _)
                | greeting => exact sdone_moves k _ .idle (by simp [serve, hs]) h (by simp [sstage, hs]) (hw _)
                | holding => exact spush_moves k .idle _ (by simp [serve, hs]) (by simp [answered, hs]) (hw _)
                | closing => exact sdone_moves k _ .part (by simp [serve, hs]) h (by simp [sstage, hs]) (hw _)
                | part => exact spush_moves k .parting _ (by simp [serve, hs]) (by simp [answered, hs]) (hw _)
                | parting => exact sdone_moves k _ .over (by simp [serve, hs]) h (by simp [sstage, hs]) (hw _)
                | over => exact absurd hs hso
                | idle =>
                  refine idle_moves k n hs ?_
                  by_cases hgs' : a.got < a.sent
                  · exact .inr hgs'
                  · have hsc : a.sent = cum L.up a.pushed := by omega
                    by_cases hhl : a.heard < a.pushed
                    · have := cum_mono (len := L.up) (show a.heard + 1 ≤ a.pushed from hhl)
                      exact .inl (by omega)
                    · have hgt := sane_gone_typed hg
                      have hht : a.heard = a.typed := by omega
                      have := h.middle (.inl hs) (by omega)
                      rw [hht, hgt.2] at this
                      exact absurd this (by decide)

/-! ## Fair schedules -/

theorem climbs {p : Nat → Nat} (hm : ∀ t, p t ≤ p (t + 1)) {t u : Nat} (h : t ≤ u) : p t ≤ p u := by
  induction u with
  | zero => obtain rfl : t = 0 := by omega
            exact Nat.le_refl _
  | succ u ih =>
    by_cases h' : t = u + 1
    · subst h'; exact Nat.le_refl _
    · exact Nat.le_trans (ih (by omega)) (hm u)

theorem settles {p : Nat → Nat} (hm : ∀ t, p t ≤ p (t + 1)) (B : Nat) (hb : ∀ t, p t ≤ B) : ∃ T, ∀ t, T ≤ t → p t = p T := by
  have key : ∀ d t, B - p t ≤ d → ∃ T, ∀ u, T ≤ u → p u = p T := by
    intro d
    induction d with
    | zero =>
      intro t ht
      refine ⟨t, fun u hu => ?_⟩
      have := climbs hm hu
      have := hb u
      omega
    | succ d ih =>
      intro t ht
      by_cases hx : ∃ u, t ≤ u ∧ p t < p u
      · obtain ⟨u, hu, hlt⟩ := hx
        exact ih u (by have := hb u; omega)
      · refine ⟨t, fun u hu => ?_⟩
        have := climbs hm hu
        have h2 : ¬ p t < p u := fun hl => hx ⟨u, hu, hl⟩
        omega
  exact key _ 0 (Nat.le_refl _)

def along (L : Lens) (r : Room) (a : Count) (f : Nat → Move) : Nat → Count
  | 0 => a
  | t + 1 => (a.along L r f t).step L r (f t)

theorem sane_along (h : a.Sane L r) (f : Nat → Move) : ∀ t, (a.along L r f t).Sane L r
  | 0 => h
  | t + 1 => sane_step (sane_along h f t) (f t)

theorem type_flag (f : Bool) : ({ a with flag := f } : Count).type L = { a.type L with flag := f } := by
  unfold type
  show (if a.gone L || a.chan || decide (a.cphase = .over) then _ else _) = _
  split <;> rfl

theorem pot_flag (f : Bool) : ({ a with flag := f } : Count).pot = a.pot := rfl

theorem serve_flag (f : Bool) (n k : Nat) : ({ a with flag := f } : Count).serve L r n k = { a.serve L r n k with flag := f } := by
  have hpush : ∀ p, ({ a with flag := f } : Count).spush L r k p = { a.spush L r k p with flag := f } := by
    intro p
    unfold spush
    show (if cum L.down a.answered - a.back < 8192 then _ else if cum L.down a.answered - (a.sflush L r k).back < 8192 then _ else _) = _
    split
    · rfl
    · split <;> rfl
  have hdone : ∀ p, ({ a with flag := f } : Count).sdone L r k p = { a.sdone L r k p with flag := f } := by
    intro p
    unfold sdone
    show (if (a.sflush L r k).back = cum L.down a.answered then _ else _) = _
    split <;> rfl
  unfold serve
  simp only
  split
  · rfl
  · exact hpush _
  · exact hdone _
  · exact hpush _
  · split
    · rfl
    · split <;> rfl
  · exact hdone _
  · exact hpush _
  · exact hdone _

/-- If everybody moves again and again, and the numbers stay bounded until something is reached, then it is reached, or both are done, or they are jammed. -/
theorem progress (hu : ∀ i, 0 < L.up i) (hru : 0 < r.up) (hrd : 0 < r.down) (h : a.Sane L r) (f : Nat → Move) (goal : Count → Prop) (B : Nat)
    (hB : ∀ t, ¬ goal (a.along L r f t) → (a.along L r f t).pot ≤ B) (hty : ∀ t, ∃ u, t ≤ u ∧ f u = .type)
    (hch : ∀ t, ∃ u n k, t ≤ u ∧ f u = .chat n (k + 1) ∧ (0 < n ∨ (a.along L r f u).gone L = false))
    (hse : ∀ t, ∃ u n k, t ≤ u ∧ f u = .serve (n + 1) (k + 1)) :
    ∃ t, goal (a.along L r f t) ∨ (a.along L r f t).Final ∨ (a.along L r f t).Jam L r := by
  by_cases hx : ∃ t, goal (a.along L r f t) ∨ (a.along L r f t).Final ∨ (a.along L r f t).Jam L r
  · exact hx
  exfalso
  have hn : ∀ t, ¬ goal (a.along L r f t) ∧ ¬ (a.along L r f t).Final ∧ ¬ (a.along L r f t).Jam L r := fun t =>
    ⟨fun hg => hx ⟨t, .inl hg⟩, fun hg => hx ⟨t, .inr (.inl hg)⟩, fun hg => hx ⟨t, .inr (.inr hg)⟩⟩
  obtain ⟨T, hT⟩ := settles (p := fun t => (a.along L r f t).pot) (fun t => (grows_step (f t)).pot_le) B (fun t => hB t (hn t).1)
  have hsame : ∀ u, T ≤ u → ∃ fl, a.along L r f u = { a.along L r f T with flag := fl } := by
    intro u hu'
    induction u with
    | zero => obtain rfl : T = 0 := by omega
              exact ⟨_, rfl⟩
    | succ u ih =>
      by_cases h' : T = u + 1
      · subst h'; exact ⟨_, rfl⟩
      · obtain ⟨fl, he⟩ := ih (by omega)
        have h1 : (a.along L r f u).pot = (a.along L r f T).pot := hT u (by omega)
        have h2 : (a.along L r f (u + 1)).pot = (a.along L r f T).pot := hT (u + 1) hu'
        have hs := (grows_step (L := L) (r := r) (a := a.along L r f u) (f u)).same (sane_along h f u) (sane_along h f (u + 1))
          (show (a.along L r f (u + 1)).pot ≤ (a.along L r f u).pot by omega)
        exact ⟨(a.along L r f (u + 1)).flag, hs.trans (congrArg (fun c : Count => { c with flag := (a.along L r f (u + 1)).flag }) he)⟩
  rcases moves hu hru hrd (sane_along h f T) with hf | hj | ht | hc | hs
  · exact (hn T).2.1 hf
  · exact (hn T).2.2 hj
  · obtain ⟨u, hTu, hfu⟩ := hty T
    obtain ⟨fl, he⟩ := hsame u hTu
    have h2 := hT (u + 1) (by omega)
    simp only [along, hfu, step, he, type_flag, pot_flag] at h2
    omega
  · obtain ⟨u, n, k, hTu, hfu, hnk⟩ := hch T
    obtain ⟨fl, he⟩ := hsame u hTu
    have h2 := hT (u + 1) (by omega)
    simp only [along, hfu, step, he] at h2
    rw [he] at hnk
    have := hc fl n k hnk
    omega
  · obtain ⟨u, n, k, hTu, hfu⟩ := hse T
    obtain ⟨fl, he⟩ := hsame u hTu
    have h2 := hT (u + 1) (by omega)
    simp only [along, hfu, step, he, serve_flag, pot_flag] at h2
    have := hs n k
    omega

/-! ## Bounds -/

/-- With a Close at `c`, everything is bounded. -/
theorem Sane.pot_le {c : Nat} (hu : ∀ i, 0 < L.up i) (h : a.Sane L r) (hc : L.last c = true) :
    a.typed ≤ c + 1 ∧ a.pot ≤ 6 * (c + 1) + 2 * cum L.up (c + 1) + 2 * cum L.down (c + 2) + 10 := by
  have ht : a.typed ≤ c + 1 := by
    by_cases hlt : c + 1 < a.typed
    · have := h.before c hlt
      rw [hc] at this
      exact absurd this (by decide)
    · omega
  have hhp := h.heard_pushed hu
  have h1 : a.pushed ≤ a.typed := by simp only [pushed, held]; omega
  have h2 : a.held ≤ a.typed := by simp only [held]; omega
  have h3 : a.answered ≤ a.heard + 1 := by
    simp only [answered]; split <;> omega
  have h4 := cum_mono (len := L.up) (show a.pushed ≤ c + 1 by omega)
  have h5 := cum_mono (len := L.down) (show a.answered ≤ c + 2 by omega)
  have h6 : a.sstage ≤ 6 := by simp only [sstage]; split <;> omega
  have h7 : a.cstage ≤ 2 := by simp only [cstage]; split <;> omega
  have h8 : a.eof.toNat ≤ 1 := Bool.toNat_le _
  have := h.got_sent
  have := h.sent_pushed
  have := h.read_back
  have := h.back_answered
  refine ⟨ht, ?_⟩
  simp only [pot]
  omega

/-- So it is as long as the client has read little. -/
theorem Sane.pot_little (hu : ∀ i, 0 < L.up i) (hd : ∀ i, 0 < L.down i) {R : Nat} (h : a.Sane L r) (hr : a.read ≤ R) :
    a.pot ≤ 4 * (R + r.down + 8192 + 1) + 6 * (cum L.up (R + r.down + 8192 + 2) + 2 * r.up + 8192 + 3) + 50 := by
  have h0 := h.down_net
  have hans : a.answered ≤ a.back + 8192 + 1 := by
    by_cases h0' : 0 < a.answered
    · have := h.down_queue h0'
      have := le_cum hd (a.answered - 1)
      omega
    · omega
  have hhe : a.heard ≤ a.back + 8192 + 1 := by
    have : a.heard ≤ a.answered := by
      have := h.starting
      simp only [answered]
      split <;> rename_i hx <;> simp [hx] at this <;> omega
    omega
  have hcu := cum_mono (len := L.up) (show a.heard + 1 ≤ R + r.down + 8192 + 2 by omega)
  have hup := h.up_read
  have hun := h.up_net
  have hpu : a.pushed ≤ a.sent + 8192 + 1 := by
    by_cases h0' : 0 < a.pushed
    · have := h.up_queue h0'
      have := le_cum hu (a.pushed - 1)
      omega
    · omega
  have hhp : a.held ≤ a.pushed + 1 := by
    simp only [pushed]
    have := Bool.toNat_le (decide (a.cphase = .holding))
    omega
  have htp : a.typed ≤ a.held + 1 := by
    simp only [held]
    have := Bool.toNat_le a.chan
    omega
  have h6 : a.sstage ≤ 6 := by simp only [sstage]; split <;> omega
  have h7 : a.cstage ≤ 2 := by simp only [cstage]; split <;> omega
  have h8 : a.eof.toNat ≤ 1 := Bool.toNat_le _
  simp only [pot]
  omega

theorem Sane.pot_bound (hu : ∀ i, 0 < L.up i) (hd : ∀ i, 0 < L.down i) (R : Nat) :
    ∃ B, ∀ a : Count, a.Sane L r → a.read ≤ R → a.pot ≤ B := ⟨_, fun _ h hr => h.pot_little hu hd hr⟩

/-- When there is no jam. -/
theorem Sane.no_jam {c : Nat} (hu : ∀ i, 0 < L.up i) (h : a.Sane L r) (hc : L.last c = true)
    (hs : cum L.up c < 8192 + r.up ∨ L.down 0 ≤ r.down ∧ cum L.down c < 8192 + r.down) : ¬ a.Jam L r := by
  rintro ⟨hp, hq, hn, hd, hs'⟩
  have ht := (h.pot_le hu hc).1
  have hhp := h.heard_pushed hu
  have hheld := h.held_pos hp
  have e : a.pushed = a.held - 1 := by simp [pushed, hp]
  have h2 : a.held ≤ a.typed := by simp only [held]; omega
  have h4 := cum_mono (len := L.up) (show a.pushed ≤ c by omega)
  rcases hs with hs | ⟨hs1, hs2⟩
  · omega
  · rcases hs' with ⟨hh, hq'⟩ | ⟨hh, hq'⟩
    · have : a.answered = a.heard := by simp [answered, hh]
      rw [this] at hq'
      have h5 := cum_mono (len := L.down) (show a.heard ≤ c by omega)
      omega
    · have : a.answered = 1 := by simp [answered, hh]
      rw [this] at hq'
      simp only [cum] at hq'
      omega

/-- Whoever is jammed stays jammed. -/
theorem jam_step (hj : a.Jam L r) (e : Move) : Grows a (a.step L r e) ∧ (a.step L r e).Jam L r ∧ (a.step L r e).sent = a.sent ∧ (a.step L r e).back = a.back ∧
    (a.step L r e).read = a.read ∧ (a.step L r e).got = a.got ∧ (a.step L r e).heard = a.heard ∧ (a.step L r e).held = a.held ∧
    (a.step L r e).sphase = a.sphase ∧ (a.step L r e).eof = a.eof := by
  refine ⟨grows_step e, ?_⟩
  obtain ⟨hp, hq, hn, hd, hs⟩ := hj
  cases e with
  | type =>
    simp only [step]
    unfold type
    split
    · exact ⟨⟨hp, hq, hn, hd, hs⟩, rfl, rfl, rfl, rfl, rfl, rfl, rfl, rfl⟩
    · rename_i hc
      simp only [Bool.or_eq_true, decide_eq_true_eq, not_or, Bool.not_eq_true] at hc
      have hpu : ({ a with typed := a.typed + 1, chan := true } : Count).pushed = a.pushed := by simp [pushed, held, hc.1.2]
      have hhe : ({ a with typed := a.typed + 1, chan := true } : Count).held = a.held := by simp [held, hc.1.2]
      exact ⟨⟨hp, by rw [hpu]; exact hq, hn, hd, hs⟩, rfl, rfl, rfl, rfl, rfl, hhe, rfl, rfl⟩
  | chat n k =>
    simp only [step]
    have hf : a.cflush L r k = a := by
      have : min (min (r.up - (a.sent - a.got)) k) (cum L.up a.pushed - a.sent) = 0 := by omega
      simp only [cflush, this, Nat.add_zero]
    rw [chat_holding hp, if_neg (by omega), hf, if_neg (by omega)]
    exact ⟨⟨hp, hq, hn, hd, hs⟩, rfl, rfl, rfl, rfl, rfl, rfl, rfl, rfl⟩
  | serve n k =>
    simp only [step]
    have hf : a.sflush L r k = a := by
      have : min (min (r.down - (a.back - a.read)) k) (cum L.down a.answered - a.back) = 0 := by omega
      simp only [sflush, this, Nat.add_zero]
    have : a.serve L r n k = a := by
      rcases hs with ⟨hh, hq'⟩ | ⟨hh, hq'⟩
      · have : a.serve L r n k = a.spush L r k .idle := by unfold serve; simp only [hh]
        rw [this]; unfold spush; rw [if_neg (by omega), hf, if_neg (by omega)]
      · have : a.serve L r n k = a.sdone L r k .idle := by unfold serve; simp only [hh]
        rw [this]; unfold sdone; rw [hf, if_neg (by omega)]
    rw [this]
    exact ⟨⟨hp, hq, hn, hd, hs⟩, rfl, rfl, rfl, rfl, rfl, rfl, rfl, rfl⟩

/-- Nothing is read by a client whose reads find nothing. -/
theorem read_of_none (k : Nat) : (a.chat L r 0 k).read = a.read := by
  unfold chat
  split
  · rfl
  · split <;> rfl
  · split
    · rfl
    · split <;> rfl
  · split
    · simp [reading]
    · split <;> simp [reading, cflush]

theorem serve_read (n k : Nat) : (a.serve L r n k).read = a.read := by
  have hpush : ∀ p, (a.spush L r k p).read = a.read := by
    intro p
    unfold spush
    split
    · rfl
    · split <;> rfl
  have hdone : ∀ p, (a.sdone L r k p).read = a.read := by
    intro p
    unfold sdone
    split <;> rfl
  unfold serve
  split
  · rfl
  · exact hpush _
  · exact hdone _
  · exact hpush _
  · split
    · rfl
    · split <;> rfl
  · exact hdone _
  · exact hpush _
  · exact hdone _

theorem type_read : (a.type L).read = a.read := by
  unfold type
  split <;> rfl

/-- Who is done stays done. -/
theorem final_step (hs : a.Sane L r) (h : a.Final) (e : Move) : a.step L r e = a := by
  obtain ⟨h1, h2⟩ := h
  cases e with
  | type =>
    simp only [step, type]
    rw [if_pos (by simp [h1])]
  | chat n k => simp only [step, chat, h1]
  | serve n k => simp only [step, serve, h2]

/-- All types, both tasks move, but nothing reaches the client. -/
def slow (n : Nat) : Move := if n % 3 = 0 then .type else if n % 3 = 1 then .chat 0 1 else .serve 1 1

theorem slow_read (t : Nat) : (a.along L r slow t).read = a.read := by
  induction t with
  | zero => rfl
  | succ t ih =>
    rw [← ih]
    show ((a.along L r slow t).step L r (slow t)).read = _
    unfold slow
    split
    · exact type_read
    · split
      · exact read_of_none _
      · exact serve_read _ _

/-- Then, if nobody leaves, they are jammed in the end. -/
theorem slow_jams (hu : ∀ i, 0 < L.up i) (hd : ∀ i, 0 < L.down i) (hru : 0 < r.up) (hrd : 0 < r.down) (h : a.Sane L r)
    (hg : ∀ t, (a.along L r slow t).gone L = false) : ∃ t, (a.along L r slow t).Jam L r := by
  obtain ⟨B, hB⟩ := Sane.pot_bound (L := L) (r := r) hu hd a.read
  obtain ⟨t, ht⟩ := progress hu hru hrd h slow (fun _ => False) B (fun t _ => hB _ (sane_along h slow t) (Nat.le_of_eq (slow_read t)))
    (fun t => ⟨3 * t, by omega, by unfold slow; rw [if_pos (by omega)]⟩)
    (fun t => ⟨3 * t + 1, 0, 0, by omega, by unfold slow; rw [if_neg (by omega), if_pos (by omega)], .inr (hg _)⟩)
    (fun t => ⟨3 * t + 2, 0, 0, by omega, by unfold slow; rw [if_neg (by omega), if_neg (by omega)]⟩)
  rcases ht with ht | ht | ht
  · exact ht.elim
  · have := ((sane_along h slow t).leaving (.inr ht.1)).2.1
    rw [hg] at this
    cases this
  · exact ⟨t, ht⟩

end Count
end WS
