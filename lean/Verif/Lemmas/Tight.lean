import Verif.Model.Tight
import Verif.Spec.Tight
import Verif.Lemmas.Dialogue
/-!
# Lemmas: two programs and a network with little room
-/

namespace WS
open Spec

def Room.swap (r : Room) : Room := ⟨r.down, r.up⟩

theorem allows_swap (r : Room) (d : Dialogue) (e : Happens) : d.swap.allows r.swap e.swap = d.allows r e := by
  rcases e with ⟨_ | _⟩ | ⟨_ | _, n⟩ <;> rfl

theorem tight_swap (r : Room) (d : Dialogue) (e : Happens) : d.swap.tight r.swap e.swap = (d.tight r e).swap := by
  unfold Dialogue.tight
  rw [allows_swap, step_swap]
  split <;> rfl

/-- The state after `n` steps of an endless schedule. -/
def Dialogue.tightAt (r : Room) (d : Dialogue) (f : Nat → Happens) (n : Nat) : Dialogue := d.runTight r ((List.range n).map f)

theorem tightAt_succ (r : Room) (d : Dialogue) (f : Nat → Happens) (n : Nat) : d.tightAt r f (n + 1) = (d.tightAt r f n).tight r (f n) := by
  unfold Dialogue.tightAt Dialogue.runTight
  rw [List.range_succ, List.map_append, List.foldl_append]
  rfl

theorem tightAt_swap (r : Room) (d : Dialogue) (f : Nat → Happens) (n : Nat) :
    d.swap.tightAt r.swap (fun n => (f n).swap) n = (d.tightAt r f n).swap := by
  induction n with
  | zero => rfl
  | succ n ih => rw [tightAt_succ, tightAt_succ, ih, tight_swap]

theorem tight_together {r : Room} {mc ms lc ls cts sts d i j bc bs} (hlc : lc < 2 ^ 63) (hls : ls < 2 ^ 63)
    (h : Together mc ms lc ls cts sts d i j bc bs) (e : Happens) :
    ∃ i' j' bc' bs', Together mc ms lc ls cts sts (d.tight r e) i' j' bc' bs' ∧ Later cts sts d i j bc bs (d.tight r e) i' j' bc' bs' := by
  unfold Dialogue.tight
  split
  · exact step_together hlc hls h e
  · exact ⟨i, j, bc, bs, h, .refl⟩

theorem runTight_together {r : Room} {mc ms lc ls cts sts} (hlc : lc < 2 ^ 63) (hls : ls < 2 ^ 63) (es : List Happens) :
    ∀ {d i j bc bs}, Together mc ms lc ls cts sts d i j bc bs →
    ∃ i' j' bc' bs', Together mc ms lc ls cts sts (d.runTight r es) i' j' bc' bs' ∧ Later cts sts d i j bc bs (d.runTight r es) i' j' bc' bs' := by
  induction es with
  | nil => intro d i j bc bs h; exact ⟨i, j, bc, bs, h, .refl⟩
  | cons e es ih =>
    intro d i j bc bs h
    obtain ⟨i', j', bc', bs', h1, h2⟩ := tight_together (r := r) hlc hls h e
    obtain ⟨i'', j'', bc'', bs'', g1, g2⟩ := ih h1
    exact ⟨i'', j'', bc'', bs'', g1, h2.trans g2⟩

theorem tightAt_together {r : Room} {mc ms lc ls cts sts} (hlc : lc < 2 ^ 63) (hls : ls < 2 ^ 63) {d : Dialogue} {f : Nat → Happens} {n : Nat} {i j bc bs}
    (h : Together mc ms lc ls cts sts (d.tightAt r f n) i j bc bs) (m : Nat) (hm : n ≤ m) :
    ∃ i' j' bc' bs', Together mc ms lc ls cts sts (d.tightAt r f m) i' j' bc' bs' ∧ Later cts sts (d.tightAt r f n) i j bc bs (d.tightAt r f m) i' j' bc' bs' := by
  obtain ⟨k, rfl⟩ := Nat.exists_eq_add_of_le hm
  induction k with
  | zero => exact ⟨i, j, bc, bs, h, .refl⟩
  | succ k ih =>
    obtain ⟨i', j', bc', bs', h1, h2⟩ := ih (by omega)
    obtain ⟨i'', j'', bc'', bs'', g1, g2⟩ := tight_together (r := r) hlc hls h1 (f (n + k))
    rw [← tightAt_succ] at g1 g2
    exact ⟨i'', j'', bc'', bs'', g1, h2.trans g2⟩

/-! ## Room -/

/-- While a program makes no call, what it has lying in the network gets no more. -/
theorem transit_later {mc ms lc ls cts sts} {d d' : Dialogue} {i j bc bs j' bc' bs'} (h : Together mc ms lc ls cts sts d i j bc bs)
    (h' : Together mc ms lc ls cts sts d' i j' bc' bs') (hl : Later cts sts d i j bc bs d' i j' bc' bs') :
    bc' = bc ∧ d'.client.transit.length ≤ d.client.transit.length := by
  have e : bc' = bc := by
    have h1 := h.server.count
    have h2 := h'.server.count
    exact (hl.hbc.eq_of_length (by omega)).symm
  subst e
  refine ⟨rfl, ?_⟩
  unfold Party.transit
  rw [List.length_drop, List.length_drop, h.server.wire, h'.server.wire]
  have := hl.carried'
  omega

theorem transit_later' {mc ms lc ls cts sts} {d d' : Dialogue} {i j bc bs i' bc' bs'} (h : Together mc ms lc ls cts sts d i j bc bs)
    (h' : Together mc ms lc ls cts sts d' i' j bc' bs') (hl : Later cts sts d i j bc bs d' i' j bc' bs') :
    bs' = bs ∧ d'.server.transit.length ≤ d.server.transit.length := by
  have e : bs' = bs := by
    have h1 := h.client.count
    have h2 := h'.client.count
    exact (hl.hbs.eq_of_length (by omega)).symm
  subst e
  refine ⟨rfl, ?_⟩
  unfold Party.transit
  rw [List.length_drop, List.length_drop, h.client.wire, h'.client.wire]
  have := hl.carried
  omega

theorem free_iff {room : Nat} {p : Party} : p.free room = true ↔ p.transit.length ≤ room := by
  unfold Party.free; simp

theorem takes_of {room : Nat} {p : Party} (hf : p.free room = true) (h : ∀ m key extra ts, p.todo ≠ .say m key extra :: ts) : p.takes room = true := by
  unfold Party.takes
  rw [hf]
  split
  · next heq => exact absurd heq (h _ _ _ _)
  · rfl

/-- Somebody makes a call. -/
def Goes (r : Room) (mc ms : Bool) (lc ls : Nat) (cts sts : List Talk) (d : Dialogue) (f : Nat → Happens) (n i j : Nat) : Prop :=
  ∃ m i' j' bc' bs', n ≤ m ∧ Together mc ms lc ls cts sts (d.tightAt r f m) i' j' bc' bs' ∧ i ≤ i' ∧ j ≤ j' ∧ i + j < i' + j'

theorem Goes.sooner {r mc ms lc ls cts sts d f n m i j} (h : Goes r mc ms lc ls cts sts d f m i j) (hm : n ≤ m) : Goes r mc ms lc ls cts sts d f n i j := by
  obtain ⟨m', i', j', bc', bs', h1, h2⟩ := h
  exact ⟨m', i', j', bc', bs', by omega, h2⟩

theorem stay_or_go {r : Room} {mc ms lc ls cts sts} (hlc : lc < 2 ^ 63) (hls : ls < 2 ^ 63) {d : Dialogue} {f : Nat → Happens} {n : Nat} {i j bc bs}
    (h : Together mc ms lc ls cts sts (d.tightAt r f n) i j bc bs) (m : Nat) (hm : n ≤ m) :
    Goes r mc ms lc ls cts sts d f n i j ∨
      (Together mc ms lc ls cts sts (d.tightAt r f m) i j bc bs ∧ Later cts sts (d.tightAt r f n) i j bc bs (d.tightAt r f m) i j bc bs) := by
  obtain ⟨i', j', bc', bs', h1, h2⟩ := tightAt_together hlc hls h m hm
  by_cases hx : i + j < i' + j'
  · exact .inl ⟨m, i', j', bc', bs', hm, h1, h2.hi, h2.hj, hx⟩
  · have e1 : i' = i := by have := h2.hi; have := h2.hj; omega
    have e2 : j' = j := by have := h2.hi; have := h2.hj; omega
    subst e1 e2
    obtain ⟨rfl, -⟩ := transit_later h h1 h2
    obtain ⟨rfl, -⟩ := transit_later' h h1 h2
    exact .inr ⟨h1, h2⟩

theorem goes_audible {r : Room} {mc ms lc ls cts sts} (hlc : lc < 2 ^ 63) (hls : ls < 2 ^ 63) {d : Dialogue} {f : Nat → Happens} (hf : FairNet f) {n : Nat} {i j bc bs}
    (h : Together mc ms lc ls cts sts (d.tightAt r f n) i j bc bs) (hr : (d.tightAt r f n).client.transit.length ≤ r.up)
    (ha : (∃ m key extra, cts[i]? = some (.say m key extra)) ∨
      (cts[i]? = some .hear ∧ Audible cts i bs (d.tightAt r f n).client (d.tightAt r f n).server)) : Goes r mc ms lc ls cts sts d f n i j := by
  obtain ⟨⟨m, hm, hfm⟩, -⟩ := hf .client n
  rcases stay_or_go hlc hls h m hm with h1 | ⟨h1, h2⟩
  · exact h1
  · have hfree : (d.tightAt r f m).client.free r.up = true := free_iff.mpr (Nat.le_trans (transit_later h h1 h2).2 hr)
    obtain ⟨i'', bp'', g1, g2, g3, g4, g5, g6, g7⟩ := act_flow hls h1.client h1.server
    have e := g7 (by
      rcases ha with ha | ⟨ha, hb⟩
      · exact .inl ha
      · exact .inr ⟨ha, audible_later h h1 h2 hb⟩)
    subst e
    refine ⟨m + 1, i + 1, j, bp'', bs, by omega, ?_, by omega, Nat.le_refl _, by omega⟩
    rw [tightAt_succ, hfm]
    unfold Dialogue.tight
    rw [if_pos (show (d.tightAt r f m).allows r (.act .client) = true from hfree)]
    exact ⟨g1, g2⟩

/-- Reading: the network brings the client what it waits for. -/
theorem carried_on {r : Room} {mc ms lc ls cts sts} (hlc : lc < 2 ^ 63) (hls : ls < 2 ^ 63) {d : Dialogue} {f : Nat → Happens} (hf : FairNet f) {n : Nat} {i j bc bs}
    (h : Together mc ms lc ls cts sts (d.tightAt r f n) i j bc bs) (hr : (d.tightAt r f n).client.transit.length ≤ r.up)
    (hs : ∀ m key extra, cts[i]? ≠ some (.say m key extra)) :
    Goes r mc ms lc ls cts sts d f n i j ∨ ∃ m, n ≤ m ∧ Together mc ms lc ls cts sts (d.tightAt r f m) i j bc bs ∧
      Later cts sts (d.tightAt r f n) i j bc bs (d.tightAt r f m) i j bc bs ∧
      ((d.tightAt r f n).server.carried < (d.tightAt r f n).server.output.wire.length → (d.tightAt r f n).server.carried < (d.tightAt r f m).server.carried) ∧
      ((d.tightAt r f n).server.transit = [] → j = sts.length → (d.tightAt r f m).client.ended = true) := by
  obtain ⟨-, m, k, hm, hfm⟩ := hf .server n
  rcases stay_or_go hlc hls h m hm with h1 | ⟨h1, h2⟩
  · exact .inl h1
  · have hfree := Nat.le_trans (transit_later h h1 h2).2 hr
    have htake : (d.tightAt r f m).client.takes r.up = true := by
      refine takes_of (free_iff.mpr hfree) ?_
      intro mm key extra ts hx
      rw [h1.server.todo] at hx
      have : cts[i]? = some (.say mm key extra) := by
        have := congrArg (·[0]?) hx
        simpa using this
      exact hs _ _ _ this
    have estep : d.tightAt r f (m + 1) = ⟨(carry k (d.tightAt r f m).server (d.tightAt r f m).client).2, (carry k (d.tightAt r f m).server (d.tightAt r f m).client).1⟩ := by
      rw [tightAt_succ, hfm]
      unfold Dialogue.tight
      rw [if_pos (show (d.tightAt r f m).allows r (.carry .server k) = true from htake)]
      rfl
    obtain ⟨g1, g2, g3, g4, g5, g6, g7, g8⟩ := carry_flow k h1.client h1.server
    have hl : Later cts sts (d.tightAt r f n) i j bc bs (d.tightAt r f (m + 1)) i j bc bs := by
      refine h2.trans ?_
      rw [estep]
      exact ⟨Nat.le_refl _, Nat.le_refl _, List.prefix_refl _, List.prefix_refl _, g5, Nat.le_of_eq g3.symm, g6, fun x => g4.trans x, id⟩
    have ht : Together mc ms lc ls cts sts (d.tightAt r f (m + 1)) i j bc bs := by rw [estep]; exact ⟨g1, g2⟩
    refine .inr ⟨m + 1, by omega, ht, hl, ?_, ?_⟩
    · intro hw
      rw [estep]
      simp only
      by_cases hx : (d.tightAt r f n).server.carried < (d.tightAt r f m).server.carried
      · exact Nat.lt_of_lt_of_le hx g5
      · have e1 : (d.tightAt r f m).server.carried = (d.tightAt r f n).server.carried := by have := h2.carried; omega
        have e2 : (d.tightAt r f m).server.output.wire.length = (d.tightAt r f n).server.output.wire.length := by rw [h1.client.wire, h.client.wire]
        have := g7 (by rw [e1, e2]; exact hw)
        omega
    · intro htr hj
      rw [estep]
      refine g8 ?_ (by rw [h1.client.todo, hj, List.drop_length])
      have := (transit_later' h h1 h2).2
      rw [htr] at this
      exact List.length_eq_zero_iff.mp (by simpa using this)

theorem goes_gap {r : Room} {mc ms lc ls cts sts} (hlc : lc < 2 ^ 63) (hls : ls < 2 ^ 63) {d : Dialogue} {f : Nat → Happens} (hf : FairNet f) (g : Nat) :
    ∀ {n : Nat} {i j bc bs}, Together mc ms lc ls cts sts (d.tightAt r f n) i j bc bs → (d.tightAt r f n).client.transit.length ≤ r.up →
    cts[i]? = some .hear → hears (cts.take i) < bs.length →
    ((bs.take (hears (cts.take i) + 1)).flatten).length ≤ (d.tightAt r f n).server.carried + g → Goes r mc ms lc ls cts sts d f n i j := by
  induction g with
  | zero =>
    intro n i j bc bs h hr hi hk hg
    exact goes_audible hlc hls hf h hr (.inr ⟨hi, .inl ⟨hk, hg⟩⟩)
  | succ g ih =>
    intro n i j bc bs h hr hi hk hg
    by_cases hw : (d.tightAt r f n).server.carried < (d.tightAt r f n).server.output.wire.length
    · rcases carried_on hlc hls hf h hr (by rw [hi]; simp) with h1 | ⟨m, hm, h1, h2, h3, -⟩
      · exact h1
      · have := h3 hw
        exact (ih h1 (Nat.le_trans (transit_later h h1 h2).2 hr) hi hk (by omega)).sooner hm
    · refine goes_audible hlc hls hf h hr (.inr ⟨hi, .inl ⟨hk, ?_⟩⟩)
      have e : ((bs.take (hears (cts.take i) + 1)).flatten).length ≤ (d.tightAt r f n).server.output.wire.length := by
        rw [h.client.wire, ← List.take_append_drop (hears (cts.take i) + 1) bs, List.flatten_append, List.take_append_drop, List.length_append]
        omega
      omega

/-- A program that can go on and is in no send does. -/
theorem goes_client {r : Room} {mc ms lc ls cts sts} (hlc : lc < 2 ^ 63) (hls : ls < 2 ^ 63) {d : Dialogue} {f : Nat → Happens} (hf : FairNet f) {n : Nat} {i j bc bs}
    (h : Together mc ms lc ls cts sts (d.tightAt r f n) i j bc bs) (hr : (d.tightAt r f n).client.transit.length ≤ r.up) (hgo : CanGo cts sts i j) :
    Goes r mc ms lc ls cts sts d f n i j := by
  rcases hgo with hs | ⟨hi, hgo⟩
  · exact goes_audible hlc hls hf h hr (.inl hs)
  · by_cases hk : hears (cts.take i) < bs.length
    · exact goes_gap hlc hls hf ((bs.take (hears (cts.take i) + 1)).flatten).length h hr hi hk (by omega)
    · have hj : j = sts.length := by
        rcases hgo with x | x
        · rw [← h.client.count] at x; exact absurd x hk
        · exact x
      have htr : (d.tightAt r f n).server.transit = [] := by
        have := h.client.pend
        rw [List.drop_eq_nil_of_le (as := bs) (by omega)] at this
        exact (List.append_eq_nil_iff.mp this).2
      rcases carried_on hlc hls hf h hr (by rw [hi]; simp) with h1 | ⟨m, hm, h1, h2, -, h3⟩
      · exact h1
      · exact (goes_audible hlc hls hf h1 (Nat.le_trans (transit_later h h1 h2).2 hr) (.inr ⟨hi, .inr ⟨by omega, h3 htr hj⟩⟩)).sooner hm

/-- What a client that reads, or is done, waits for gets out of the network: the server comes out of its send. -/
theorem server_freed {r : Room} {mc ms lc ls cts sts} (hlc : lc < 2 ^ 63) (hls : ls < 2 ^ 63) {d : Dialogue} {f : Nat → Happens} (hf : FairNet f) (g : Nat) :
    ∀ {n : Nat} {i j bc bs}, Together mc ms lc ls cts sts (d.tightAt r f n) i j bc bs → (d.tightAt r f n).client.transit.length ≤ r.up →
    (∀ m key extra, cts[i]? ≠ some (.say m key extra)) → (d.tightAt r f n).server.transit.length ≤ r.down + g →
    Goes r mc ms lc ls cts sts d f n i j ∨ ∃ m, n ≤ m ∧ Together mc ms lc ls cts sts (d.tightAt r f m) i j bc bs ∧
      (d.tightAt r f m).client.transit.length ≤ r.up ∧ (d.tightAt r f m).server.transit.length ≤ r.down := by
  induction g with
  | zero => intro n i j bc bs h hr _ hg; exact .inr ⟨n, Nat.le_refl _, h, hr, hg⟩
  | succ g ih =>
    intro n i j bc bs h hr hs hg
    by_cases hw : (d.tightAt r f n).server.carried < (d.tightAt r f n).server.output.wire.length
    · rcases carried_on hlc hls hf h hr hs with h1 | ⟨m, hm, h1, h2, h3, -⟩
      · exact .inl h1
      · have h4 := h3 hw
        have h5 : (d.tightAt r f m).server.transit.length ≤ r.down + g := by
          unfold Party.transit at hg ⊢
          rw [List.length_drop] at hg ⊢
          have e : (d.tightAt r f m).server.output.wire.length = (d.tightAt r f n).server.output.wire.length := by rw [h1.client.wire, h.client.wire]
          omega
        rcases ih h1 (Nat.le_trans (transit_later h h1 h2).2 hr) hs h5 with h6 | ⟨m', k1, k2⟩
        · exact .inl (h6.sooner hm)
        · exact .inr ⟨m', by omega, k2⟩
    · refine .inr ⟨n, Nat.le_refl _, h, hr, ?_⟩
      unfold Party.transit
      rw [List.length_drop]
      omega

/-- If neither is in a send, or one of them, and the two lists allow more, there is more. -/
theorem goes_if_client_free {r : Room} {mc ms lc ls cts sts} (hlc : lc < 2 ^ 63) (hls : ls < 2 ^ 63) {d : Dialogue} {f : Nat → Happens} (hf : FairNet f) {n : Nat}
    {i j bc bs} (h : Together mc ms lc ls cts sts (d.tightAt r f n) i j bc bs) (hr : (d.tightAt r f n).client.transit.length ≤ r.up)
    (hgo : CanGo cts sts i j ∨ CanGo sts cts j i) : Goes r mc ms lc ls cts sts d f n i j := by
  by_cases hc : CanGo cts sts i j
  · exact goes_client hlc hls hf h hr hc
  · have hs := hgo.resolve_left hc
    rcases server_freed hlc hls hf (d.tightAt r f n).server.transit.length h hr (fun m key extra hx => hc (.inl ⟨m, key, extra, hx⟩)) (by omega) with
      h1 | ⟨m, hm, h1, -, h2⟩
    · exact h1
    · have h' := h1.swap
      rw [← tightAt_swap] at h'
      have hr' : (d.swap.tightAt r.swap (fun n => (f n).swap) m).client.transit.length ≤ r.swap.up := by
        rw [tightAt_swap]; exact h2
      obtain ⟨m', j', i', bs', bc', k1, k2, k3, k4, k5⟩ := goes_client hls hlc (fair_swap hf) h' hr' hs
      rw [tightAt_swap] at k2
      exact ⟨m', i', j', bc', bs', by omega, k2.swap, k4, k3, by omega⟩

theorem Goes.swap {r mc ms lc ls cts sts d f n i j} (h : Goes r.swap ms mc ls lc sts cts d.swap (fun n => (f n).swap) n j i) :
    Goes r mc ms lc ls cts sts d f n i j := by
  obtain ⟨m, j', i', bs', bc', k1, k2, k3, k4, k5⟩ := h
  rw [tightAt_swap] at k2
  exact ⟨m, i', j', bc', bs', k1, k2.swap, k4, k3, by omega⟩

/-- Both are in a send, with more to say than there is room for. -/
def Dialogue.Jammed (r : Room) (d : Dialogue) : Prop := r.up < d.client.transit.length ∧ r.down < d.server.transit.length

/-- Nothing gets them out of it. -/
theorem jammed_tight {r : Room} {d : Dialogue} (h : d.Jammed r) (e : Happens) : d.tight r e = d := by
  have h1 : d.client.free r.up = false := by unfold Party.free; simpa using h.1
  have h2 : d.server.free r.down = false := by unfold Party.free; simpa using h.2
  unfold Dialogue.tight
  rw [if_neg]
  rcases e with ⟨_ | _⟩ | ⟨_ | _, n⟩ <;> simp [Dialogue.allows, Party.takes, h1, h2]

theorem jammed_at {r : Room} {d : Dialogue} {f : Nat → Happens} {n : Nat} (h : (d.tightAt r f n).Jammed r) (m : Nat) (hm : n ≤ m) :
    d.tightAt r f m = d.tightAt r f n := by
  obtain ⟨k, rfl⟩ := Nat.exists_eq_add_of_le hm
  induction k with
  | zero => rfl
  | succ k ih =>
    rw [← Nat.add_assoc, tightAt_succ, ih (by omega), jammed_tight h]

theorem jammed_or_free (r : Room) (d : Dialogue) : d.Jammed r ∨ d.client.transit.length ≤ r.up ∨ d.server.transit.length ≤ r.down := by
  unfold Dialogue.Jammed; omega

theorem tight_ends {r : Room} {mc ms lc ls cts sts} (hlc : lc < 2 ^ 63) (hls : ls < 2 ^ 63) {d : Dialogue} {f : Nat → Happens} (hf : FairNet f) (hm : Matched cts sts)
    (g : Nat) : ∀ {n i j bc bs}, Together mc ms lc ls cts sts (d.tightAt r f n) i j bc bs → cts.length + sts.length ≤ i + j + g →
    ∃ m, n ≤ m ∧ ((∃ bc' bs', Together mc ms lc ls cts sts (d.tightAt r f m) cts.length sts.length bc' bs' ∧
      (d.tightAt r f m).client.transit.length ≤ r.up ∧ (d.tightAt r f m).server.transit.length ≤ r.down) ∨ (d.tightAt r f m).Jammed r) := by
  induction g with
  | zero =>
    intro n i j bc bs h hg
    have h1 := h.server.le
    have h2 := h.client.le
    have e1 : i = cts.length := by omega
    have e2 : j = sts.length := by omega
    subst e1 e2
    have nogo : ∀ m, ¬ Goes r mc ms lc ls cts sts d f m cts.length sts.length := by
      rintro m ⟨m', i', j', bc', bs', -, k, -, -, k'⟩
      have := k.server.le
      have := k.client.le
      omega
    rcases jammed_or_free r (d.tightAt r f n) with hx | hx | hx
    · exact ⟨n, Nat.le_refl _, .inr hx⟩
    · rcases server_freed hlc hls hf (d.tightAt r f n).server.transit.length h hx (by simp) (by omega) with hx | ⟨m, k1, k2, k3, k4⟩
      · exact absurd hx (nogo _)
      · exact ⟨m, k1, .inl ⟨bc, bs, k2, k3, k4⟩⟩
    · have h' := h.swap
      rw [← tightAt_swap] at h'
      rcases server_freed (r := r.swap) hls hlc (fair_swap hf) (d.tightAt r f n).client.transit.length h' (by rw [tightAt_swap]; exact hx) (by simp)
        (by rw [tightAt_swap]; show (d.tightAt r f n).client.transit.length ≤ _; omega) with hx | ⟨m, k1, k2, k3, k4⟩
      · exact absurd hx.swap (nogo _)
      · rw [tightAt_swap] at k2 k3 k4
        exact ⟨m, k1, .inl ⟨bc, bs, k2.swap, k4, k3⟩⟩
  | succ g ih =>
    intro n i j bc bs h hg
    rcases jammed_or_free r (d.tightAt r f n) with hx | hfree
    · exact ⟨n, Nat.le_refl _, .inr hx⟩
    · rcases matched_goes hm h.server.le h.client.le with ⟨h1, h2⟩ | hgo
      · exact ih h (by omega)
      · have hgoes : Goes r mc ms lc ls cts sts d f n i j := by
          rcases hfree with hx | hx
          · exact goes_if_client_free hlc hls hf h hx hgo
          · have h' := h.swap
            rw [← tightAt_swap] at h'
            exact (goes_if_client_free (r := r.swap) hls hlc (fair_swap hf) h' (by rw [tightAt_swap]; exact hx) hgo.symm).swap
        obtain ⟨m, i', j', bc', bs', k1, k2, k3, k4, k5⟩ := hgoes
        obtain ⟨m', l1, l2⟩ := ih k2 (by omega)
        exact ⟨m', by omega, l2⟩

/-! ## How much is unheard -/

theorem wire_length {mask : Bool} {f : Frame} {b : Bytes} (h : Wire mask [f] b) : b.length = onWire mask f.payload.length := by
  cases h with
  | cons hf hk hr =>
    cases hr
    obtain ⟨b0, b1, l7, ext, body, rfl, -, -, -, hlen, h4, hb⟩ := hf
    rename_i key
    have hbody : body.length = f.payload.length := by
      cases key with
      | none => rw [show body = f.payload from hb]
      | some k => exact hb.1
    have hkey : (key.getD []).length = if mask then 4 else 0 := by
      cases key with
      | none => rw [← hk]; rfl
      | some k => rw [← hk]; exact h4 k rfl
    have hext : 2 + ext.length = if f.payload.length ≤ 125 then 2 else if f.payload.length ≤ 65535 then 4 else 10 := by
      cases hlen with
      | short h => rw [if_pos h]; rfl
      | medium _ h1 h2 hl _ => rw [if_neg (by omega), if_pos h2, hl]
      | long _ h1 h2 hl _ => rw [if_neg (by omega), if_neg (by omega), hl]
    unfold onWire
    rw [← hext, ← hkey]
    simp only [List.length_append, List.length_cons, List.length_nil, hbody]
    omega

theorem flatten_length_zip {mask : Bool} (xs : List (OwnedMsg × Key4)) (bss : List Bytes) (hl : bss.length = xs.length)
    (h : ∀ x ∈ xs.zip bss, Wire mask [x.1.1.view.spec] x.2) (k : Nat) :
    (bss.drop k).flatten.length = ((xs.drop k).map fun x => onWire mask x.1.view.spec.payload.length).sum := by
  induction xs generalizing bss k with
  | nil =>
    have : bss = [] := List.length_eq_zero_iff.mp hl
    subst this
    simp
  | cons x xs ih =>
    cases bss with
    | nil => simp at hl
    | cons b bss =>
      have hl' : bss.length = xs.length := by simpa using hl
      have h' : ∀ y ∈ xs.zip bss, Wire mask [y.1.1.view.spec] y.2 := fun y hy => h y (by rw [List.zip_cons_cons]; exact List.mem_cons_of_mem _ hy)
      cases k with
      | zero =>
        have h0 := ih bss hl' h' 0
        simp only [List.drop_zero] at h0
        have hb := wire_length (h (x, b) (by rw [List.zip_cons_cons]; exact List.mem_cons_self))
        simp only [List.drop_zero, List.flatten_cons, List.length_append, List.map_cons, List.sum_cons, h0, hb]
      | succ k => simpa using ih bss hl' h' k

/-- What lies in the network has been said and not been heard. -/
theorem Flow.transit_le {mask lim mine theirs i j bss p q} (h : Flow mask lim mine theirs i j bss p q) : q.transit.length ≤ unheard mask theirs mine j i := by
  have h1 := congrArg List.length h.pend
  rw [flatten_length_zip _ _ h.count h.frames] at h1
  rw [List.length_append] at h1
  unfold unheard
  omega

theorem hears_mono {ts : List Talk} {j j' : Nat} (h : j ≤ j') : hears (ts.take j) ≤ hears (ts.take j') := by
  obtain ⟨k, rfl⟩ := Nat.exists_eq_add_of_le h
  rw [List.take_add, hears_append]
  omega

theorem sum_drop_le (l : List Nat) {a b : Nat} (h : a ≤ b) : (l.drop b).sum ≤ (l.drop a).sum := by
  obtain ⟨k, rfl⟩ := Nat.exists_eq_add_of_le h
  have := congrArg List.sum (List.take_append_drop k (l.drop a))
  rw [List.sum_append, List.drop_drop] at this
  omega

theorem unheard_mono {mask : Bool} {mine theirs : List Talk} {i j j' : Nat} (h : j ≤ j') : unheard mask mine theirs i j' ≤ unheard mask mine theirs i j := by
  unfold unheard
  rw [List.map_drop, List.map_drop]
  exact sum_drop_le _ (hears_mono h)

theorem ReachIn.reach {up down cts sts i j} (h : ReachIn up down cts sts i j) : Reach cts sts i j := by
  induction h with
  | start => exact .start
  | client _ hg _ ih => exact .client ih hg
  | server _ hg _ ih => exact .server ih hg

/-- Programs that can come to their ends with the room there is never leave more than fits on both ways at once. -/
theorem reachIn_room {up down : Nat} {cts sts : List Talk} {a b : Nat} (h : ReachIn up down cts sts a b) {i j : Nat} :
    (a ≤ i ∧ b ≤ j) ∨ unheard true cts sts i j ≤ up ∨ unheard false sts cts j i ≤ down := by
  induction h with
  | start => exact .inl ⟨Nat.zero_le _, Nat.zero_le _⟩
  | @client a b _ hg hu ih =>
    rcases ih with ⟨h1, h2⟩ | h
    · by_cases hx : a + 1 ≤ i
      · exact .inl ⟨hx, h2⟩
      · have : a = i := by omega
        subst this
        exact .inr (.inl (Nat.le_trans (unheard_mono h2) hu))
    · exact .inr h
  | @server a b _ hg hu ih =>
    rcases ih with ⟨h1, h2⟩ | h
    · by_cases hx : b + 1 ≤ j
      · exact .inl ⟨h1, hx⟩
      · have : b = j := by omega
        subst this
        exact .inr (.inr (Nat.le_trans (unheard_mono h1) hu))
    · exact .inr h

end WS
