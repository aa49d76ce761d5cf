import Verif.Lemmas.Tight
import Verif.Props.Dialogue
/-!
# C74: two programs talking to each other over a network with little room

As C54, with a network that holds `r.up` bytes on the way to the server and `r.down` on the way back. A send returns when all but so many of the bytes
written have been taken by the peer, and a peer takes bytes only while it is in a receiving call.
-/

namespace WS
open Spec

theorem hears_zero_of_says {ts : List Talk} {a : Nat} : (∀ k, k < a → ∃ m key extra, ts[k]? = some (.say m key extra)) → hears (ts.take a) = 0 := by
  induction a with
  | zero => intro _; simp [hears]
  | succ a ih =>
    intro h
    obtain ⟨m, key, extra, hx⟩ := h a (by omega)
    rw [take_next hx, hears_append, ih (fun k hk => h k (by omega))]
    rfl

theorem Starts.carried {mask lim ts p} (h : Starts mask lim ts p) : p.carried = 0 := by
  cases h <;> rfl

/-- Whatever the schedule and the room, what the programs have heard is what the other has said, in order, and no send fails. -/
theorem C74_safe {lc ls : Nat} {cts sts : List Talk} {d : Dialogue} (h : Opened lc ls cts sts d) (r : Room) (es : List Happens) :
    ∃ i j, Reach cts sts i j ∧ (d.runTight r es).client.todo = cts.drop i ∧ (d.runTight r es).server.todo = sts.drop j ∧
      (d.runTight r es).client.sent = (said (cts.take i)).map (fun _ => true) ∧ (d.runTight r es).server.sent = (said (sts.take j)).map (fun _ => true) ∧
      (d.runTight r es).client.heard = expected ((said sts).map Prod.fst) (hears (cts.take i)) ∧
      (d.runTight r es).server.heard = expected ((said cts).map Prod.fst) (hears (sts.take j)) := by
  obtain ⟨i, j, bc, bs, h1, h2⟩ := runTight_together (r := r) h.client.lim_lt h.server.lim_lt es h.together
  exact ⟨i, j, h2.reach .start, h1.server.todo, h1.client.todo, h1.server.sent, h1.client.sent, h1.client.heard, h1.server.heard⟩

/-- Programs that fit together come to their ends under every fair schedule, or there comes a time from which both are in a send for ever, each waiting for the
other to read. Nothing else can go wrong. -/
theorem C74_ends_or_jams {lc ls : Nat} {cts sts : List Talk} {d : Dialogue} (h : Opened lc ls cts sts d) (hm : Matched cts sts) (r : Room) (f : Nat → Happens)
    (hf : FairNet f) :
    ∃ n, (∀ k, n ≤ k → (d.runTight r ((List.range k).map f)).client.todo = [] ∧ (d.runTight r ((List.range k).map f)).server.todo = [] ∧
        (d.runTight r ((List.range k).map f)).client.transit.length ≤ r.up ∧ (d.runTight r ((List.range k).map f)).server.transit.length ≤ r.down ∧
        (d.runTight r ((List.range k).map f)).client.sent = (said cts).map (fun _ => true) ∧
        (d.runTight r ((List.range k).map f)).server.sent = (said sts).map (fun _ => true) ∧
        (d.runTight r ((List.range k).map f)).client.heard = expected ((said sts).map Prod.fst) (hears cts) ∧
        (d.runTight r ((List.range k).map f)).server.heard = expected ((said cts).map Prod.fst) (hears sts)) ∨
      (∀ k, n ≤ k → r.up < (d.runTight r ((List.range k).map f)).client.transit.length ∧ r.down < (d.runTight r ((List.range k).map f)).server.transit.length) := by
  have h0 : Together false true lc ls cts sts (d.tightAt r f 0) 0 0 [] [] := h.together
  obtain ⟨n, -, ⟨bc, bs, h1, hu, hd⟩ | hj⟩ := tight_ends h.client.lim_lt h.server.lim_lt hf hm (cts.length + sts.length) h0 (by omega)
  · refine ⟨n, .inl fun k hk => ?_⟩
    obtain ⟨i, j, bc', bs', h2, h3⟩ := tightAt_together h.client.lim_lt h.server.lim_lt h1 k hk
    have ei : i = cts.length := by have := h3.hi; have := h2.server.le; omega
    have ej : j = sts.length := by have := h3.hj; have := h2.client.le; omega
    subst ei ej
    have k1 := h2.server.todo
    have k2 := h2.client.todo
    have k3 := h2.server.sent
    have k4 := h2.client.sent
    have k5 := h2.client.heard
    have k6 := h2.server.heard
    rw [List.drop_length] at k1 k2
    rw [List.take_length] at k3 k4 k5 k6
    exact ⟨k1, k2, Nat.le_trans (transit_later h1 h2 h3).2 hu, Nat.le_trans (transit_later' h1 h2 h3).2 hd, k3, k4, k5, k6⟩
  · refine ⟨n, .inr fun k hk => ?_⟩
    have := jammed_at hj k hk
    unfold Dialogue.tightAt at this
    rw [this]
    exact hj

/-- If both are in a send for ever, then each has said more than fits that the other has not listened for yet. -/
theorem C74_who_jams {lc ls : Nat} {cts sts : List Talk} {d : Dialogue} (h : Opened lc ls cts sts d) (r : Room) (es : List Happens)
    (hc : r.up < (d.runTight r es).client.transit.length) (hs : r.down < (d.runTight r es).server.transit.length) :
    ∃ i j, Reach cts sts i j ∧ (d.runTight r es).client.todo = cts.drop i ∧ (d.runTight r es).server.todo = sts.drop j ∧
      r.up < unheard true cts sts i j ∧ r.down < unheard false sts cts j i := by
  obtain ⟨i, j, bc, bs, h1, h2⟩ := runTight_together (r := r) h.client.lim_lt h.server.lim_lt es h.together
  exact ⟨i, j, h2.reach .start, h1.server.todo, h1.client.todo, Nat.lt_of_lt_of_le hc h1.server.transit_le, Nat.lt_of_lt_of_le hs h1.client.transit_le⟩

/-- Programs that can be carried out with the room there is come to their ends under every fair schedule. -/
theorem C74_enough_room {lc ls : Nat} {cts sts : List Talk} {d : Dialogue} (h : Opened lc ls cts sts d) (r : Room) (hm : FitsIn r.up r.down cts sts)
    (f : Nat → Happens) (hf : FairNet f) :
    ∃ n, ∀ k, n ≤ k → (d.runTight r ((List.range k).map f)).client.todo = [] ∧ (d.runTight r ((List.range k).map f)).server.todo = [] ∧
      (d.runTight r ((List.range k).map f)).client.transit.length ≤ r.up ∧ (d.runTight r ((List.range k).map f)).server.transit.length ≤ r.down ∧
      (d.runTight r ((List.range k).map f)).client.sent = (said cts).map (fun _ => true) ∧
      (d.runTight r ((List.range k).map f)).server.sent = (said sts).map (fun _ => true) ∧
      (d.runTight r ((List.range k).map f)).client.heard = expected ((said sts).map Prod.fst) (hears cts) ∧
      (d.runTight r ((List.range k).map f)).server.heard = expected ((said cts).map Prod.fst) (hears sts) := by
  obtain ⟨n, h1 | h1⟩ := C74_ends_or_jams h hm.1.reach r f hf
  · exact ⟨n, h1⟩
  · obtain ⟨hc, hs⟩ := h1 n (Nat.le_refl _)
    obtain ⟨i, j, bc, bs, h2, -⟩ := runTight_together (r := r) h.client.lim_lt h.server.lim_lt ((List.range n).map f) h.together
    have hc := Nat.lt_of_lt_of_le hc h2.server.transit_le
    have hs := Nat.lt_of_lt_of_le hs h2.client.transit_le
    rcases reachIn_room hm.1 (i := i) (j := j) with ⟨e1, e2⟩ | hx | hx
    · have e1 : i = cts.length := by have := h2.server.le; omega
      have e2 : j = sts.length := by have := h2.client.le; omega
      subst e1 e2
      rcases hm.2 with hx | hx <;> omega
    · omega
    · omega

/-- Two lists in which each call of one belongs to a call of the other. -/
theorem fitsIn_opposite {cts sts : List Talk} (hl : cts.length = sts.length) (h : ∀ (k : Nat) t u, cts[k]? = some t → sts[k]? = some u → Opposite t u) (up down : Nat) :
    FitsIn up down cts sts := by
  have key : ∀ k, k ≤ cts.length → ReachIn up down cts sts k k ∧ (said (cts.take k)).length = hears (sts.take k) ∧ (said (sts.take k)).length = hears (cts.take k) := by
    intro k
    induction k with
    | zero => intro _; exact ⟨.start, rfl, rfl⟩
    | succ k ih =>
      intro hk
      obtain ⟨h1, h2, h3⟩ := ih (by omega)
      have u1 : unheard true cts sts k k = 0 := by unfold unheard; rw [List.drop_eq_nil_of_le (by omega)]; rfl
      have u2 : unheard false sts cts k k = 0 := by unfold unheard; rw [List.drop_eq_nil_of_le (by omega)]; rfl
      have v1 : unheard true cts sts k (k + 1) ≤ up := Nat.le_trans (unheard_mono (Nat.le_succ k)) (by omega)
      have v2 : unheard false sts cts k (k + 1) ≤ down := Nat.le_trans (unheard_mono (Nat.le_succ k)) (by omega)
      have ht := List.getElem?_eq_getElem (l := cts) (i := k) (by omega)
      have hu := List.getElem?_eq_getElem (l := sts) (i := k) (by omega)
      have ho := h k _ _ ht hu
      generalize cts[k] = t at *
      generalize sts[k] = u at *
      rw [take_next ht, take_next hu, said_append, said_append, hears_append, hears_append, List.length_append, List.length_append]
      cases ho with
      | say m key extra =>
        refine ⟨.server (.client h1 (.inl ⟨m, key, extra, ht⟩) (by omega)) (.inr ⟨hu, .inl ?_⟩) v2, ?_, ?_⟩
        · rw [take_next ht, said_append, List.length_append, h2]; simp [said]
        · rw [h2]; rfl
        · rw [h3]; rfl
      | hear m key extra =>
        refine ⟨.client (.server h1 (.inl ⟨m, key, extra, hu⟩) (by omega)) (.inr ⟨ht, .inl ?_⟩) v1, ?_, ?_⟩
        · rw [take_next hu, said_append, List.length_append, h3]; simp [said]
        · rw [h2]; rfl
        · rw [h3]; rfl
  obtain ⟨h1, h2, -⟩ := key cts.length (Nat.le_refl _)
  refine ⟨?_, .inl ?_⟩
  · rw [← hl]; exact h1
  · unfold unheard
    rw [← hl, List.drop_eq_nil_of_le (by omega)]
    exact Nat.zero_le _

/-- Programs that take turns, one listening whenever the other speaks, come to their ends whatever room there is, even with none, and whatever the size of the messages. -/
theorem C74_turns {lc ls : Nat} {cts sts : List Talk} {d : Dialogue} (h : Opened lc ls cts sts d) (hl : cts.length = sts.length)
    (ho : ∀ (k : Nat) t u, cts[k]? = some t → sts[k]? = some u → Opposite t u) (r : Room) (f : Nat → Happens) (hf : FairNet f) :
    ∃ n, ∀ k, n ≤ k → (d.runTight r ((List.range k).map f)).client.todo = [] ∧ (d.runTight r ((List.range k).map f)).server.todo = [] ∧
      (d.runTight r ((List.range k).map f)).client.heard = ((said sts).map fun x => .message x.1) ∧
      (d.runTight r ((List.range k).map f)).server.heard = ((said cts).map fun x => .message x.1) := by
  obtain ⟨n, hn⟩ := C74_enough_room h r (fitsIn_opposite hl ho _ _) f hf
  have len : ∀ k, k ≤ cts.length → (said (cts.take k)).length = hears (sts.take k) ∧ (said (sts.take k)).length = hears (cts.take k) := by
    intro k
    induction k with
    | zero => intro _; exact ⟨rfl, rfl⟩
    | succ k ih =>
      intro hk
      obtain ⟨h2, h3⟩ := ih (by omega)
      have ht := List.getElem?_eq_getElem (l := cts) (i := k) (by omega)
      have hu := List.getElem?_eq_getElem (l := sts) (i := k) (by omega)
      have ho := ho k _ _ ht hu
      generalize cts[k] = t at *
      generalize sts[k] = u at *
      rw [take_next ht, take_next hu, said_append, said_append, hears_append, hears_append, List.length_append, List.length_append, h2, h3]
      cases ho <;> exact ⟨rfl, rfl⟩
  obtain ⟨l1, l2⟩ := len cts.length (Nat.le_refl _)
  rw [List.take_length, hl, List.take_length] at l1 l2
  refine ⟨n, fun k hk => ?_⟩
  obtain ⟨k1, k2, -, -, -, -, k5, k6⟩ := hn k hk
  refine ⟨k1, k2, ?_, ?_⟩
  · rw [k5]; unfold expected; rw [← l2]; rw [List.take_of_length_le (by simp)]; simp [Function.comp_def]
  · rw [k6]; unfold expected; rw [← l1]; rw [List.take_of_length_le (by simp)]; simp [Function.comp_def]

/-- If one of the two never says more in all than there is room for, programs that fit together come to their ends. -/
theorem C74_one_way {lc ls : Nat} {cts sts : List Talk} {d : Dialogue} (h : Opened lc ls cts sts d) (hm : Matched cts sts) (r : Room)
    (hsmall : ((said cts).map fun x => onWire true x.1.view.spec.payload.length).sum ≤ r.up ∨
      ((said sts).map fun x => onWire false x.1.view.spec.payload.length).sum ≤ r.down) (f : Nat → Happens) (hf : FairNet f) :
    ∃ n, ∀ k, n ≤ k → (d.runTight r ((List.range k).map f)).client.todo = [] ∧ (d.runTight r ((List.range k).map f)).server.todo = [] ∧
      (d.runTight r ((List.range k).map f)).client.heard = expected ((said sts).map Prod.fst) (hears cts) ∧
      (d.runTight r ((List.range k).map f)).server.heard = expected ((said cts).map Prod.fst) (hears sts) := by
  have small : ∀ (mask : Bool) (mine theirs : List Talk) (i j : Nat), unheard mask mine theirs i j ≤ ((said mine).map fun x => onWire mask x.1.view.spec.payload.length).sum := by
    intro mask mine theirs i j
    unfold unheard
    rw [List.map_drop]
    refine Nat.le_trans (sum_drop_le _ (Nat.zero_le _)) ?_
    rw [List.drop_zero]
    conv => rhs; rw [← List.take_append_drop i mine, said_append, List.map_append, List.sum_append]
    omega
  obtain ⟨n, h1 | h1⟩ := C74_ends_or_jams h hm r f hf
  · exact ⟨n, fun k hk => by obtain ⟨k1, k2, -, -, -, -, k5, k6⟩ := h1 k hk; exact ⟨k1, k2, k5, k6⟩⟩
  · obtain ⟨hc, hs⟩ := h1 n (Nat.le_refl _)
    obtain ⟨i, j, -, -, -, u1, u2⟩ := C74_who_jams h r _ hc hs
    have := small true cts sts i j
    have := small false sts cts j i
    omega

/-- Two programs that both begin by saying more than there is room for hear nothing, whatever the schedule, and never get to what comes after. -/
theorem C74_both_talk {lc ls : Nat} {cts sts : List Talk} {d : Dialogue} (h : Opened lc ls cts sts d) (r : Room) {a b : Nat}
    (ha : ∀ k, k < a → ∃ m key extra, cts[k]? = some (.say m key extra)) (hb : ∀ k, k < b → ∃ m key extra, sts[k]? = some (.say m key extra))
    (hu : r.up < unheard true cts sts a 0) (hd : r.down < unheard false sts cts b 0) (es : List Happens) :
    ∃ i j, i ≤ a ∧ j ≤ b ∧ (d.runTight r es).client.todo = cts.drop i ∧ (d.runTight r es).server.todo = sts.drop j ∧
      (d.runTight r es).client.heard = [] ∧ (d.runTight r es).server.heard = [] := by
  have inv : ∀ es : List Happens, ∀ d : Dialogue, ∀ i j bc bs, i ≤ a → j ≤ b → d.client.carried = 0 → d.server.carried = 0 → Together false true lc ls cts sts d i j bc bs →
      ∃ i j bc bs, i ≤ a ∧ j ≤ b ∧ Together false true lc ls cts sts (d.runTight r es) i j bc bs := by
    intro es
    induction es with
    | nil => intro d i j bc bs hi hj _ _ ht; exact ⟨i, j, bc, bs, hi, hj, ht⟩
    | cons e es ih =>
      intro d i j bc bs hi hj c1 c2 ht
      have full1 : i = a → d.client.free r.up = false := by
        rintro rfl
        have e := flatten_length_zip (mask := true) _ _ ht.server.count ht.server.frames 0
        have : d.client.transit.length = unheard true cts sts i 0 := by
          unfold Party.transit unheard
          rw [c1, ht.server.wire]
          exact e
        unfold Party.free
        simp only [decide_eq_false_iff_not]
        omega
      have full2 : j = b → d.server.free r.down = false := by
        rintro rfl
        have e := flatten_length_zip (mask := false) _ _ ht.client.count ht.client.frames 0
        have : d.server.transit.length = unheard false sts cts j 0 := by
          unfold Party.transit unheard
          rw [c2, ht.client.wire]
          exact e
        unfold Party.free
        simp only [decide_eq_false_iff_not]
        omega
      have busy1 : d.client.takes r.up = false := by
        by_cases hx : i = a
        · unfold Party.takes; rw [full1 hx]; rfl
        · obtain ⟨m, key, extra, hs⟩ := ha i (by omega)
          unfold Party.takes
          rw [ht.server.todo, drop_next hs]
          simp
      have busy2 : d.server.takes r.down = false := by
        by_cases hx : j = b
        · unfold Party.takes; rw [full2 hx]; rfl
        · obtain ⟨m, key, extra, hs⟩ := hb j (by omega)
          unfold Party.takes
          rw [ht.client.todo, drop_next hs]
          simp
      show ∃ i j bc bs, i ≤ a ∧ j ≤ b ∧ Together false true lc ls cts sts ((d.tight r e).runTight r es) i j bc bs
      rcases e with ⟨_ | _⟩ | ⟨_ | _, n⟩
      · by_cases hfree : d.client.free r.up = true
        · obtain ⟨i', bp', g1, g2, -, g4, -, g6, -⟩ := act_flow h.server.lim_lt ht.client ht.server
          have e : d.tight r (.act .client) = { d with client := d.client.act } := by
            unfold Dialogue.tight; rw [if_pos (show d.allows r (.act .client) = true from hfree)]; rfl
          rw [e]
          have hia : i ≠ a := fun hx => by rw [full1 hx] at hfree; cases hfree
          exact ih _ i' j bp' bs (by rcases g6 with g | ⟨g, -⟩ <;> omega) hj (g4.trans c1) c2 ⟨g1, g2⟩
        · have e : d.tight r (.act .client) = d := by
            unfold Dialogue.tight; rw [if_neg (show ¬ d.allows r (.act .client) = true from hfree)]
          rw [e]; exact ih _ i j bc bs hi hj c1 c2 ht
      · by_cases hfree : d.server.free r.down = true
        · obtain ⟨j', bp', g1, g2, -, g4, -, g6, -⟩ := act_flow h.client.lim_lt ht.server ht.client
          have e : d.tight r (.act .server) = { d with server := d.server.act } := by
            unfold Dialogue.tight; rw [if_pos (show d.allows r (.act .server) = true from hfree)]; rfl
          rw [e]
          have hjb : j ≠ b := fun hx => by rw [full2 hx] at hfree; cases hfree
          exact ih _ i j' bc bp' hi (by rcases g6 with g | ⟨g, -⟩ <;> omega) c1 (g4.trans c2) ⟨g2, g1⟩
        · have e : d.tight r (.act .server) = d := by
            unfold Dialogue.tight; rw [if_neg (show ¬ d.allows r (.act .server) = true from hfree)]
          rw [e]; exact ih _ i j bc bs hi hj c1 c2 ht
      · have e : d.tight r (.carry .client n) = d := by
          unfold Dialogue.tight; rw [if_neg (show ¬ d.allows r (.carry .client n) = true by simp [Dialogue.allows, busy2])]
        rw [e]; exact ih _ i j bc bs hi hj c1 c2 ht
      · have e : d.tight r (.carry .server n) = d := by
          unfold Dialogue.tight; rw [if_neg (show ¬ d.allows r (.carry .server n) = true by simp [Dialogue.allows, busy1])]
        rw [e]; exact ih _ i j bc bs hi hj c1 c2 ht
  have c1 : d.client.carried = 0 := by exact h.client.carried
  have c2 : d.server.carried = 0 := by exact h.server.carried
  obtain ⟨i, j, bc, bs, hi, hj, ht⟩ := inv es d 0 0 [] [] (Nat.zero_le _) (Nat.zero_le _) c1 c2 h.together
  refine ⟨i, j, hi, hj, ht.server.todo, ht.client.todo, ?_, ?_⟩
  · rw [ht.client.heard, hears_zero_of_says (fun k hk => ha k (by omega))]; simp [expected]
  · rw [ht.server.heard, hears_zero_of_says (fun k hk => hb k (by omega))]; simp [expected]

/-- Say something `n` times, then listen `n` times. -/
def talkFirst (m : OwnedMsg) (key : Key4) (n : Nat) : List Talk := List.replicate n (.say m key 0) ++ List.replicate n .hear

theorem talkFirst_facts (m : OwnedMsg) (key : Key4) (n k : Nat) :
    (talkFirst m key n).length = n + n ∧ (k < n → (talkFirst m key n)[k]? = some (.say m key 0)) ∧ (k < n → (talkFirst m key n)[n + k]? = some .hear) ∧
      said ((talkFirst m key n).take n) = List.replicate n (m, key) ∧ (k ≤ n → hears ((talkFirst m key n).take (n + k)) = k) ∧
      said (talkFirst m key n) = List.replicate n (m, key) ∧ (said ((talkFirst m key n).take (n + k))) = List.replicate n (m, key) := by
  have s1 : ∀ n, said (List.replicate n (.say m key 0)) = List.replicate n (m, key) := by
    intro n; induction n with
    | zero => rfl
    | succ n ih => simp only [List.replicate_succ, said, ih]
  have s2 : ∀ n, said (List.replicate n .hear) = [] := by
    intro n; induction n with
    | zero => rfl
    | succ n ih => simp only [List.replicate_succ, said, ih]
  have s3 : ∀ n, hears (List.replicate n (.say m key 0)) = 0 := by
    intro n; induction n with
    | zero => rfl
    | succ n ih => simp only [List.replicate_succ, hears, ih]
  have s4 : ∀ n, hears (List.replicate n .hear) = n := by
    intro n; induction n with
    | zero => rfl
    | succ n ih => simp only [List.replicate_succ, hears, ih]
  unfold talkFirst
  refine ⟨by simp, ?_, ?_, ?_, ?_, ?_, ?_⟩
  · intro hk; rw [List.getElem?_append_left (by simpa using hk)]; simp [hk]
  · intro hk; rw [List.getElem?_append_right (by simp)]; simp [hk]
  · simp [s1]
  · intro hk; simp [List.take_append, List.take_replicate, hears_append, s3, s4, hk]
  · simp [said_append, s1, s2]
  · simp [List.take_append, List.take_replicate, said_append, s1, s2]

/-- Two such programs fit together. -/
theorem talkFirst_matched (m m' : OwnedMsg) (key key' : Key4) (n : Nat) : Matched (talkFirst m key n) (talkFirst m' key' n) := by
  have r1 : ∀ k, k ≤ n → Reach (talkFirst m key n) (talkFirst m' key' n) k 0 := by
    intro k; induction k with
    | zero => intro _; exact .start
    | succ k ih => intro hk; exact .client (ih (by omega)) (.inl ⟨m, key, 0, (talkFirst_facts m key n k).2.1 (by omega)⟩)
  have r2 : ∀ k, k ≤ n → Reach (talkFirst m key n) (talkFirst m' key' n) n k := by
    intro k; induction k with
    | zero => intro _; exact r1 n (Nat.le_refl _)
    | succ k ih => intro hk; exact .server (ih (by omega)) (.inl ⟨m', key', 0, (talkFirst_facts m' key' n k).2.1 (by omega)⟩)
  have r3 : ∀ k, k ≤ n → Reach (talkFirst m key n) (talkFirst m' key' n) (n + k) n := by
    intro k; induction k with
    | zero => intro _; exact r2 n (Nat.le_refl _)
    | succ k ih =>
      intro hk
      refine .client (ih (by omega)) (.inr ⟨(talkFirst_facts m key n k).2.2.1 (by omega), .inl ?_⟩)
      show hears ((talkFirst m key n).take (n + k)) < _
      rw [(talkFirst_facts m key n k).2.2.2.2.1 (by omega), (talkFirst_facts m' key' n k).2.2.2.1, List.length_replicate]
      omega
  have r4 : ∀ k, k ≤ n → Reach (talkFirst m key n) (talkFirst m' key' n) (n + n) (n + k) := by
    intro k; induction k with
    | zero => intro _; exact r3 n (Nat.le_refl _)
    | succ k ih =>
      intro hk
      refine .server (ih (by omega)) (.inr ⟨(talkFirst_facts m' key' n k).2.2.1 (by omega), .inl ?_⟩)
      show hears ((talkFirst m' key' n).take (n + k)) < _
      rw [(talkFirst_facts m' key' n k).2.2.2.2.1 (by omega), (talkFirst_facts m key n n).2.2.2.2.2.2, List.length_replicate]
      omega
  unfold Matched
  rw [(talkFirst_facts m key n 0).1, (talkFirst_facts m' key' n 0).1]
  exact r4 n (Nat.le_refl _)

/-- What `n` such messages take on the wire is more than `n`. -/
theorem talkFirst_unheard (mask : Bool) (m : OwnedMsg) (key : Key4) (n : Nat) (theirs : List Talk) : n ≤ unheard mask (talkFirst m key n) theirs n 0 := by
  unfold unheard
  rw [(talkFirst_facts m key n 0).2.2.2.1]
  simp only [List.take_zero, hears, List.drop_zero, List.map_replicate, List.sum_replicate_nat]
  refine Nat.le_mul_of_pos_right n ?_
  unfold onWire
  split <;> omega

/-- Two blocking programs that both begin by saying one byte `n` times. -/
def talkers (n : Nat) : Dialogue :=
  ⟨Party.blocking false 100 100 (talkFirst (.binary [1]) ⟨1, 2, 3, 4⟩ n) ⟨[], []⟩, Party.blocking true 100 100 (talkFirst (.binary [2]) ⟨0, 0, 0, 0⟩ n) ⟨[], []⟩⟩

theorem talkers_opened (n : Nat) : Opened (min 100 u32Max) (min 100 u32Max) (talkFirst (.binary [1]) ⟨1, 2, 3, 4⟩ n) (talkFirst (.binary [2]) ⟨0, 0, 0, 0⟩ n) (talkers n) := by
  refine ⟨.blocking false 100 100 _ ⟨[], []⟩ (by intro e he; cases he) rfl, .blocking true 100 100 _ ⟨[], []⟩ (by intro e he; cases he) rfl, ?_, ?_⟩
  · intro x hx
    rw [(talkFirst_facts _ _ _ 0).2.2.2.2.2.1] at hx
    rw [List.eq_of_mem_replicate hx]
    show ([1] : List UInt8).length ≤ min 100 u32Max
    decide
  · intro x hx
    rw [(talkFirst_facts _ _ _ 0).2.2.2.2.2.1] at hx
    rw [List.eq_of_mem_replicate hx]
    show ([2] : List UInt8).length ≤ min 100 u32Max
    decide

/-- The claim of C54 does not hold on a network with bounded room, however much that is: there are two programs that fit together, and under no schedule does
either come to its end. -/
theorem C74_refuted (r : Room) : ∃ (lc ls : Nat) (cts sts : List Talk) (d : Dialogue), Opened lc ls cts sts d ∧ Matched cts sts ∧
    ∀ es, (d.runTight r es).client.todo ≠ [] ∧ (d.runTight r es).server.todo ≠ [] := by
  refine ⟨_, _, _, _, _, talkers_opened (r.up + r.down + 1), talkFirst_matched _ _ _ _ _, ?_⟩
  intro es
  obtain ⟨i, j, hi, hj, h1, h2, -, -⟩ := C74_both_talk (talkers_opened (r.up + r.down + 1)) r
    (fun k hk => ⟨_, _, _, (talkFirst_facts _ _ _ k).2.1 hk⟩) (fun k hk => ⟨_, _, _, (talkFirst_facts _ _ _ k).2.1 hk⟩)
    (Nat.lt_of_lt_of_le (by omega) (talkFirst_unheard true _ _ _ _)) (Nat.lt_of_lt_of_le (by omega) (talkFirst_unheard false _ _ _ _)) es
  have l1 := (talkFirst_facts (.binary [1]) ⟨1, 2, 3, 4⟩ (r.up + r.down + 1) 0).1
  have l2 := (talkFirst_facts (.binary [2]) ⟨0, 0, 0, 0⟩ (r.up + r.down + 1) 0).1
  refine ⟨?_, ?_⟩
  · rw [h1]; intro hx; have := List.drop_eq_nil_iff.mp hx; omega
  · rw [h2]; intro hx; have := List.drop_eq_nil_iff.mp hx; omega

/-! ## Examples -/

/-- Nobody hears anything: the client's second message does not fit. -/
example : ((talkers 2).runTight ⟨7, 2⟩ (List.replicate 6 [.act .client, .carry .client 2, .act .server, .carry .server 2]).flatten).view = ([], [], false, false) := by
  decide +kernel

/-- With room for both messages on one of the ways it goes well. -/
example : ((talkers 2).runTight ⟨14, 0⟩ (List.replicate 16 [.act .client, .carry .client 2, .act .server, .carry .server 2]).flatten).view =
    ([.message (.binary [2]), .message (.binary [2])], [.message (.binary [1]), .message (.binary [1])], true, true) := by
  decide +kernel

/-- One question and its answer come through without any room. -/
example : (Dialogue.runTight ⟨0, 0⟩ ⟨Party.blocking false 100 100 (questions (.text (ascii "hi")) ⟨1, 2, 3, 4⟩ 1) ⟨[], []⟩,
      Party.async .server 100 100 (answers (.binary [7]) ⟨0, 0, 0, 0⟩ 1) ⟨[], [.error .wouldBlock, .accept 2]⟩⟩
    (List.replicate 6 [.act .client, .carry .client 2, .act .server, .carry .server 2]).flatten).view =
    ([.message (.binary [7])], [.message (.text (ascii "hi"))], true, true) := by
  decide +kernel

theorem oneQuestion_turns : ∀ (k : Nat) t u, (questions (.text (ascii "hi")) ⟨1, 2, 3, 4⟩ 1)[k]? = some t → (answers (.binary [7]) ⟨0, 0, 0, 0⟩ 1)[k]? = some u → Opposite t u := by
  intro k t u ht hu
  rcases k with _ | _ | k
  · cases ht; cases hu; exact .say _ _ _
  · cases ht; cases hu; exact .hear _ _ _
  · cases ht

example := fun r => C74_safe sampleDialogue_opened r
example := fun r => C74_ends_or_jams oneQuestion (questions_answers _ _ _ _ 1) r _ sampleFair
example := fun r => C74_turns oneQuestion rfl oneQuestion_turns r _ sampleFair
example := fun r => C74_enough_room oneQuestion r (fitsIn_opposite (by rfl) oneQuestion_turns _ _) _ sampleFair
/-- Two programs that both talk first, over a network that holds all that one of them says. -/
example := C74_one_way (talkers_opened 2) (talkFirst_matched _ _ _ _ 2) ⟨14, 0⟩ (.inl (by decide +kernel)) _ sampleFair
example := C74_both_talk (talkers_opened 2) ⟨7, 2⟩ (a := 2) (b := 2) (fun k hk => ⟨_, _, _, (talkFirst_facts _ _ _ k).2.1 hk⟩)
  (fun k hk => ⟨_, _, _, (talkFirst_facts _ _ _ k).2.1 hk⟩) (by decide +kernel) (by decide +kernel)
example := C74_who_jams (talkers_opened 2) ⟨7, 2⟩ [.act .client, .act .server, .act .client] (by decide +kernel) (by decide +kernel)

end WS
