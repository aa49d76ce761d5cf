import Verif.Lemmas.Meeting
/-! A program whose partner is gone comes to an end itself. -/

namespace WS

theorem pollRead_block {σ α} (dec : Decoder σ α) (s : Src) (fr fr' : Framed σ) (s' : Src)
    (h : fr.pollRead dec s = (.notReady, fr', s')) : .error .wouldBlock ∈ s := by
  induction s generalizing fr with
  | nil => simp [Framed.pollRead] at h
  | cons e rest ih =>
    cases e with
    | error k =>
      unfold Framed.pollRead at h
      split at h
      · next hk => rw [hk]; exact List.mem_cons_self
      · simp at h
    | chunk b =>
      unfold Framed.pollRead at h
      split at h
      · simp at h
      · split at h
        · simp at h
        · exact List.mem_cons_of_mem _ (ih _ h)
        · simp at h
        · simp at h

theorem poll_block {σ α} {dec : Decoder σ α} {s : Src} {fr fr' : Framed σ} {s' : Src}
    (h : fr.poll dec s = (.notReady, fr', s')) : .error .wouldBlock ∈ s := by
  unfold Framed.poll at h
  split at h
  · split at h
    · simp at h
    · split at h
      · simp at h
      · exact pollRead_block _ _ _ _ _ h
      · simp at h
      · simp at h
  · exact pollRead_block _ _ _ _ _ h

theorem left_no_block (s : Src) : Ev.error .wouldBlock ∉ s.left := by
  unfold Src.left
  intro h
  have := (List.mem_filter.mp h).2
  simp at this

/-- How far a talking program is from its end. -/
def Party.toGo (p : Party) : Nat := 2 * p.todo.length + if .error .wouldBlock ∈ p.arrived then 1 else 0

theorem act_toGo (p : Party) : p.act.toGo ≤ p.toGo ∧ p.act.ended = p.ended ∧ (p.ended = true → p.todo ≠ [] → p.act.toGo < p.toGo) := by
  unfold Party.act
  cases ht : p.todo with
  | nil => simp
  | cons t ts =>
    have hlt : ∀ q : Party, q.todo = ts → q.toGo < p.toGo := by
      intro q hq
      unfold Party.toGo
      rw [hq, ht, List.length_cons]
      split <;> split <;> omega
    have done : ∀ q : Party, q.todo = ts → q.ended = p.ended →
        q.toGo ≤ p.toGo ∧ q.ended = p.ended ∧ (p.ended = true → t :: ts ≠ [] → q.toGo < p.toGo) :=
      fun q h1 h2 => ⟨Nat.le_of_lt (hlt q h1), h2, fun _ _ => hlt q h1⟩
    cases t with
    | say m key extra =>
      cases hv : p.voice with
      | blocking s => exact done _ rfl rfl
      | async fw => exact done _ rfl rfl
    | hear =>
      cases he : p.ear with
      | blocking r =>
        simp only [Party.hearBlocking]
        by_cases hx : (r.recvMessage p.arrived).1 = .err .noData ∧ p.ended = false
        · simp only [hx, and_self, if_true]
          exact ⟨Nat.le_refl _, trivial, fun h => by simp at h⟩
        · rw [if_neg hx]; exact done _ rfl rfl
      | async fr =>
        simp only [Party.hearAsync]
        cases hp : fr.poll msgDecoder p.readable with
        | mk x y =>
          obtain ⟨fr', s'⟩ := y
          cases x with
          | ready x => exact done _ rfl rfl
          | notReady =>
            have hb := poll_block hp
            refine ⟨?_, rfl, fun hended _ => ?_⟩
            · unfold Party.toGo
              simp only [left_no_block, if_false, ht]
              split <;> omega
            · unfold Party.readable at hb
              rw [if_pos hended] at hb
              unfold Party.toGo
              simp only [left_no_block, if_false, ht, hb, if_true]
              omega

def Agent.ended : Agent → Bool
  | .opening l => l.ended
  | .talking p => p.ended
  | .failed _ => true

def Agent.toGo : Agent → Nat
  | .opening l => 2 * l.todo.length + 2
  | .talking p => p.toGo
  | .failed _ => 0

theorem attempt_arrived [B64] (preq : ReqParser) (pres : ResParser) (d : Duplex) (o : Opening) (c : Line)
    (h : (o.attempt preq pres d).line = some c) : Ev.error .wouldBlock ∉ c.arrived := by
  unfold Opening.attempt at h
  cases o with
  | client b fresh =>
    simp only at h
    split at h
    · simp only [Option.some.injEq] at h; subst h; exact left_no_block _
    · simp at h
    · simp at h
    · cases h
  | asyncClient b fresh extra =>
    simp only at h
    split at h
    · simp only [Option.some.injEq] at h; subst h; exact left_no_block _
    · simp at h
    · simp at h
    · simp at h
  | server prep custom maxDf maxMsg =>
    simp only at h
    split at h
    · simp at h
    · simp only at h
      split at h
      · simp only [Option.some.injEq] at h; subst h; exact left_no_block _
      · simp at h
  | asyncServer prep custom maxDf maxMsg extra =>
    simp only at h
    split at h
    · simp at h
    · simp only at h
      split at h
      · simp only [Option.some.injEq] at h; subst h; exact left_no_block _
      · simp at h

theorem agent_act [B64] (preq : ReqParser) (pres : ResParser) (a : Agent) :
    (a.act preq pres).toGo ≤ a.toGo ∧ (a.ended = true → (a.act preq pres).ended = true) ∧
    (a.ended = true → a.gone = false → (a.act preq pres).toGo < a.toGo) := by
  cases a with
  | failed l => exact ⟨Nat.le_refl _, fun h => h, fun _ h => by simp [Agent.gone] at h⟩
  | talking p =>
    obtain ⟨h1, h2, h3⟩ := act_toGo p
    refine ⟨h1, fun h => h2.trans h, fun h hg => h3 h ?_⟩
    intro h0
    simp [Agent.gone, h0] at hg
  | opening l =>
    simp only [Agent.act, Lobby.act]
    cases hq : l.how.attempt preq pres ⟨l.readable, l.first⟩ with
    | mk rest wrote line =>
      by_cases hm : l.ended = false ∧ mark ∉ rest
      · simp only [hm, not_false_eq_true, and_self, if_true]
        exact ⟨Nat.le_refl _, fun h => by simp [Agent.ended, hm.1] at h, fun h => by simp [Agent.ended, hm.1] at h⟩
      · simp only [hm, if_false]
        cases line with
        | none => exact ⟨Nat.zero_le _, fun _ => rfl, fun _ _ => by simp [Agent.toGo]⟩
        | some c =>
          have hb := attempt_arrived preq pres ⟨l.readable, l.first⟩ l.how c (by rw [hq])
          have e : (c.party l).toGo = 2 * l.todo.length := by
            unfold Party.toGo Line.party
            simp only [hb, if_false, Nat.add_zero]
          refine ⟨?_, fun h => h, fun _ _ => ?_⟩ <;> simp only [Agent.toGo, e] <;> omega

theorem agent_act_gone [B64] (preq : ReqParser) (pres : ResParser) {a : Agent} (h : a.gone = true) : a.act preq pres = a := by
  cases a with
  | failed l => rfl
  | opening l => simp [Agent.gone] at h
  | talking p =>
    have : p.todo = [] := by simpa [Agent.gone] using h
    simp only [Agent.act, Party.act, this]

theorem sent_same (n : Nat) (a : Agent) : (a.sent n).toGo = a.toGo ∧ (a.sent n).ended = a.ended ∧ (a.sent n).gone = a.gone := by
  cases a <;> exact ⟨rfl, rfl, rfl⟩

theorem receive_same (b : Bytes) (a : Agent) : (a.receive b).toGo = a.toGo ∧ (a.receive b).ended = a.ended ∧ (a.receive b).gone = a.gone ∧
    (a.receive b).transit = a.transit := by
  cases a with
  | talking p =>
    refine ⟨?_, rfl, rfl, rfl⟩
    show Party.toGo _ = p.toGo
    unfold Party.toGo
    simp
  | _ => exact ⟨rfl, rfl, rfl, rfl⟩

theorem close_same (a : Agent) : a.close.toGo = a.toGo ∧ a.close.ended = true ∧ a.close.gone = a.gone ∧ a.close.transit = a.transit := by
  cases a <;> exact ⟨rfl, rfl, rfl, rfl⟩

theorem sent_transit (a : Agent) (n : Nat) : (a.sent n).transit = a.transit.drop n := by
  cases a <;> simp [Agent.sent, Agent.transit, Party.transit, List.drop_drop]

/-- How far the client is from its end when the server is gone. -/
def Meeting.toGo (m : Meeting) : Nat := m.server.transit.length + (if m.client.ended then 0 else 1) + m.client.toGo

/-- A step that brings the client nearer to its end. -/
def Meeting.Urgent (m : Meeting) (h : Happens) : Prop :=
  if m.server.transit ≠ [] ∨ m.client.ended = false then ∃ n, h = .carry .server n else h = .act .client

theorem step_toGo [B64] (preq : ReqParser) (pres : ResParser) (m : Meeting) (hs : m.server.gone = true) (h : Happens) :
    (m.step preq pres h).server.gone = true ∧ (m.step preq pres h).toGo ≤ m.toGo ∧
    (m.client.gone = true → (m.step preq pres h).client.gone = true) ∧
    (m.client.gone = false → m.Urgent h → (m.step preq pres h).toGo < m.toGo) := by
  obtain ⟨c, s⟩ := m
  simp only at hs
  cases h with
  | act who =>
    cases who with
    | server =>
      simp only [Meeting.step, agent_act_gone preq pres hs]
      refine ⟨hs, Nat.le_refl _, fun h => h, fun _ hu => ?_⟩
      unfold Meeting.Urgent at hu
      split at hu
      · obtain ⟨n, hn⟩ := hu; cases hn
      · cases hu
    | client =>
      obtain ⟨h1, h2, h3⟩ := agent_act preq pres c
      refine ⟨hs, ?_, fun hg => ?_, fun hg hu => ?_⟩
      · have : (if (c.act preq pres).ended = true then 0 else 1) ≤ (if c.ended = true then 0 else 1) := by
          by_cases he : c.ended = true
          · rw [if_pos he, if_pos (h2 he)]; exact Nat.le_refl _
          · rw [if_neg he]; split <;> omega
        exact Nat.add_le_add (Nat.add_le_add_left this _) h1
      · show (c.act preq pres).gone = true
        rw [agent_act_gone preq pres hg]; exact hg
      · unfold Meeting.Urgent at hu
        split at hu
        · obtain ⟨n, hn⟩ := hu; cases hn
        · next hn =>
          have he : c.ended = true := by
            cases hx : c.ended with
            | true => rfl
            | false => exact absurd (Or.inr hx) hn
          have := h3 he hg
          simp only [Meeting.step, Meeting.toGo, he, h2 he, if_true]
          omega
  | carry who n =>
    cases who with
    | client =>
      simp only [Meeting.step, Agent.carry]
      by_cases ht : c.transit = []
      · simp only [ht, if_true]
        have hc := close_same s
        refine ⟨?_, ?_, fun h => h, fun _ hu => ?_⟩
        · split
          · rw [hc.2.2.1]; exact hs
          · exact hs
        · unfold Meeting.toGo
          split <;> simp only [hc.2.2.2] <;> exact Nat.le_refl _
        · unfold Meeting.Urgent at hu
          split at hu
          · obtain ⟨n, hn⟩ := hu; cases hn
          · cases hu
      · simp only [ht, if_false]
        have hr := receive_same (c.transit.take (n + 1)) s
        have hc := sent_same (c.transit.take (n + 1)).length c
        refine ⟨by rw [hr.2.2.1]; exact hs, ?_, fun h => by rw [hc.2.2]; exact h, fun _ hu => ?_⟩
        · unfold Meeting.toGo
          simp only [hr.2.2.2, hc.1, hc.2.1]
          exact Nat.le_refl _
        · unfold Meeting.Urgent at hu
          split at hu
          · obtain ⟨n, hn⟩ := hu; cases hn
          · cases hu
    | server =>
      simp only [Meeting.step, Agent.carry]
      by_cases ht : s.transit = []
      · rw [if_pos ht, if_pos hs]
        have hc := close_same c
        refine ⟨hs, ?_, fun h => by rw [hc.2.2.1]; exact h, fun _ hu => ?_⟩
        · unfold Meeting.toGo
          simp only [hc.1, hc.2.1, if_true]
          split <;> omega
        · unfold Meeting.Urgent at hu
          simp only [ht, ne_eq, not_true_eq_false, false_or] at hu
          unfold Meeting.toGo
          simp only [hc.1, hc.2.1, if_true]
          split at hu
          · next he => rw [if_neg (by simp [he])]; omega
          · cases hu
      · simp only [ht, if_false]
        have hr := receive_same (s.transit.take (n + 1)) c
        have hc := sent_same (s.transit.take (n + 1)).length s
        have hlt : (s.sent (s.transit.take (n + 1)).length).transit.length < s.transit.length := by
          rw [sent_transit, List.length_drop, List.length_take]
          have : s.transit.length ≠ 0 := fun h0 => ht (List.length_eq_zero_iff.mp h0)
          omega
        refine ⟨by rw [hc.2.2]; exact hs, ?_, fun h => by rw [hr.2.2.1]; exact h, fun _ _ => ?_⟩
        · unfold Meeting.toGo
          simp only [hr.1, hr.2.1]
          omega
        · unfold Meeting.toGo
          simp only [hr.1, hr.2.1]
          omega

/-- Everything has been carried, and the client knows. -/
def Meeting.Over (m : Meeting) : Prop := m.server.gone = true ∧ m.server.transit = [] ∧ m.client.ended = true

theorem step_stays_over [B64] (preq : ReqParser) (pres : ResParser) {m : Meeting} (h : m.Over) (e : Happens) : (m.step preq pres e).Over := by
  obtain ⟨c, s⟩ := m
  obtain ⟨hs, ht, he⟩ := h
  simp only at hs ht he
  refine ⟨(step_toGo preq pres ⟨c, s⟩ hs e).1, ?_⟩
  cases e with
  | act who =>
    cases who with
    | server => simp only [Meeting.step, agent_act_gone preq pres hs]; exact ⟨ht, he⟩
    | client => exact ⟨ht, (agent_act preq pres c).2.1 he⟩
  | carry who n =>
    cases who with
    | client =>
      simp only [Meeting.step, Agent.carry]
      split
      · refine ⟨?_, he⟩
        show (if c.gone = true then s.close else s).transit = []
        split
        · rw [(close_same s).2.2.2]; exact ht
        · exact ht
      · exact ⟨(receive_same _ s).2.2.2.trans ht, (sent_same _ c).2.1.trans he⟩
    | server =>
      simp only [Meeting.step, Agent.carry]
      rw [if_pos ht, if_pos hs]
      exact ⟨ht, (close_same c).2.1⟩

theorem run_succ [B64] (preq : ReqParser) (pres : ResParser) (m : Meeting) (f : Nat → Happens) (n : Nat) :
    m.run preq pres ((List.range (n + 1)).map f) = (m.run preq pres ((List.range n).map f)).step preq pres (f n) := by
  unfold Meeting.run
  rw [List.range_succ, List.map_append, List.foldl_append]
  rfl

theorem stays_gone [B64] (preq : ReqParser) (pres : ResParser) (m : Meeting) (f : Nat → Happens) (n : Nat)
    (hs : (m.run preq pres ((List.range n).map f)).server.gone = true) (hc : (m.run preq pres ((List.range n).map f)).client.gone = true)
    (k : Nat) (hk : n ≤ k) : (m.run preq pres ((List.range k).map f)).server.gone = true ∧ (m.run preq pres ((List.range k).map f)).client.gone = true := by
  obtain ⟨d, rfl⟩ := Nat.exists_eq_add_of_le hk
  induction d with
  | zero => exact ⟨hs, hc⟩
  | succ d ih =>
    obtain ⟨h1, h2⟩ := ih (Nat.le_add_right _ _)
    rw [← Nat.add_assoc, run_succ]
    obtain ⟨g1, -, g3, -⟩ := step_toGo preq pres _ h1 (f (n + d))
    exact ⟨g1, g3 h2⟩

theorem gone_later [B64] (preq : ReqParser) (pres : ResParser) (m : Meeting) (f : Nat → Happens) (n : Nat)
    (hs : (m.run preq pres ((List.range n).map f)).server.gone = true) (k : Nat) (hk : n ≤ k) :
    (m.run preq pres ((List.range k).map f)).server.gone = true ∧
    (m.run preq pres ((List.range k).map f)).toGo ≤ (m.run preq pres ((List.range n).map f)).toGo := by
  obtain ⟨d, rfl⟩ := Nat.exists_eq_add_of_le hk
  clear hk
  induction d with
  | zero => exact ⟨hs, Nat.le_refl _⟩
  | succ d ih =>
    obtain ⟨h1, h2⟩ := ih
    rw [← Nat.add_assoc, run_succ]
    obtain ⟨g1, g2, -, -⟩ := step_toGo preq pres _ h1 (f (n + d))
    exact ⟨g1, Nat.le_trans g2 h2⟩

theorem over_later [B64] (preq : ReqParser) (pres : ResParser) (m : Meeting) (f : Nat → Happens) (n : Nat)
    (h : (m.run preq pres ((List.range n).map f)).Over) (k : Nat) (hk : n ≤ k) : (m.run preq pres ((List.range k).map f)).Over := by
  obtain ⟨d, rfl⟩ := Nat.exists_eq_add_of_le hk
  clear hk
  induction d with
  | zero => exact h
  | succ d ih => rw [← Nat.add_assoc, run_succ]; exact step_stays_over preq pres ih _

/-- There is always a later moment at which the next step brings the client nearer to its end. -/
theorem urgent_later [B64] (preq : ReqParser) (pres : ResParser) (m : Meeting) (f : Nat → Happens) (hf : FairNet f) (n : Nat)
    (hs : (m.run preq pres ((List.range n).map f)).server.gone = true) :
    ∃ k, n ≤ k ∧ (m.run preq pres ((List.range k).map f)).Urgent (f k) := by
  have key : ∀ k, n ≤ k → (m.run preq pres ((List.range k).map f)).Over →
      ∃ k', n ≤ k' ∧ (m.run preq pres ((List.range k').map f)).Urgent (f k') := by
    intro k hk ho
    obtain ⟨⟨k', h1, h2⟩, -⟩ := hf .client k
    obtain ⟨-, g2, g3⟩ := over_later preq pres m f k ho k' h1
    refine ⟨k', by omega, ?_⟩
    unfold Meeting.Urgent
    rw [if_neg (by simp [g2, g3])]
    exact h2
  obtain ⟨-, k, l, h1, h2⟩ := hf .server n
  by_cases hc : (m.run preq pres ((List.range k).map f)).server.transit ≠ [] ∨ (m.run preq pres ((List.range k).map f)).client.ended = false
  · refine ⟨k, h1, ?_⟩
    unfold Meeting.Urgent
    rw [if_pos hc]
    exact ⟨l, h2⟩
  · refine key k h1 ⟨(gone_later preq pres m f n hs k h1).1, ?_, ?_⟩
    · exact Decidable.byContradiction fun h => hc (.inl h)
    · cases hx : (m.run preq pres ((List.range k).map f)).client.ended with
      | true => rfl
      | false => exact absurd (.inr hx) hc

/-- A client whose server is gone comes to its own end. -/
theorem client_ends [B64] (preq : ReqParser) (pres : ResParser) (m : Meeting) (f : Nat → Happens) (hf : FairNet f) (g : Nat) :
    ∀ n, (m.run preq pres ((List.range n).map f)).server.gone = true → (m.run preq pres ((List.range n).map f)).toGo ≤ g →
    ∃ k, n ≤ k ∧ (m.run preq pres ((List.range k).map f)).server.gone = true ∧ (m.run preq pres ((List.range k).map f)).client.gone = true := by
  induction g with
  | zero =>
    intro n hs hg
    obtain ⟨k, hk, hu⟩ := urgent_later preq pres m f hf n hs
    obtain ⟨h1, h2⟩ := gone_later preq pres m f n hs k hk
    cases hc : (m.run preq pres ((List.range k).map f)).client.gone with
    | true => exact ⟨k, hk, h1, hc⟩
    | false => have := (step_toGo preq pres _ h1 (f k)).2.2.2 hc hu; omega
  | succ g ih =>
    intro n hs hg
    obtain ⟨k, hk, hu⟩ := urgent_later preq pres m f hf n hs
    obtain ⟨h1, h2⟩ := gone_later preq pres m f n hs k hk
    cases hc : (m.run preq pres ((List.range k).map f)).client.gone with
    | true => exact ⟨k, hk, h1, hc⟩
    | false =>
      obtain ⟨g1, -, -, g4⟩ := step_toGo preq pres _ h1 (f k)
      have := g4 hc hu
      rw [← run_succ] at g1 this
      obtain ⟨k', hk', h3⟩ := ih (k + 1) g1 (by omega)
      exact ⟨k', by omega, h3⟩

def Meeting.swap (m : Meeting) : Meeting := ⟨m.server, m.client⟩

theorem meeting_step_swap [B64] (preq : ReqParser) (pres : ResParser) (m : Meeting) (h : Happens) :
    m.swap.step preq pres h.swap = (m.step preq pres h).swap := by
  cases h with
  | act who => cases who <;> rfl
  | carry who n => cases who <;> rfl

theorem meeting_run_swap [B64] (preq : ReqParser) (pres : ResParser) (m : Meeting) (f : Nat → Happens) (n : Nat) :
    m.swap.run preq pres ((List.range n).map fun i => (f i).swap) = (m.run preq pres ((List.range n).map f)).swap := by
  induction n with
  | zero => rfl
  | succ n ih => rw [run_succ preq pres m.swap, run_succ, ih, meeting_step_swap]

end WS
