import Verif.Lemmas.Dialogue
import Verif.Spec.Adaptive
/-!
# Lemmas for C81
-/

namespace WS
open Spec

/-! ## What can happen is determined -/

theorem saidIn_append (a b : List Event) : saidIn (a ++ b) = saidIn a ++ saidIn b := by
  induction a with
  | nil => rfl
  | cons e a ih => cases e <;> simp [saidIn, ih]

theorem hearsIn_append (a b : List Event) : hearsIn (a ++ b) = hearsIn a + hearsIn b := by
  induction a with
  | nil => simp [hearsIn]
  | cons e a ih => cases e <;> simp [hearsIn, ih] <;> omega

theorem Unfold.swap {cp sp a b} (h : Unfold cp sp a b) : Unfold sp cp b a := by
  induction h with
  | start => exact .start
  | client _ hn ih => exact .server ih hn
  | server _ hn ih => exact .client ih hn

theorem Next.only {mine theirs a b e e'} (h : Next mine theirs a b e) (h' : Next mine theirs a b e') : e = e' := by
  rcases h with ⟨m, h1, rfl⟩ | ⟨h1, ⟨m, h2, rfl⟩ | ⟨h2, h3, rfl⟩⟩ <;>
  rcases h' with ⟨m', g1, rfl⟩ | ⟨g1, ⟨m', g2, rfl⟩ | ⟨g2, g3, rfl⟩⟩
  · rw [h1] at g1; cases g1; rfl
  · rw [h1] at g1; cases g1
  · rw [h1] at g1; cases g1
  · rw [h1] at g1; cases g1
  · rw [h2] at g2; cases g2; rfl
  · rw [List.getElem?_eq_none g2] at h2; cases h2
  · rw [h1] at g1; cases g1
  · rw [List.getElem?_eq_none h2] at g2; cases g2
  · rfl

theorem Next.mono {mine theirs a b b' e} (h : Next mine theirs a b e) (hp : b <+: b') (hs : theirs b = none → b' = b) : Next mine theirs a b' e := by
  rcases h with ⟨m, h1, rfl⟩ | ⟨h1, ⟨m, h2, rfl⟩ | ⟨h2, h3, rfl⟩⟩
  · exact .inl ⟨m, h1, rfl⟩
  · refine .inr ⟨h1, .inl ⟨m, ?_, rfl⟩⟩
    obtain ⟨c, rfl⟩ := hp
    rw [saidIn_append, List.getElem?_append_left (List.getElem?_eq_some_iff.mp h2).1]
    exact h2
  · rw [hs h3]
    exact .inr ⟨h1, .inr ⟨h2, h3, rfl⟩⟩

theorem Next.goes {mine theirs a b e} (h : Next mine theirs a b e) : mine a ≠ none := by
  rcases h with ⟨m, h1, -⟩ | ⟨h1, -⟩ <;> rw [h1] <;> simp

/-- Every event of a past came about when the peer had come to some point. -/
theorem Unfold.path {cp sp a b} (h : Unfold cp sp a b) : ∀ {a0 e}, a0 ++ [e] <+: a → ∃ b1, b1 <+: b ∧ Unfold cp sp a0 b1 ∧ Next cp sp a0 b1 e := by
  induction h with
  | start => intro a0 e hp; have := hp.length_le; simp at this
  | @client a b e1 hu hn ih =>
    intro a0 e hp
    rcases List.prefix_concat_iff.mp hp with he | he
    · obtain ⟨g1, g2⟩ := List.append_inj' he rfl
      simp only [List.cons.injEq, and_true] at g2
      subst g1 g2
      exact ⟨b, List.prefix_refl _, hu, hn⟩
    · exact ih he
  | server hu hn ih =>
    intro a0 e hp
    obtain ⟨b1, h1, h2⟩ := ih hp
    exact ⟨b1, h1.trans (List.prefix_append _ _), h2⟩

theorem prefix_proper {α} {a b : List α} (h : a <+: b) (hne : a.length < b.length) : ∃ e, a ++ [e] <+: b := by
  obtain ⟨c, rfl⟩ := h
  cases c with
  | nil => simp at hne
  | cons e c => exact ⟨e, c, by simp⟩

/-- A program that has ended has ended. -/
theorem Unfold.over {cp sp a b} (h : Unfold cp sp a b) {a0} (hp : a0 <+: a) (hs : cp a0 = none) : a = a0 := by
  by_cases hl : a0.length < a.length
  · obtain ⟨e, he⟩ := prefix_proper hp hl
    obtain ⟨b1, -, -, hn⟩ := h.path he
    exact absurd hs hn.goes
  · exact (hp.eq_of_length (by have := hp.length_le; omega)).symm

theorem agree_of_common {a b c : List Event} (h : Agree a c) (hb : b <+: c) : Agree a b := by
  rcases h with h | h
  · exact List.prefix_or_prefix_of_prefix h hb
  · exact .inr (hb.trans h)

theorem Agree.symm {a b : List Event} (h : Agree a b) : Agree b a := h.elim .inr .inl

/-- The step of one program. -/
theorem agree_step {cp sp a b e a' b'} (hu : Unfold cp sp a b) (hn : Next cp sp a b e) (hu' : Unfold cp sp a' b') (h1 : Agree a a') (h2 : Agree b b') :
    Agree (a ++ [e]) a' := by
  by_cases hl : a.length < a'.length
  · have hp : a <+: a' := by
      rcases h1 with h1 | h1
      · exact h1
      · have := h1.length_le; omega
    obtain ⟨e', he'⟩ := prefix_proper hp hl
    obtain ⟨b1, hb1, g1, g2⟩ := hu'.path he'
    have : e = e' := by
      rcases agree_of_common h2 hb1 with hb | hb
      · exact (hn.mono hb fun hs => g1.swap.over hb hs).only g2
      · exact hn.only (g2.mono hb fun hs => hu.swap.over hb hs)
    subst this
    exact .inl he'
  · rcases h1 with h1 | h1
    · rw [h1.eq_of_length (by have := h1.length_le; omega)]
      exact .inr (List.prefix_append _ _)
    · exact .inr (h1.trans (List.prefix_append _ _))

theorem unfold_agree {cp sp a b a' b'} (h : Unfold cp sp a b) (h' : Unfold cp sp a' b') : Agree a a' ∧ Agree b b' := by
  induction h with
  | start => exact ⟨.inl List.nil_prefix, .inl List.nil_prefix⟩
  | client hu hn ih => exact ⟨agree_step hu hn h' ih.1 ih.2, ih.2⟩
  | server hu hn ih => exact ⟨ih.1, agree_step hu.swap hn h'.swap ih.2 ih.1⟩

/-- At rest, nothing can happen. -/
theorem rests_iff (mine theirs : Plan) (a b : List Event) : Rests mine theirs a b ↔ ∀ e, ¬ Next mine theirs a b e := by
  constructor
  · rintro (h | ⟨h1, h2, h3⟩) e (⟨m, g1, -⟩ | ⟨g1, ⟨m, g2, -⟩ | ⟨g2, g3, -⟩⟩)
    · rw [h] at g1; cases g1
    · rw [h] at g1; cases g1
    · rw [h] at g1; cases g1
    · rw [h1] at g1; cases g1
    · rw [List.getElem?_eq_none h2] at g2; cases g2
    · exact h3 g3
  · intro h
    cases hm : mine a with
    | none => exact .inl hm
    | some d =>
      cases d with
      | say m => exact absurd (.inl ⟨m, hm, rfl⟩) (h (.said m true))
      | hear =>
        by_cases hl : (saidIn b).length ≤ hearsIn a
        · refine .inr ⟨hm, hl, fun hs => h (.heard .ended) (.inr ⟨hm, .inr ⟨hl, hs, rfl⟩⟩)⟩
        · exact absurd (.inr ⟨hm, .inl ⟨_, List.getElem?_eq_getElem (by omega), rfl⟩⟩) (h (.heard (.message ((saidIn b)[hearsIn a]'(by omega)))))

/-- Where nothing can happen, nothing happens. -/
theorem settled {cp sp a b a' b'} (hu : Unfold cp sp a b) (hu' : Unfold cp sp a' b') (h1 : a <+: a') (h2 : b <+: b')
    (hc : ∀ e, ¬ Next cp sp a b e) (hs : ∀ e, ¬ Next sp cp b a e) : a' = a ∧ b' = b := by
  have key : ∀ {a' b'}, Unfold cp sp a' b' → a' <+: a ∧ b' <+: b := by
    intro a' b' h
    induction h with
    | start => exact ⟨List.nil_prefix, List.nil_prefix⟩
    | @client a' b' e hu' hn ih =>
      refine ⟨?_, ih.2⟩
      rcases agree_step hu' hn hu (.inl ih.1) (.inl ih.2) with g | g
      · exact g
      · by_cases hl : a'.length = a.length
        · have ea := ih.1.eq_of_length hl
          subst ea
          exact absurd (hn.mono ih.2 fun hx => hu.swap.over ih.2 hx) (hc e)
        · have := ih.1.length_le
          have l := g.length_le
          rw [List.length_append, List.length_singleton] at l
          rw [g.eq_of_length (by rw [List.length_append, List.length_singleton]; omega)]
          exact List.prefix_refl _
    | @server a' b' e hu' hn ih =>
      refine ⟨ih.1, ?_⟩
      rcases agree_step hu'.swap hn hu.swap (.inl ih.2) (.inl ih.1) with g | g
      · exact g
      · by_cases hl : b'.length = b.length
        · have eb := ih.2.eq_of_length hl
          subst eb
          exact absurd (hn.mono ih.1 fun hx => hu.over ih.1 hx) (hs e)
        · have := ih.2.length_le
          have l := g.length_le
          rw [List.length_append, List.length_singleton] at l
          rw [g.eq_of_length (by rw [List.length_append, List.length_singleton]; omega)]
          exact List.prefix_refl _
  obtain ⟨g1, g2⟩ := key hu'
  exact ⟨(h1.eq_of_length (Nat.le_antisymm h1.length_le g1.length_le)).symm, (h2.eq_of_length (Nat.le_antisymm h2.length_le g2.length_le)).symm⟩

/-! ## From pasts to lists of calls -/

/-- The calls whose results are the events, the first of them the `n`-th of the program. -/
def callsFrom (keys : Nat → Key4) (extra : Nat → Nat) : Nat → List Event → List Talk
  | _, [] => []
  | n, .said m _ :: es => .say m (keys n) (extra n) :: callsFrom keys extra (n + 1) es
  | n, .heard _ :: es => .hear :: callsFrom keys extra (n + 1) es

theorem callsFrom_length (keys extra) (n : Nat) (es : List Event) : (callsFrom keys extra n es).length = es.length := by
  induction es generalizing n with
  | nil => rfl
  | cons e es ih => cases e <;> simp [callsFrom, ih]

theorem callsFrom_append (keys extra) (n : Nat) (es fs : List Event) :
    callsFrom keys extra n (es ++ fs) = callsFrom keys extra n es ++ callsFrom keys extra (n + es.length) fs := by
  induction es generalizing n with
  | nil => rfl
  | cons e es ih =>
    cases e <;> simp only [List.cons_append, callsFrom, ih, List.length_cons] <;> rw [show n + 1 + es.length = n + (es.length + 1) by omega]

theorem callsFrom_said (keys extra) (n : Nat) (es : List Event) : (said (callsFrom keys extra n es)).map Prod.fst = saidIn es := by
  induction es generalizing n with
  | nil => rfl
  | cons e es ih => cases e <;> simp [callsFrom, said, saidIn, ih]

theorem callsFrom_hears (keys extra) (n : Nat) (es : List Event) : hears (callsFrom keys extra n es) = hearsIn es := by
  induction es generalizing n with
  | nil => rfl
  | cons e es ih => cases e <;> simp [callsFrom, hears, hearsIn, ih]

def Actor.calls (a : Actor) : List Talk := callsFrom a.keys a.extra 0 a.past

/-- The calls it has made, and the one it is in. -/
def Actor.list (a : Actor) : List Talk := a.calls ++ a.call

theorem Actor.calls_length (a : Actor) : a.calls.length = a.past.length := callsFrom_length _ _ _ _

theorem Actor.list_take (a : Actor) : a.list.take a.past.length = a.calls := by
  unfold Actor.list
  rw [← a.calls_length, List.take_left' rfl]

theorem Actor.list_drop (a : Actor) : a.list.drop a.past.length = a.call := by
  unfold Actor.list
  rw [← a.calls_length, List.drop_left' rfl]

theorem Actor.list_said (a : Actor) : (said (a.list.take a.past.length)).map Prod.fst = saidIn a.past := by
  rw [a.list_take]; exact callsFrom_said _ _ _ _

theorem Actor.list_hears (a : Actor) : hears (a.list.take a.past.length) = hearsIn a.past := by
  rw [a.list_take]; exact callsFrom_hears _ _ _ _

theorem Actor.call_nil (a : Actor) : a.call = [] ↔ a.plan a.past = none := by
  unfold Actor.call
  split <;> simp_all

theorem Actor.list_full (a : Actor) : a.past.length = a.list.length ↔ a.plan a.past = none := by
  rw [← a.call_nil, ← List.length_eq_zero_iff]
  unfold Actor.list
  rw [List.length_append, a.calls_length]
  omega

/-- What the other hears does not depend on what is still to come. -/
theorem Flow.relist {mask lim mine theirs i j bss p q} (h : Flow mask lim mine theirs i j bss p q) {mine' theirs' : List Talk} {ts us : List Talk}
    (hm : mine'.take i = mine.take i) (ht : theirs'.take j = theirs.take j) (hend : j = theirs.length → theirs' = theirs) (hle : j ≤ theirs'.length)
    (hus : us = theirs'.drop j) (hs : ∀ x ∈ said theirs', x.1.spec.Sendable lim) :
    Flow mask lim mine' theirs' i j bss { p with todo := ts } { q with todo := us } := by
  have hah : hears (mine.take i) ≤ bss.length ∨ j = theirs'.length := by
    rcases h.ahead with x | x
    · exact .inl x
    · exact .inr (by rw [hend x]; exact x)
  refine ⟨by rw [ht]; exact h.count, by rw [ht]; exact h.frames, h.wire, h.carried, by rw [hm]; exact h.pend, ?_, by rw [hm]; exact hah,
    fun x => ⟨by rw [hend (h.ended x).1]; exact (h.ended x).1, (h.ended x).2⟩, h.ear, by rw [hm]; exact h.deaf, hus, hle, h.voice, by rw [ht]; exact h.sent, hs⟩
  rw [hm]
  show p.heard = _
  rw [h.heard]
  by_cases hj : j = theirs.length
  · rw [hend hj]
  · have hk : hears (mine.take i) ≤ (said (theirs.take j)).length := by
      rcases h.ahead with x | x
      · rw [← h.count]; exact x
      · exact absurd x hj
    have key : ∀ l : List Talk, l.take j = theirs.take j →
        expected ((said l).map Prod.fst) (hears (mine.take i)) = expected ((said (theirs.take j)).map Prod.fst) (hears (mine.take i)) := by
      intro l hl
      have e : said l = said (theirs.take j) ++ said (l.drop j) := by rw [← hl, ← said_append, List.take_append_drop]
      unfold expected
      rw [e, List.map_append, List.take_append_of_le_length (by rw [List.length_map]; exact hk), List.length_append, List.length_map,
        Nat.sub_eq_zero_of_le (by omega), Nat.sub_eq_zero_of_le hk]
    rw [key theirs rfl, key theirs' ht]

/-- More on the list does not change a call. -/
theorem act_more {p : Party} {t : Talk} (ht : p.todo = [t]) (hd : p.act.todo = []) (ts : List Talk) :
    Party.act { p with todo := t :: ts } = { p.act with todo := ts } := by
  obtain ⟨todo, ear, voice, arrived, ended, output, carried, heard, sent⟩ := p
  simp only at ht
  subst ht
  cases t with
  | say m key extra => cases voice <;> rfl
  | hear =>
    cases ear with
    | blocking r =>
      simp only [Party.act, Party.hearBlocking] at hd ⊢
      by_cases hx : (r.recvMessage arrived).1 = .err .noData ∧ ended = false
      · rw [if_pos hx] at hd; cases hd
      · rw [if_neg hx, if_neg hx]
    | async fr =>
      simp only [Party.act, Party.hearAsync, Party.readable] at hd ⊢
      split at hd
      · cases hd
      · rfl

/-! ## Two programs that choose -/

theorem Speakable.swap {cp sp lc ls} (h : Speakable cp sp lc ls) : Speakable sp cp ls lc :=
  ⟨fun hu hm => h.server hu.swap hm, fun hu hm => h.client hu.swap hm⟩

def Duet.swap (d : Duet) : Duet := ⟨d.server, d.client⟩

theorem Duet.step_swap (d : Duet) (h : Happens) : d.swap.step h.swap = (d.step h).swap := by
  rcases h with ⟨_ | _⟩ | ⟨_ | _, n⟩ <;> rfl

structure Both (cp sp : Plan) (mc ms : Bool) (lc ls : Nat) (x : Duet) (bc bs : List Bytes) : Prop where
  cplan : x.client.plan = cp
  splan : x.server.plan = sp
  client : Flow mc lc x.client.list x.server.list x.client.past.length x.server.past.length bs x.client.party x.server.party
  server : Flow ms ls x.server.list x.client.list x.server.past.length x.client.past.length bc x.server.party x.client.party
  unfold : Unfold cp sp x.client.past x.server.past

theorem Both.swap {cp sp mc ms lc ls x bc bs} (h : Both cp sp mc ms lc ls x bc bs) : Both sp cp ms mc ls lc x.swap bs bc :=
  ⟨h.splan, h.cplan, h.server, h.client, h.unfold.swap⟩

structure Onward (x : Duet) (bc bs : List Bytes) (x' : Duet) (bc' bs' : List Bytes) : Prop where
  client : x.client.past <+: x'.client.past
  server : x.server.past <+: x'.server.past
  hbc : bc <+: bc'
  hbs : bs <+: bs'
  carried : x.server.party.carried ≤ x'.server.party.carried
  carried' : x.client.party.carried ≤ x'.client.party.carried
  ended : x.client.party.ended = true → x'.client.party.ended = true
  ended' : x.server.party.ended = true → x'.server.party.ended = true

theorem Onward.refl {x bc bs} : Onward x bc bs x bc bs :=
  ⟨List.prefix_refl _, List.prefix_refl _, List.prefix_refl _, List.prefix_refl _, Nat.le_refl _, Nat.le_refl _, id, id⟩

theorem Onward.trans {x bc bs x' bc' bs' x'' bc'' bs''} (h : Onward x bc bs x' bc' bs') (g : Onward x' bc' bs' x'' bc'' bs'') : Onward x bc bs x'' bc'' bs'' :=
  ⟨h.client.trans g.client, h.server.trans g.server, h.hbc.trans g.hbc, h.hbs.trans g.hbs, Nat.le_trans h.carried g.carried,
    Nat.le_trans h.carried' g.carried', g.ended ∘ h.ended, g.ended' ∘ h.ended'⟩

theorem Onward.swap {x bc bs x' bc' bs'} (h : Onward x bc bs x' bc' bs') : Onward x.swap bs bc x'.swap bs' bc' :=
  ⟨h.server, h.client, h.hbs, h.hbc, h.carried', h.carried, h.ended', h.ended⟩

theorem Actor.call_talk {a : Actor} {d : Deed} (h : a.plan a.past = some d) :
    ∃ t, a.call = [t] ∧ (∀ m, d = .say m ↔ ∃ key extra, t = .say m key extra) ∧ (d = .hear ↔ t = .hear) ∧
      ∀ p, callsFrom a.keys a.extra 0 (a.past ++ [d.event p]) = a.calls ++ [t] := by
  cases d with
  | say m =>
    refine ⟨.say m (a.keys a.past.length) (a.extra a.past.length), by unfold Actor.call; rw [h], ?_, by simp, ?_⟩
    · intro m'
      constructor
      · intro e; cases e; exact ⟨_, _, rfl⟩
      · rintro ⟨_, _, e⟩; cases e; rfl
    · intro p
      rw [callsFrom_append]
      simp only [Deed.event, callsFrom, Nat.zero_add]
      rfl
  | hear =>
    refine ⟨.hear, by unfold Actor.call; rw [h], by simp, by simp, ?_⟩
    intro p
    rw [callsFrom_append]
    rfl

/-- A call that returns is one that can. -/
theorem act_next {mask mask' lim lim' bp bq} {a b : Actor} {d : Deed} {i : Nat} (hd : a.plan a.past = some d)
    (h : Flow mask lim a.list b.list i b.past.length bq a.party.act b.party)
    (g : Flow mask' lim' b.list a.list b.past.length i bp b.party a.party.act)
    (hi : i = a.past.length + 1) (hgo : CanGo a.list b.list a.past.length b.past.length) : Next a.plan b.plan a.past b.past (d.event a.party.act) := by
  obtain ⟨t, h1, h2, h3, -⟩ := Actor.call_talk hd
  have hli : a.list.take i = a.calls ++ [t] := by
    rw [hi, ← a.calls_length]
    unfold Actor.list
    rw [h1, List.take_of_length_le (by simp)]
  have hget : a.list[a.past.length]? = some t := by
    unfold Actor.list
    rw [h1, ← a.calls_length, List.getElem?_append_right (Nat.le_refl _), Nat.sub_self]
    rfl
  cases d with
  | say m =>
    obtain ⟨key, extra, rfl⟩ := (h2 m).mp rfl
    refine .inl ⟨m, hd, ?_⟩
    have hsent := g.sent
    rw [hli, said_append] at hsent
    simp only [said, List.map_append, List.map_cons, List.map_nil] at hsent
    simp only [Deed.event, hsent, List.getLast?_concat, Option.getD_some]
  | hear =>
    have := h3.mp rfl
    subst this
    refine .inr ⟨hd, ?_⟩
    have hheard := h.heard
    have hk : hears (a.list.take i) = hearsIn a.past + 1 := by
      rw [hli, hears_append]
      show hears a.calls + 1 = _
      rw [show hears a.calls = hearsIn a.past from callsFrom_hears _ _ _ _]
    rw [hk] at hheard
    have hsb := b.list_said
    have hsplit : (said b.list).map Prod.fst = saidIn b.past ++ (said (b.list.drop b.past.length)).map Prod.fst := by
      rw [← hsb, ← List.map_append, ← said_append, List.take_append_drop]
    rcases hgo with ⟨m, key, extra, x⟩ | ⟨-, hgo⟩
    · rw [hget] at x; cases x
    · by_cases hlt : hearsIn a.past < (saidIn b.past).length
      · refine .inl ⟨(saidIn b.past)[hearsIn a.past], List.getElem?_eq_getElem hlt, ?_⟩
        have hm : ((said b.list).map Prod.fst)[hearsIn a.past]? = some (saidIn b.past)[hearsIn a.past] := by
          rw [hsplit, List.getElem?_append_left hlt]
          exact List.getElem?_eq_getElem hlt
        rw [expected_message hm] at hheard
        simp only [Deed.event, hheard, List.getLast?_concat, Option.getD_some]
      · have hj : b.past.length = b.list.length := by
          rcases hgo with x | x
          · exfalso
            rw [a.list_hears] at x
            have := congrArg List.length hsb
            rw [List.length_map] at this
            omega
          · exact x
        refine .inr ⟨by omega, b.list_full.mp hj, ?_⟩
        have hall : ((said b.list).map Prod.fst).length ≤ hearsIn a.past := by
          rw [hsplit, List.length_append, hj, List.drop_length]
          simp only [said, List.map_nil, List.length_nil]
          omega
        rw [expected_ended hall] at hheard
        simp only [Deed.event, hheard, List.getLast?_concat, Option.getD_some]

/-- One turn of the client. -/
theorem act_both {cp sp mc ms lc ls x bc bs} (hs : Speakable cp sp lc ls) (hls : ls < 2 ^ 63) (h : Both cp sp mc ms lc ls x bc bs) :
    ∃ bc', Both cp sp mc ms lc ls (x.step (.act .client)) bc' bs ∧ Onward x bc bs (x.step (.act .client)) bc' bs ∧
      ((∃ m, cp x.client.past = some (.say m)) ∨ (cp x.client.past = some .hear ∧ Audible x.client.list x.client.past.length bs x.client.party x.server.party) →
        x.client.past.length < (x.step (.act .client)).client.past.length) := by
  obtain ⟨a, b⟩ := x
  obtain ⟨rfl, rfl, hc, hsv, hu⟩ := h
  simp only at hc hsv hu hs
  show ∃ bc', Both _ _ _ _ _ _ ⟨a.act, b⟩ bc' bs ∧ Onward ⟨a, b⟩ bc bs ⟨a.act, b⟩ bc' bs ∧ (_ → a.past.length < a.act.past.length)
  cases hd : a.plan a.past with
  | none =>
    have e : a.act = a := by unfold Actor.act; rw [hd]
    rw [e]
    refine ⟨bc, ⟨rfl, rfl, hc, hsv, hu⟩, .refl, ?_⟩
    rintro (⟨m, h1⟩ | ⟨h1, -⟩) <;> cases h1
  | some d =>
    obtain ⟨t, t1, t2, t3, t4⟩ := Actor.call_talk hd
    have hlen : a.list.length = a.past.length + 1 := by unfold Actor.list; rw [t1, List.length_append, a.calls_length]; rfl
    have htodo : a.party.todo = [t] := by rw [hsv.todo, a.list_drop, t1]
    have hget : a.list[a.past.length]? = some t := by
      unfold Actor.list
      rw [t1, ← a.calls_length, List.getElem?_append_right (Nat.le_refl _), Nat.sub_self]
      rfl
    obtain ⟨i', bp', g1, g2, g3, g4, g5, g6, g7⟩ := act_flow hls hc hsv
    by_cases hdone : a.party.act.todo = []
    · have hi : i' = a.past.length + 1 ∧ CanGo a.list b.list a.past.length b.past.length := by
        rcases g6 with g6 | g6
        · have := g2.todo
          rw [g6, a.list_drop, t1, hdone] at this
          cases this
        · exact g6
      have hn := act_next hd g1 g2 hi.1 hi.2
      have hu' : Unfold a.plan b.plan (a.past ++ [d.event a.party.act]) b.past := .client hu hn
      have e : a.act = Actor.turn { a with past := a.past ++ [d.event a.party.act], party := a.party.act } := by
        unfold Actor.act; rw [hd]; simp only [hdone, List.isEmpty_nil, if_true]
      generalize ha' : a.act = a' at e
      have ep : a'.past = a.past ++ [d.event a.party.act] := by rw [e]; rfl
      have epl : a'.plan = a.plan := by rw [e]; rfl
      have ec : a'.calls = a.calls ++ [t] := by
        have : a'.calls = callsFrom a.keys a.extra 0 (a.past ++ [d.event a.party.act]) := by rw [e]; rfl
        rw [this]; exact t4 _
      have epa : a'.party = { a.party.act with todo := a'.call } := by rw [e]; rfl
      have el : a'.list = a.calls ++ t :: a'.call := by unfold Actor.list; rw [ec]; simp
      have htk : a'.list.take a.past.length = a.list.take a.past.length := by
        rw [a.list_take, el, ← a.calls_length, List.take_left' rfl]
      have hdr : a'.list.drop a.past.length = t :: a'.call := by
        rw [el, ← a.calls_length, List.drop_left' rfl]
      have hsend : ∀ y ∈ said a'.list, y.1.spec.Sendable ls := by
        have e2 : a'.list = a.list ++ a'.call := by rw [el]; unfold Actor.list; rw [t1]; simp
        rw [e2, said_append]
        intro y hy
        rcases List.mem_append.mp hy with hy | hy
        · exact hsv.sendable y hy
        · unfold Actor.call at hy
          rw [epl, ep] at hy
          split at hy
          · cases hy
          · next m hm =>
            simp only [said, List.mem_singleton] at hy
            subst hy
            exact hs.client hu' hm
          · cases hy
      have k1 : Flow mc lc a'.list b.list a.past.length b.past.length bs { a.party with todo := t :: a'.call } { b.party with todo := b.party.todo } :=
        hc.relist htk rfl (fun _ => rfl) hc.le hc.todo hc.sendable
      have k2 : Flow ms ls b.list a'.list b.past.length a.past.length bc { b.party with todo := b.party.todo } { a.party with todo := t :: a'.call } :=
        hsv.relist rfl htk (fun x => by omega) (by rw [el, List.length_append, a.calls_length]; omega) hdr.symm hsend
      obtain ⟨i2, bp2, f1, f2, f3, f4, f5, f6, -⟩ := act_flow hls k1 k2
      rw [act_more htodo hdone, ← epa] at f1 f2 f4 f5
      have hi2 : i2 = a'.past.length := by
        rw [ep, List.length_append, List.length_singleton]
        rcases f6 with f6 | ⟨f6, -⟩
        · have hx := f2.todo
          rw [f6, hdr, epa] at hx
          have := congrArg List.length hx
          simp at this
        · exact f6
      subst hi2
      refine ⟨bp2, ⟨epl, rfl, f1, f2, by rw [ep]; exact hu'⟩,
        ⟨by rw [ep]; exact List.prefix_append _ _, List.prefix_refl _, f3, List.prefix_refl _, Nat.le_refl _, Nat.le_of_eq f4.symm, fun x => f5.trans x, id⟩, ?_⟩
      intro _
      rw [ep]; simp
    · have hi : i' = a.past.length := by
        rcases g6 with g6 | ⟨g6, -⟩
        · exact g6
        · exact absurd (by rw [g2.todo, g6, ← hlen, List.drop_length]) hdone
      have e : a.act = { a with party := a.party.act } := by
        unfold Actor.act; rw [hd]
        simp only [List.isEmpty_iff, if_neg hdone]
      subst hi
      rw [e]
      refine ⟨bp', ⟨rfl, rfl, g1, g2, hu⟩, ⟨List.prefix_refl _, List.prefix_refl _, g3, List.prefix_refl _, Nat.le_refl _, Nat.le_of_eq g4.symm, fun x => g5.trans x, id⟩, ?_⟩
      intro hx
      exfalso
      have := g7 (by
        rcases hx with ⟨m, hm⟩ | ⟨hm, ha⟩
        · cases hm
          obtain ⟨key, extra, rfl⟩ := (t2 m).mp rfl
          exact .inl ⟨m, key, extra, hget⟩
        · cases hm
          have := t3.mp rfl
          subst this
          exact .inr ⟨hget, ha⟩)
      omega

/-- The network carries from the server to the client. -/
theorem carry_both {cp sp mc ms lc ls x bc bs} (n : Nat) (h : Both cp sp mc ms lc ls x bc bs) :
    Both cp sp mc ms lc ls (x.step (.carry .server n)) bc bs ∧ Onward x bc bs (x.step (.carry .server n)) bc bs ∧
      (x.server.party.carried < x.server.party.output.wire.length → x.server.party.carried < (x.step (.carry .server n)).server.party.carried) ∧
      (x.server.party.transit = [] → x.server.party.todo = [] → (x.step (.carry .server n)).client.party.ended = true) ∧
      (x.step (.carry .server n)).client.past = x.client.past := by
  obtain ⟨h1, h2, h3, h4, h5, h6, h7, h8⟩ := carry_flow n h.client h.server
  exact ⟨⟨h.cplan, h.splan, h1, h2, h.unfold⟩, ⟨List.prefix_refl _, List.prefix_refl _, List.prefix_refl _, List.prefix_refl _, h5, Nat.le_of_eq h3.symm, h6, fun x => h4.trans x⟩,
    h7, h8, rfl⟩

theorem step_both {cp sp mc ms lc ls x bc bs} (hs : Speakable cp sp lc ls) (hlc : lc < 2 ^ 63) (hls : ls < 2 ^ 63) (h : Both cp sp mc ms lc ls x bc bs) (e : Happens) :
    ∃ bc' bs', Both cp sp mc ms lc ls (x.step e) bc' bs' ∧ Onward x bc bs (x.step e) bc' bs' := by
  rcases e with ⟨_ | _⟩ | ⟨_ | _, n⟩
  · obtain ⟨bc', h1, h2, -⟩ := act_both hs hls h
    exact ⟨bc', bs, h1, h2⟩
  · obtain ⟨bs', h1, h2, -⟩ := act_both hs.swap hlc h.swap
    exact ⟨bc, bs', h1.swap, h2.swap⟩
  · obtain ⟨h1, h2, -⟩ := carry_both n h.swap
    exact ⟨bc, bs, h1.swap, h2.swap⟩
  · obtain ⟨h1, h2, -⟩ := carry_both n h
    exact ⟨bc, bs, h1, h2⟩

theorem run_both {cp sp mc ms lc ls} (hs : Speakable cp sp lc ls) (hlc : lc < 2 ^ 63) (hls : ls < 2 ^ 63) (es : List Happens) :
    ∀ {x bc bs}, Both cp sp mc ms lc ls x bc bs → ∃ bc' bs', Both cp sp mc ms lc ls (x.run es) bc' bs' ∧ Onward x bc bs (x.run es) bc' bs' := by
  induction es with
  | nil => intro x bc bs h; exact ⟨bc, bs, h, .refl⟩
  | cons e es ih =>
    intro x bc bs h
    obtain ⟨bc', bs', h1, h2⟩ := step_both hs hlc hls h e
    obtain ⟨bc'', bs'', g1, g2⟩ := ih h1
    exact ⟨bc'', bs'', g1, h2.trans g2⟩

/-! ## What can happen happens -/

/-- The state after `n` steps of an endless schedule. -/
def Duet.at (x : Duet) (f : Nat → Happens) (n : Nat) : Duet := x.run ((List.range n).map f)

theorem Duet.at_succ (x : Duet) (f : Nat → Happens) (n : Nat) : x.at f (n + 1) = (x.at f n).step (f n) := by
  unfold Duet.at Duet.run
  rw [List.range_succ, List.map_append, List.foldl_append]
  rfl

theorem Duet.at_swap (x : Duet) (f : Nat → Happens) (n : Nat) : x.swap.at (fun n => (f n).swap) n = (x.at f n).swap := by
  induction n with
  | zero => rfl
  | succ n ih => rw [Duet.at_succ, Duet.at_succ, ih, Duet.step_swap]

theorem at_both {cp sp mc ms lc ls} (hs : Speakable cp sp lc ls) (hlc : lc < 2 ^ 63) (hls : ls < 2 ^ 63) {x : Duet} {f : Nat → Happens} {n : Nat} {bc bs}
    (h : Both cp sp mc ms lc ls (x.at f n) bc bs) (m : Nat) (hm : n ≤ m) :
    ∃ bc' bs', Both cp sp mc ms lc ls (x.at f m) bc' bs' ∧ Onward (x.at f n) bc bs (x.at f m) bc' bs' := by
  obtain ⟨k, rfl⟩ := Nat.exists_eq_add_of_le hm
  induction k with
  | zero => exact ⟨bc, bs, h, .refl⟩
  | succ k ih =>
    obtain ⟨bc', bs', h1, h2⟩ := ih (by omega)
    obtain ⟨bc'', bs'', g1, g2⟩ := step_both hs hlc hls h1 (f (n + k))
    rw [← Duet.at_succ] at g1 g2
    exact ⟨bc'', bs'', g1, h2.trans g2⟩

theorem audible_onward {cp sp mc ms lc ls x x' bc bs bc' bs'} (h : Both cp sp mc ms lc ls x bc bs) (h' : Both cp sp mc ms lc ls x' bc' bs')
    (hl : Onward x bc bs x' bc' bs') (hp : x'.client.past = x.client.past) (ha : Audible x.client.list x.client.past.length bs x.client.party x.server.party) :
    Audible x'.client.list x'.client.past.length bs' x'.client.party x'.server.party := by
  unfold Audible at ha ⊢
  rw [Actor.list_hears] at ha ⊢
  rw [hp]
  rcases ha with ⟨h1, h2⟩ | ⟨h1, h2⟩
  · refine .inl ⟨Nat.lt_of_lt_of_le h1 hl.hbs.length_le, ?_⟩
    rw [prefix_take hl.hbs h1]
    exact Nat.le_trans h2 hl.carried
  · refine .inr ⟨?_, hl.ended h2⟩
    have hj := (x.server.list_full).mp (h.client.ended h2).1
    have e := h'.unfold.swap.over hl.server (h.splan ▸ hj)
    have c1 := h.client.count
    have c2 := h'.client.count
    have d1 := congrArg List.length x.server.list_said
    have d2 := congrArg List.length x'.server.list_said
    rw [List.length_map] at d1 d2
    rw [e] at d2
    rw [e] at c2
    omega

/-- The client gets on eventually. -/
def GetsOn (x : Duet) (f : Nat → Happens) (n : Nat) : Prop := ∃ m, n ≤ m ∧ (x.at f n).client.past.length < (x.at f m).client.past.length

theorem GetsOn.later {x : Duet} {f : Nat → Happens} {n m : Nat} (hm : n ≤ m) (hp : (x.at f m).client.past = (x.at f n).client.past) (h : GetsOn x f m) : GetsOn x f n := by
  obtain ⟨k, h1, h2⟩ := h
  exact ⟨k, by omega, by rw [← hp]; exact h2⟩

theorem same_past {a b : List Event} (h : a <+: b) (hn : ¬ a.length < b.length) : b = a :=
  (h.eq_of_length (by have := h.length_le; omega)).symm

theorem audible_on {cp sp mc ms lc ls} (hs : Speakable cp sp lc ls) (hlc : lc < 2 ^ 63) (hls : ls < 2 ^ 63) {x : Duet} {f : Nat → Happens} (hf : FairNet f) {n : Nat} {bc bs}
    (h : Both cp sp mc ms lc ls (x.at f n) bc bs)
    (ha : (∃ m, cp (x.at f n).client.past = some (.say m)) ∨
      (cp (x.at f n).client.past = some .hear ∧
        Audible (x.at f n).client.list (x.at f n).client.past.length bs (x.at f n).client.party (x.at f n).server.party)) : GetsOn x f n := by
  obtain ⟨⟨m, hm, hfm⟩, -⟩ := hf .client n
  obtain ⟨bc', bs', h1, h2⟩ := at_both hs hlc hls h m hm
  by_cases hi : (x.at f n).client.past.length < (x.at f m).client.past.length
  · exact ⟨m, hm, hi⟩
  · have e := same_past h2.client hi
    obtain ⟨bc'', g1, g2, g3⟩ := act_both hs hls h1
    refine ⟨m + 1, by omega, ?_⟩
    rw [Duet.at_succ, hfm, ← e]
    apply g3
    rcases ha with ha | ⟨ha, hb⟩
    · exact .inl (by rw [e]; exact ha)
    · exact .inr ⟨by rw [e]; exact ha, audible_onward h h1 h2 e hb⟩

theorem gap_on {cp sp mc ms lc ls} (hs : Speakable cp sp lc ls) (hlc : lc < 2 ^ 63) (hls : ls < 2 ^ 63) {x : Duet} {f : Nat → Happens} (hf : FairNet f) (g : Nat) :
    ∀ {n : Nat} {bc bs}, Both cp sp mc ms lc ls (x.at f n) bc bs → cp (x.at f n).client.past = some .hear → hearsIn (x.at f n).client.past < bs.length →
    ((bs.take (hearsIn (x.at f n).client.past + 1)).flatten).length ≤ (x.at f n).server.party.carried + g → GetsOn x f n := by
  induction g with
  | zero =>
    intro n bc bs h hi hk hg
    refine audible_on hs hlc hls hf h (.inr ⟨hi, ?_⟩)
    unfold Audible
    rw [Actor.list_hears]
    exact .inl ⟨hk, hg⟩
  | succ g ih =>
    intro n bc bs h hi hk hg
    obtain ⟨-, m, k, hm, hfm⟩ := hf .server n
    obtain ⟨bc', bs', h1, h2⟩ := at_both hs hlc hls h m hm
    by_cases hi' : (x.at f n).client.past.length < (x.at f m).client.past.length
    · exact ⟨m, hm, hi'⟩
    · have e := same_past h2.client hi'
      have hk' : hearsIn (x.at f n).client.past < bs'.length := Nat.lt_of_lt_of_le hk h2.hbs.length_le
      have ht := prefix_take (n := hearsIn (x.at f n).client.past + 1) h2.hbs hk
      obtain ⟨g1, g2, g3, -, g5⟩ := carry_both k h1
      have e' : (x.at f (m + 1)).client.past = (x.at f n).client.past := by rw [Duet.at_succ, hfm, g5, e]
      refine GetsOn.later (m := m + 1) (by omega) e' (ih (bc := bc') (bs := bs') ?_ (by rw [e']; exact hi) (by rw [e']; exact hk') ?_)
      · rw [Duet.at_succ, hfm]; exact g1
      · rw [e', ht, Duet.at_succ, hfm]
        by_cases hw : (x.at f m).server.party.carried < (x.at f m).server.party.output.wire.length
        · have := g3 hw
          have := h2.carried
          omega
        · have e : ((bs'.take (hearsIn (x.at f n).client.past + 1)).flatten).length ≤ (x.at f m).server.party.output.wire.length := by
            rw [h1.client.wire, ← List.take_append_drop (hearsIn (x.at f n).client.past + 1) bs', List.flatten_append, List.take_append_drop, List.length_append]
            omega
          rw [ht] at e
          have := g2.carried
          omega

/-- A program that can go on does. -/
theorem next_on {cp sp mc ms lc ls} (hs : Speakable cp sp lc ls) (hlc : lc < 2 ^ 63) (hls : ls < 2 ^ 63) {x : Duet} {f : Nat → Happens} (hf : FairNet f) {n : Nat} {bc bs e}
    (h : Both cp sp mc ms lc ls (x.at f n) bc bs) (hn : Next cp sp (x.at f n).client.past (x.at f n).server.past e) : GetsOn x f n := by
  have hcount : bs.length = (saidIn (x.at f n).server.past).length := by
    rw [h.client.count, ← Actor.list_said, List.length_map]
  rcases hn with ⟨m, h1, -⟩ | ⟨hi, hgo⟩
  · exact audible_on hs hlc hls hf h (.inl ⟨m, h1⟩)
  · by_cases hk : hearsIn (x.at f n).client.past < bs.length
    · exact gap_on hs hlc hls hf ((bs.take (hearsIn (x.at f n).client.past + 1)).flatten).length h hi hk (by omega)
    · have hj : sp (x.at f n).server.past = none := by
        rcases hgo with ⟨m, y, -⟩ | ⟨-, y, -⟩
        · have := (List.getElem?_eq_some_iff.mp y).1
          omega
        · exact y
      obtain ⟨-, m, k, hm, hfm⟩ := hf .server n
      obtain ⟨bc', bs', h1, h2⟩ := at_both hs hlc hls h m hm
      by_cases hi' : (x.at f n).client.past.length < (x.at f m).client.past.length
      · exact ⟨m, hm, hi'⟩
      · have e := same_past h2.client hi'
        have es := h1.unfold.swap.over h2.server hj
        have hb : bs'.length = bs.length := by
          rw [hcount, h1.client.count, ← es, ← Actor.list_said, List.length_map]
        have hpend := h1.client.pend
        rw [Actor.list_hears, e, List.drop_eq_nil_of_le (as := bs') (by omega)] at hpend
        have htr := (List.append_eq_nil_iff.mp hpend).2
        have htd : (x.at f m).server.party.todo = [] := by
          rw [h1.client.todo, Actor.list_drop, Actor.call_nil, h1.splan, es]
          exact hj
        obtain ⟨g1, g2, -, g4, g5⟩ := carry_both k h1
        have e' : (x.at f (m + 1)).client.past = (x.at f n).client.past := by rw [Duet.at_succ, hfm, g5, e]
        refine GetsOn.later (m := m + 1) (by omega) e' (audible_on (mc := mc) (ms := ms) (bc := bc') (bs := bs') hs hlc hls hf ?_ (.inr ⟨by rw [e']; exact hi, ?_⟩))
        · rw [Duet.at_succ, hfm]; exact g1
        · unfold Audible
          rw [Actor.list_hears, e']
          refine .inr ⟨by omega, ?_⟩
          rw [Duet.at_succ, hfm]
          exact g4 htr htd

/-- Whatever can happen happens, under every fair schedule. -/
theorem unfold_happens {cp sp mc ms lc ls} (hs : Speakable cp sp lc ls) (hlc : lc < 2 ^ 63) (hls : ls < 2 ^ 63) {x : Duet} {f : Nat → Happens} (hf : FairNet f)
    {bc bs} (h : Both cp sp mc ms lc ls x bc bs) {a b} (hu : Unfold cp sp a b) : ∃ n, a <+: (x.at f n).client.past ∧ b <+: (x.at f n).server.past := by
  have h0 : Both cp sp mc ms lc ls (x.at f 0) bc bs := h
  induction hu with
  | start => exact ⟨0, List.nil_prefix, List.nil_prefix⟩
  | @client a b e hu hn ih =>
    obtain ⟨n, h1, h2⟩ := ih
    obtain ⟨bc', bs', k1, -⟩ := at_both hs hlc hls h0 n (by omega)
    have fin : ∀ m, n ≤ m → a.length < (x.at f m).client.past.length → a ++ [e] <+: (x.at f m).client.past ∧ b <+: (x.at f m).server.past := by
      intro m hm hl
      obtain ⟨bc'', bs'', k2, k3⟩ := at_both hs hlc hls k1 m hm
      refine ⟨?_, h2.trans k3.server⟩
      rcases (unfold_agree (.client hu hn) k2.unfold).1 with x | x
      · exact x
      · have := x.length_le
        rw [List.length_append, List.length_singleton] at this
        rw [x.eq_of_length (by rw [List.length_append, List.length_singleton]; omega)]
        exact List.prefix_refl _
    by_cases hl : a.length < (x.at f n).client.past.length
    · exact ⟨n, fin n (Nat.le_refl _) hl⟩
    · have ea := same_past h1 hl
      have hn' : Next cp sp (x.at f n).client.past (x.at f n).server.past e := by
        rw [ea]
        exact hn.mono h2 fun hx => k1.unfold.swap.over h2 hx
      obtain ⟨m, hm, hlt⟩ := next_on hs hlc hls hf k1 hn'
      exact ⟨m, fin m hm (by rw [ea] at hlt; exact hlt)⟩
  | @server a b e hu hn ih =>
    obtain ⟨n, h1, h2⟩ := ih
    obtain ⟨bc', bs', k1, -⟩ := at_both hs hlc hls h0 n (by omega)
    have fin : ∀ m, n ≤ m → b.length < (x.at f m).server.past.length → a <+: (x.at f m).client.past ∧ b ++ [e] <+: (x.at f m).server.past := by
      intro m hm hl
      obtain ⟨bc'', bs'', k2, k3⟩ := at_both hs hlc hls k1 m hm
      refine ⟨h1.trans k3.client, ?_⟩
      rcases (unfold_agree (.server hu hn) k2.unfold).2 with x | x
      · exact x
      · have := x.length_le
        rw [List.length_append, List.length_singleton] at this
        rw [x.eq_of_length (by rw [List.length_append, List.length_singleton]; omega)]
        exact List.prefix_refl _
    by_cases hl : b.length < (x.at f n).server.past.length
    · exact ⟨n, fin n (Nat.le_refl _) hl⟩
    · have eb := same_past h2 hl
      have hn' : Next sp cp (x.at f n).server.past (x.at f n).client.past e := by
        rw [eb]
        exact hn.mono h1 fun hx => k1.unfold.over h1 hx
      have hsw : Both sp cp ms mc ls lc (x.swap.at (fun n => (f n).swap) n) bs' bc' := by rw [Duet.at_swap]; exact k1.swap
      obtain ⟨m, hm, hlt⟩ := next_on (x := x.swap) hs.swap hls hlc (fair_swap hf) hsw (e := e) (by rw [Duet.at_swap]; exact hn')
      rw [Duet.at_swap, Duet.at_swap] at hlt
      exact ⟨m, fin m hm (by rw [← eb]; exact hlt)⟩

/-! ## examples/server.rs and a client that does what it likes -/

theorem gotIn_append (a b : List Event) : gotIn (a ++ b) = gotIn a ++ gotIn b := by
  induction a with
  | nil => rfl
  | cons e a ih => rcases e with _ | _ | _ | _ <;> simp [gotIn, ih]

/-- What a program has been given is what the other has said. -/
theorem got_said {cp sp a b} (h : Unfold cp sp a b) :
    gotIn a = (saidIn b).take (hearsIn a) ∧ (hearsIn a ≤ (saidIn b).length ∨ sp b = none) := by
  induction h with
  | start => exact ⟨rfl, .inl (Nat.le_refl _)⟩
  | @client a b e hu hn ih =>
    rw [gotIn_append, hearsIn_append]
    rcases hn with ⟨m, h1, rfl⟩ | ⟨h1, ⟨m, h2, rfl⟩ | ⟨h2, h3, rfl⟩⟩
    · simpa [gotIn, hearsIn] using ih
    · refine ⟨?_, .inl ?_⟩
      · simp only [gotIn, hearsIn, ih.1]
        rw [List.take_add_one, h2]
        rfl
      · have := (List.getElem?_eq_some_iff.mp h2).1
        simp only [hearsIn]
        omega
    · refine ⟨?_, .inr h3⟩
      simp only [gotIn, hearsIn, ih.1, List.append_nil]
      rw [List.take_of_length_le h2, List.take_of_length_le (by omega)]
  | @server a b e hu hn ih =>
    have hk : hearsIn a ≤ (saidIn b).length := by
      rcases ih.2 with x | x
      · exact x
      · exact absurd x hn.goes
    rw [saidIn_append, List.take_append_of_le_length hk]
    exact ⟨ih.1, .inl (by rw [List.length_append]; omega)⟩

/-- The greeting and the answers. -/
def hello : OwnedMsg := .text (ascii "Hello")

def NoClose (ms : List OwnedMsg) : Prop := ∀ m ∈ ms, m.isClose = false

/-- Where the thread of examples/server.rs is. -/
inductive Waited (cp : Plan) (a : List Event) : List Event → Prop
  | new : Waited cp a []
  | spoke {b m} (hm : m.isClose = false) (hg : NoClose (gotIn b)) (hs : saidIn (b ++ [.said m true]) = hello :: (gotIn b).map answerTo)
    (hl : hearsIn b + 1 = (saidIn (b ++ [.said m true])).length) : Waited cp a (b ++ [.said m true])
  | bye {b c g} (hb : gotIn b = g ++ [.close c]) (hg : NoClose g) (hs : saidIn (b ++ [.said (.close none) true]) = hello :: (gotIn b).map answerTo)
    (hl : hearsIn b + 1 = (saidIn (b ++ [.said (.close none) true])).length) : Waited cp a (b ++ [.said (.close none) true])
  | got {b m} (hg : NoClose (gotIn b)) (hs : saidIn b = hello :: (gotIn b).map answerTo) (hl : hearsIn b + 1 = (saidIn b).length) :
    Waited cp a (b ++ [.heard (.message m)])
  | eof {b} (hc : cp a = none) (hg : NoClose (gotIn b)) (hs : saidIn b = hello :: (gotIn b).map answerTo) (hl : hearsIn b + 1 = (saidIn b).length) :
    Waited cp a (b ++ [.heard .ended])

theorem serverPlan_said {b : List Event} {m : OwnedMsg} (hm : m.isClose = false) : serverPlan (b ++ [.said m true]) = some .hear := by
  unfold serverPlan
  rw [List.getLast?_concat]
  cases m <;> first | rfl | cases hm

theorem serverPlan_bye {b : List Event} {c} {k} : serverPlan (b ++ [.said (.close c) k]) = none := by
  unfold serverPlan; rw [List.getLast?_concat]

theorem serverPlan_got {b : List Event} {m : OwnedMsg} : serverPlan (b ++ [.heard (.message m)]) = some (.say (answerTo m)) := by
  unfold serverPlan
  rw [List.getLast?_concat]
  cases m <;> rfl

theorem serverPlan_eof {b : List Event} : serverPlan (b ++ [.heard .ended]) = none := by
  unfold serverPlan; rw [List.getLast?_concat]

theorem answer_close {m : OwnedMsg} : (answerTo m).isClose = m.isClose := by cases m <;> rfl

theorem isClose_iff {m : OwnedMsg} : m.isClose = true ↔ ∃ c, m = .close c := by cases m <;> simp [OwnedMsg.isClose]

theorem waited_of {cp a b} (h : Unfold cp serverPlan a b) : Waited cp a b := by
  induction h with
  | start => exact .new
  | @client a b e hu hn ih =>
    cases ih with
    | new => exact .new
    | spoke hm hg hs hl => exact .spoke hm hg hs hl
    | bye hb hg hs hl => exact .bye hb hg hs hl
    | got hg hs hl => exact .got hg hs hl
    | eof hc hg hs hl => exact absurd hc hn.goes
  | @server a b e hu hn ih =>
    cases ih with
    | new =>
      have e1 : serverPlan [] = some (.say hello) := rfl
      rcases hn with ⟨m, h1, rfl⟩ | ⟨h1, -⟩
      · rw [e1] at h1
        cases h1
        exact .spoke (b := []) rfl (by intro m hm; cases hm) rfl rfl
      · rw [e1] at h1; cases h1
    | @spoke b m hm hg hs hl =>
      have e1 := serverPlan_said (b := b) hm
      have hg' : gotIn (b ++ [.said m true]) = gotIn b := by rw [gotIn_append]; simp [gotIn]
      have hh' : hearsIn (b ++ [.said m true]) = hearsIn b := by rw [hearsIn_append]; rfl
      rcases hn with ⟨m', h1, rfl⟩ | ⟨-, ⟨m', h2, rfl⟩ | ⟨h2, h3, rfl⟩⟩
      · rw [e1] at h1; cases h1
      · exact .got (by rw [hg']; exact hg) (by rw [hg']; exact hs) (by rw [hh']; exact hl)
      · exact .eof h3 (by rw [hg']; exact hg) (by rw [hg']; exact hs) (by rw [hh']; exact hl)
    | bye hb hg hs hl => exact absurd serverPlan_bye hn.goes
    | @got b m hg hs hl =>
      have e1 := serverPlan_got (b := b) (m := m)
      have hg' : gotIn (b ++ [.heard (.message m)]) = gotIn b ++ [m] := by rw [gotIn_append]; simp [gotIn]
      have hh' : hearsIn (b ++ [.heard (.message m)]) = hearsIn b + 1 := by rw [hearsIn_append]; rfl
      have hs' : ∀ m', saidIn ((b ++ [.heard (.message m)]) ++ [.said m' true]) = saidIn b ++ [m'] := by
        intro m'; rw [saidIn_append, saidIn_append]; simp [saidIn]
      rcases hn with ⟨m', h1, rfl⟩ | ⟨h1, -⟩
      · rw [e1] at h1
        simp only [Option.some.injEq, Deed.say.injEq] at h1
        subst h1
        cases hm : m.isClose with
        | false =>
          refine .spoke (by rw [answer_close]; exact hm) ?_ ?_ ?_
          · rw [hg']
            intro m' hm'
            rcases List.mem_append.mp hm' with hm' | hm'
            · exact hg m' hm'
            · rw [List.mem_singleton] at hm'; subst hm'; exact hm
          · rw [hs', hg', hs]; simp
          · rw [hs', hh', List.length_append]; simp; omega
        | true =>
          obtain ⟨c, rfl⟩ := isClose_iff.mp hm
          refine .bye hg' hg ?_ ?_
          · show saidIn (_ ++ [.said (.close none) true]) = _
            rw [hs', hg', hs]; simp [answerTo]
          · rw [hs', hh', List.length_append]; simp; omega
      · rw [e1] at h1; cases h1
    | eof hc hg hs hl => exact absurd serverPlan_eof hn.goes

theorem throughClose_none {ms : List OwnedMsg} (h : NoClose ms) (l : List OwnedMsg) : throughClose (ms ++ l) = ms ++ throughClose l := by
  induction ms with
  | nil => rfl
  | cons m ms ih =>
    have hm := h m (by simp)
    have := ih fun x hx => h x (by simp [hx])
    cases m <;> first | (simp only [List.cons_append, throughClose, this]; done) | cases hm

/-- What the server has said is part of the answers. -/
theorem waited_said {cp a b} (h : Waited cp a b) (hp : gotIn b <+: saidIn a) : saidIn b <+: greetedReplies (saidIn a) := by
  have key : ∀ {g : List OwnedMsg}, NoClose g → g <+: saidIn a → hello :: g.map answerTo <+: greetedReplies (saidIn a) := by
    intro g hg ⟨l, hl⟩
    unfold greetedReplies
    rw [← hl, throughClose_none hg, List.map_append]
    exact ⟨(throughClose l).map answerTo, rfl⟩
  cases h with
  | new => exact List.nil_prefix
  | @spoke b m hm hg hs hl =>
    rw [hs]
    refine key hg ?_
    rw [gotIn_append] at hp
    simpa [gotIn] using hp
  | @bye b c g hb hg hs hl =>
    rw [hs, hb]
    rw [gotIn_append, hb] at hp
    simp only [gotIn, List.append_nil] at hp
    obtain ⟨l, hl⟩ := hp
    unfold greetedReplies
    rw [← hl, List.append_assoc, throughClose_none hg]
    simp only [List.singleton_append, throughClose]
    exact List.prefix_refl _
  | @got b m hg hs hl =>
    rw [saidIn_append]
    simp only [saidIn, List.append_nil]
    rw [hs]
    refine key hg ?_
    rw [gotIn_append] at hp
    exact (List.prefix_append _ _).trans hp
  | @eof b hc hg hs hl =>
    rw [saidIn_append]
    simp only [saidIn, List.append_nil]
    rw [hs]
    refine key hg ?_
    rw [gotIn_append] at hp
    exact (List.prefix_append _ _).trans hp

theorem server_said {cp a b} (h : Unfold cp serverPlan a b) : saidIn b <+: greetedReplies (saidIn a) := by
  refine waited_said (waited_of h) ?_
  rw [(got_said h.swap).1]
  exact List.take_prefix _ _

theorem events_length (b : List Event) : b.length = (saidIn b).length + hearsIn b := by
  induction b with
  | nil => rfl
  | cons e b ih => cases e <;> simp [saidIn, hearsIn, ih] <;> omega

theorem waited_length {cp a b} (h : Waited cp a b) : hearsIn b ≤ (saidIn b).length := by
  cases h with
  | new => exact Nat.le_refl _
  | spoke hm hg hs hl => rw [hearsIn_append]; simp only [hearsIn]; omega
  | bye hb hg hs hl => rw [hearsIn_append]; simp only [hearsIn]; omega
  | got hg hs hl => rw [hearsIn_append, saidIn_append]; simp only [hearsIn, saidIn, List.append_nil]; omega
  | eof hc hg hs hl => rw [hearsIn_append, saidIn_append]; simp only [hearsIn, saidIn, List.append_nil]; omega

/-- At rest, the server has given all its answers. -/
theorem server_rest {cp a b} (h : Unfold cp serverPlan a b) (hc : cp a ≠ none) (hr : Rests serverPlan cp b a) : saidIn b = greetedReplies (saidIn a) := by
  have hgot := (got_said h.swap).1
  have hserved := waited_of h
  cases hserved with
  | new => rcases hr with hr | ⟨hr, -⟩ <;> cases hr
  | @spoke b m hm hg hs hl =>
    have e1 := serverPlan_said (b := b) hm
    rcases hr with hr | ⟨-, h2, -⟩
    · rw [e1] at hr; cases hr
    · rw [List.take_of_length_le h2, gotIn_append] at hgot
      simp only [gotIn, List.append_nil] at hgot
      rw [hs, hgot]
      rw [hgot] at hg
      have := throughClose_none hg []
      simp only [List.append_nil, throughClose] at this
      unfold greetedReplies
      rw [this]
      rfl
  | @bye b c g hb hg hs hl =>
    have hp : gotIn (b ++ [.said (.close none) true]) <+: saidIn a := by rw [hgot]; exact List.take_prefix _ _
    rw [gotIn_append, hb] at hp
    simp only [gotIn, List.append_nil] at hp
    obtain ⟨l, hl⟩ := hp
    unfold greetedReplies
    rw [hs, hb, ← hl, List.append_assoc, throughClose_none hg]
    rfl
  | @got b m hg hs hl =>
    have e1 := serverPlan_got (b := b) (m := m)
    rcases hr with hr | ⟨hr, -⟩ <;> rw [e1] at hr <;> cases hr
  | eof hx hg hs hl => exact absurd hx hc

/-- Left to itself, the server gives all its answers. -/
theorem server_alone {cp a b} (h : Unfold cp serverPlan a b) (hc : cp a ≠ none) : ∃ b', Unfold cp serverPlan a b' ∧ saidIn b' = greetedReplies (saidIn a) := by
  have key : ∀ n, ∀ b, Unfold cp serverPlan a b → 2 * (greetedReplies (saidIn a)).length ≤ b.length + n → ∃ b', Unfold cp serverPlan a b' ∧ saidIn b' = greetedReplies (saidIn a) := by
    intro n
    induction n with
    | zero =>
      intro b hu hl
      refine ⟨b, hu, ?_⟩
      have h1 := server_said hu
      have h2 := waited_length (waited_of hu)
      have h3 := events_length b
      have h4 := h1.length_le
      exact h1.eq_of_length (by omega)
    | succ n ih =>
      intro b hu hl
      by_cases hr : Rests serverPlan cp b a
      · exact ⟨b, hu, server_rest hu hc hr⟩
      · rw [rests_iff] at hr
        obtain ⟨e, he⟩ := Classical.not_forall.mp hr
        have he := Classical.not_not.mp he
        exact ih (b ++ [e]) (.server hu he) (by rw [List.length_append, List.length_singleton]; omega)
  exact key (2 * (greetedReplies (saidIn a)).length) b h (by omega)

/-- A client that sends only what fits has all of it answered with what fits. -/
theorem speakable_server {cp : Plan} {lim : Nat} (h5 : 5 ≤ lim) (hc : ∀ {a b m}, Unfold cp serverPlan a b → cp a = some (.say m) → m.spec.Sendable lim) :
    Speakable cp serverPlan lim lim := by
  have hello_ok : hello.spec.Sendable lim := by
    refine ⟨(utf8Valid_iff _).mp (by decide +kernel), ?_⟩
    show (ascii "Hello").length ≤ lim
    have : (ascii "Hello").length = 5 := by decide +kernel
    omega
  have ans : ∀ m : OwnedMsg, m.spec.Sendable lim → (answerTo m).spec.Sendable lim := by
    intro m hm
    cases m with
    | close c => exact trivial
    | ping b => exact hm
    | text b => exact hm
    | binary b => exact hm
    | pong b => exact hm
  have said_ok : ∀ {a b}, Unfold cp serverPlan a b → ∀ m ∈ saidIn a, m.spec.Sendable lim := by
    intro a b h
    induction h with
    | start => intro m hm; cases hm
    | @client a b e hu hn ih =>
      rw [saidIn_append]
      intro m hm
      rcases List.mem_append.mp hm with hm | hm
      · exact ih m hm
      · rcases hn with ⟨m', h1, rfl⟩ | ⟨h1, ⟨m', h2, rfl⟩ | ⟨h2, h3, rfl⟩⟩
        · simp only [saidIn, List.mem_singleton] at hm
          subst hm
          exact hc hu h1
        · cases hm
        · cases hm
    | server hu hn ih => exact ih
  refine ⟨hc, fun {a b m} hu hm => ?_⟩
  have hgot := (got_said hu.swap).1
  have hserved := waited_of hu
  cases hserved with
  | new => cases hm; exact hello_ok
  | spoke hn hg hs hl => rw [serverPlan_said hn] at hm; cases hm
  | bye hb hg hs hl => rw [serverPlan_bye] at hm; cases hm
  | @got b m' hg hs hl =>
    rw [serverPlan_got] at hm
    cases hm
    refine ans _ (said_ok hu _ ?_)
    have : m' ∈ gotIn (b ++ [.heard (.message m')]) := by rw [gotIn_append]; simp [gotIn]
    rw [hgot] at this
    exact List.mem_of_mem_take this
  | eof hx hg hs hl => rw [serverPlan_eof] at hm; cases hm

end WS
