import Verif.Spec.Accept
/-!
# Pending handshakes
-/

namespace WS

/-- What a handshake will come to. -/
def Handshake.outcome [B64] (p : ReqParser) : Handshake → Accepted
  | .tls _ (.error ()) => .error ⟨none, none, none, .io .other⟩
  | .tls _ (.ok d) => match (Framed.new ()).next (httpDecoder p) d.input with
    | (x, fr, s) => finishHandshake x fr { d with input := s }
  | .http fr io => match fr.next (httpDecoder p) io.input with
    | (x, fr, s) => finishHandshake x fr { io with input := s }

/-- How many polls it needs at most. -/
def Handshake.polls : Handshake → Nat
  | .tls n (.error ()) => n + 1
  | .tls n (.ok d) => n + d.input.length + 1
  | .http _ io => io.input.length + 1

theorem start_outcome [B64] (p : ReqParser) (tcp : Duplex) (tls : Option (Nat × Except Unit Duplex)) :
    (Handshake.start tcp tls).outcome p = (Arrival.conn tcp tls).outcome p := by
  have key : ∀ d : Duplex, (match (Framed.new ()).next (httpDecoder p) d.input with
      | (x, fr, s) => finishHandshake x fr { d with input := s }) = asyncServerAccept p (.ok d) none := by
    intro d
    unfold asyncServerAccept asyncIntoWs
    cases hq : (Framed.new ()).next (httpDecoder p) d.input with
    | mk x r =>
      obtain ⟨fr, s⟩ := r
      simp only [hq]
      cases x with
      | item msg => cases hv : validate msg.subject.method msg.version msg.headers <;> simp only [finishHandshake, hv]
      | done => rfl
      | err e => rfl
      | panic e => rfl
  cases tls with
  | none => exact key tcp
  | some t =>
    obtain ⟨n, r⟩ := t
    cases r with
    | error u => rfl
    | ok d => exact key d

theorem pollHttp_outcome [B64] (p : ReqParser) (fr : Framed Unit) (io : Duplex) :
    match pollHttp p fr io with
    | .ready r => r = (Handshake.http fr io).outcome p
    | .wait h => h.outcome p = (Handshake.http fr io).outcome p ∧ h.polls < (Handshake.http fr io).polls := by
  unfold pollHttp
  cases hp : fr.poll (httpDecoder p) io.input with
  | mk x rest =>
    obtain ⟨fr', s⟩ := rest
    cases x with
    | ready x =>
      have : fr.next (httpDecoder p) io.input = (x, fr', s) := by
        rw [Framed.next]; split
        · rename_i h; rw [hp] at h; cases h; rfl
        · rename_i h; rw [hp] at h; cases h
      simp only [Handshake.outcome, this]
    | notReady =>
      have hn : fr.next (httpDecoder p) io.input = fr'.next (httpDecoder p) s := by
        rw [Framed.next]; split
        · rename_i h; rw [hp] at h; cases h
        · rename_i h; rw [hp] at h; cases h; rfl
      have := Framed.poll_lt hp
      simp only [Handshake.outcome, hn, Handshake.polls, true_and]
      omega

theorem poll_outcome [B64] (p : ReqParser) (h : Handshake) :
    match h.poll p with
    | .ready r => r = h.outcome p
    | .wait h' => h'.outcome p = h.outcome p ∧ h'.polls < h.polls := by
  cases h with
  | http fr io => exact pollHttp_outcome p fr io
  | tls n r =>
    cases n with
    | succ n =>
      cases r with
      | error u => exact ⟨rfl, by simp only [Handshake.polls]; omega⟩
      | ok d => exact ⟨rfl, by simp only [Handshake.polls]; omega⟩
    | zero =>
      cases r with
      | error u => rfl
      | ok d =>
        have := pollHttp_outcome p (Framed.new ()) d
        simp only [Handshake.poll]
        revert this
        cases pollHttp p (Framed.new ()) d with
        | ready r => exact id
        | wait h => exact fun h => ⟨h.1, by have := h.2; simp only [Handshake.polls] at this ⊢; omega⟩


theorem arrivals_append (a b : List Act) : arrivals (a ++ b) = arrivals a ++ arrivals b := by
  induction a with
  | nil => rfl
  | cons x a ih => cases x <;> simp [arrivals, ih]

theorem step_idle [B64] {p : ReqParser} {s : Listening} {i : Nat} (h : s.pending i = none) : s.step p (.wake i) = s := by
  simp only [Listening.step, h]

theorem step_ready [B64] {p : ReqParser} {s : Listening} {i : Nat} {x : Handshake} {r : Accepted} (h : s.pending i = some x)
    (hq : x.poll p = .ready r) : s.step p (.wake i) =
      { s with pending := fun n => if n = i then none else s.pending n, out := s.out ++ [(i, r)] } := by
  simp only [Listening.step, h, hq]

theorem step_wait [B64] {p : ReqParser} {s : Listening} {i : Nat} {x x' : Handshake} (h : s.pending i = some x)
    (hq : x.poll p = .wait x') : s.step p (.wake i) =
      { s with pending := fun n => if n = i then some x' else s.pending n } := by
  simp only [Listening.step, h, hq]

/-- Everything that arrived is either pending or out, once, and on its way to its own outcome. -/
structure Tidy [B64] (p : ReqParser) (as : List Arrival) (s : Listening) : Prop where
  count : s.count = as.length
  pending : ∀ i h, s.pending i = some h → ∃ a, as[i]? = some a ∧ h.outcome p = a.outcome p
  out : ∀ x ∈ s.out, ∃ a, as[x.1]? = some a ∧ x.2 = a.outcome p
  all : ∀ i, i < as.length → (s.pending i).isSome ∨ i ∈ s.out.map Prod.fst
  apart : ∀ i, (s.pending i).isSome → i ∉ s.out.map Prod.fst
  once : (s.out.map Prod.fst).Nodup

theorem tidy_new [B64] (p : ReqParser) : Tidy p [] .new :=
  ⟨rfl, (fun _ _ h => nomatch h), (fun _ h => nomatch h), (fun _ h => nomatch h), (fun _ h => nomatch h), .nil⟩

theorem getElem?_snoc_of {α} {l : List α} {i : Nat} {a : α} (x : α) (h : l[i]? = some a) : (l ++ [x])[i]? = some a := by
  have := (List.getElem?_eq_some_iff.mp h).1
  rw [List.getElem?_append_left this, h]

theorem Tidy.lt [B64] {p : ReqParser} {as : List Arrival} {s : Listening} (h : Tidy p as s) {i : Nat} (hi : i ∈ s.out.map Prod.fst) :
    i < as.length := by
  obtain ⟨x, hx, rfl⟩ := List.mem_map.mp hi
  obtain ⟨a, ha, -⟩ := h.out x hx
  exact (List.getElem?_eq_some_iff.mp ha).1

theorem Tidy.fail [B64] {p : ReqParser} {as : List Arrival} {s : Listening} (h : Tidy p as s) (a : Arrival) :
    Tidy p (as ++ [a]) { s with count := s.count + 1, out := s.out ++ [(s.count, a.outcome p)] } where
  count := by simp [h.count]
  pending := fun i x hx => by obtain ⟨b, h1, h2⟩ := h.pending i x hx; exact ⟨b, getElem?_snoc_of a h1, h2⟩
  out := by
    intro x hx
    rcases List.mem_append.mp hx with hx | hx
    · obtain ⟨b, h1, h2⟩ := h.out x hx; exact ⟨b, getElem?_snoc_of a h1, h2⟩
    · rw [List.mem_singleton.mp hx, h.count]; exact ⟨a, by simp, rfl⟩
  all := by
    intro i hi
    simp only [List.length_append, List.length_singleton] at hi
    by_cases e : i = s.count
    · exact .inr (by simp [e])
    · have := h.count
      rcases h.all i (by omega) with g | g
      · exact .inl g
      · exact .inr (by simp only [List.map_append, List.mem_append]; exact .inl g)
  apart := by
    intro i hi
    obtain ⟨x, hx⟩ := Option.isSome_iff_exists.mp hi
    obtain ⟨b, hb, -⟩ := h.pending i x hx
    have := (List.getElem?_eq_some_iff.mp hb).1
    have hc := h.count
    simp only [List.map_append, List.mem_append, List.map_cons, List.map_nil, List.mem_singleton, not_or]
    exact ⟨h.apart i hi, by omega⟩
  once := by
    rw [List.map_append, List.nodup_append]
    refine ⟨h.once, by simp, fun x hx y hy => ?_⟩
    simp only [List.map_cons, List.map_nil, List.mem_singleton] at hy
    have := h.lt hx
    have := h.count
    omega

theorem Tidy.conn [B64] {p : ReqParser} {as : List Arrival} {s : Listening} (h : Tidy p as s) (tcp : Duplex)
    (tls : Option (Nat × Except Unit Duplex)) : Tidy p (as ++ [.conn tcp tls]) (s.step p (.arrive (.conn tcp tls))) where
  count := by simp [Listening.step, h.count]
  pending := by
    intro i x hx
    simp only [Listening.step] at hx
    split at hx
    · next e => cases hx; exact ⟨.conn tcp tls, by simp [e, h.count], start_outcome p tcp tls⟩
    · obtain ⟨b, h1, h2⟩ := h.pending i x hx; exact ⟨b, getElem?_snoc_of _ h1, h2⟩
  out := fun x hx => by obtain ⟨b, h1, h2⟩ := h.out x hx; exact ⟨b, getElem?_snoc_of _ h1, h2⟩
  all := by
    intro i hi
    simp only [List.length_append, List.length_singleton] at hi
    simp only [Listening.step]
    by_cases e : i = s.count
    · exact .inl (by simp [e])
    · have := h.count
      rcases h.all i (by omega) with g | g
      · exact .inl (by simp [e, g])
      · exact .inr g
  apart := by
    intro i hi
    simp only [Listening.step] at hi ⊢
    split at hi
    · next e =>
      intro hm
      have := h.lt hm
      have := h.count
      omega
    · exact h.apart i hi
  once := h.once

theorem Tidy.wake [B64] {p : ReqParser} {as : List Arrival} {s : Listening} (h : Tidy p as s) (i : Nat) :
    Tidy p as (s.step p (.wake i)) := by
  cases hp : s.pending i with
  | none => rw [step_idle hp]; exact h
  | some x =>
    obtain ⟨a, ha, hx⟩ := h.pending i x hp
    have ho := poll_outcome p x
    cases hq : x.poll p with
    | ready r =>
      rw [hq] at ho
      rw [step_ready hp hq]
      refine ⟨h.count, ?_, ?_, ?_, ?_, ?_⟩
      · intro j y hy
        simp only at hy
        split at hy
        · cases hy
        · exact h.pending j y hy
      · intro y hy
        rcases List.mem_append.mp hy with hy | hy
        · exact h.out y hy
        · rw [List.mem_singleton.mp hy]; exact ⟨a, ha, by rw [← hx]; exact ho⟩
      · intro j hj
        by_cases e : j = i
        · exact .inr (by simp [e])
        · rcases h.all j hj with g | g
          · exact .inl (by simp [e, g])
          · exact .inr (by simp only [List.map_append, List.mem_append]; exact .inl g)
      · intro j hj
        simp only at hj
        split at hj
        · cases hj
        · next e =>
          simp only [List.map_append, List.mem_append, List.map_cons, List.map_nil, List.mem_singleton, not_or]
          exact ⟨h.apart j hj, e⟩
      · rw [List.map_append, List.nodup_append]
        refine ⟨h.once, by simp, fun y hy z hz => ?_⟩
        simp only [List.map_cons, List.map_nil, List.mem_singleton] at hz
        rintro rfl
        exact h.apart i (by simp [hp]) (hz ▸ hy)
    | wait x' =>
      rw [hq] at ho
      rw [step_wait hp hq]
      refine ⟨h.count, ?_, h.out, ?_, ?_, h.once⟩
      · intro j y hy
        simp only at hy
        split at hy
        · next e => cases hy; exact ⟨a, e ▸ ha, ho.1.trans hx⟩
        · exact h.pending j y hy
      · intro j hj
        by_cases e : j = i
        · exact .inl (by simp [e])
        · rcases h.all j hj with g | g
          · exact .inl (by simp [e, g])
          · exact .inr g
      · intro j hj
        simp only at hj
        split at hj
        · next e => exact h.apart j (by rw [e, hp]; rfl)
        · exact h.apart j hj

theorem Tidy.run [B64] {p : ReqParser} {as : List Arrival} {s : Listening} (h : Tidy p as s) (acts : List Act) :
    Tidy p (as ++ arrivals acts) (s.run p acts) := by
  induction acts generalizing as s with
  | nil => rw [arrivals, List.append_nil]; exact h
  | cons x acts ih =>
    cases x with
    | wake i => exact ih (h.wake i)
    | arrive a =>
      have : Tidy p (as ++ [a]) (s.step p (.arrive a)) := by
        cases a with
        | refused k => exact h.fail (.refused k)
        | noPeer k => exact h.fail (.noPeer k)
        | conn tcp tls => exact h.conn tcp tls
      have := ih this
      rwa [List.append_assoc] at this

theorem tidy [B64] (p : ReqParser) (acts : List Act) : Tidy p (arrivals acts) (Listening.new.run p acts) :=
  (tidy_new p).run acts

/-- What has been yielded stays. -/
theorem out_prefix [B64] (p : ReqParser) (s : Listening) (acts : List Act) : s.out <+: (s.run p acts).out := by
  induction acts generalizing s with
  | nil => exact List.prefix_refl _
  | cons x acts ih =>
    refine List.IsPrefix.trans ?_ (ih (s.step p x))
    cases x with
    | arrive a => cases a <;> first | exact List.prefix_append _ _ | exact List.prefix_refl _
    | wake i =>
      cases hp : s.pending i with
      | none => rw [step_idle hp]; exact List.prefix_refl _
      | some x =>
        cases hq : x.poll p with
        | ready r => rw [step_ready hp hq]; exact List.prefix_append _ _
        | wait x' => rw [step_wait hp hq]; exact List.prefix_refl _

/-- A connection that is polled often enough gets done. -/
theorem run_done [B64] (p : ReqParser) (acts : List Act) (s : Listening) (i : Nat) (hs : i < s.count)
    (h : i ∈ s.out.map Prod.fst ∨ ∃ x, s.pending i = some x ∧ x.polls ≤ wakes i acts) :
    i ∈ (s.run p acts).out.map Prod.fst := by
  induction acts generalizing s with
  | nil =>
    rcases h with h | ⟨x, h1, h2⟩
    · exact h
    · exfalso
      have : 0 < x.polls := by
        cases x with
        | tls n r => cases r <;> simp [Handshake.polls]
        | http fr io => simp [Handshake.polls]
      simp only [wakes] at h2
      omega
  | cons a acts ih =>
    rcases h with h | ⟨x, h1, h2⟩
    · have := out_prefix p s (a :: acts)
      exact (this.map Prod.fst).subset h
    · show i ∈ ((s.step p a).run p acts).out.map Prod.fst
      cases a with
      | arrive a =>
        have hc : (s.step p (.arrive a)).count = s.count + 1 := by cases a <;> rfl
        have hpd : (s.step p (.arrive a)).pending i = some x := by
          cases a with
          | conn tcp tls => simp only [Listening.step]; rw [if_neg (by omega)]; exact h1
          | refused k => exact h1
          | noPeer k => exact h1
        exact ih _ (by omega) (.inr ⟨x, hpd, h2⟩)
      | wake j =>
        by_cases e : j = i
        · subst e
          simp only [wakes, if_true] at h2
          have ho := poll_outcome p x
          cases hq : x.poll p with
          | ready r =>
            refine ih _ (by simp only [Listening.step, h1, hq]; exact hs) (.inl ?_)
            simp [Listening.step, h1, hq]
          | wait x' =>
            rw [hq] at ho
            refine ih _ (by simp only [Listening.step, h1, hq]; exact hs) (.inr ⟨x', ?_, ?_⟩)
            · simp [Listening.step, h1, hq]
            · have := ho.2; omega
        · have hc : (s.step p (.wake j)).count = s.count ∧ (s.step p (.wake j)).pending i = some x := by
            cases hp : s.pending j with
            | none => rw [step_idle hp]; exact ⟨rfl, h1⟩
            | some y =>
              cases hq : y.poll p with
              | ready r => rw [step_ready hp hq]; exact ⟨rfl, by simp only [if_neg (Ne.symm e)]; exact h1⟩
              | wait x' => rw [step_wait hp hq]; exact ⟨rfl, by simp only [if_neg (Ne.symm e)]; exact h1⟩
          simp only [wakes, if_neg e, Nat.zero_add] at h2
          exact ih _ (by omega) (.inr ⟨x, hc.2, h2⟩)

/-- A new connection is pending with the polls its arrival needs, or done. -/
structure Able [B64] (p : ReqParser) (as : List Arrival) (s : Listening) : Prop where
  count : s.count = as.length
  all : ∀ i a, as[i]? = some a → i ∈ s.out.map Prod.fst ∨ ∃ x, s.pending i = some x ∧ x.polls ≤ a.polls

theorem able [B64] (p : ReqParser) (acts : List Act) : Able p (arrivals acts) (Listening.new.run p acts) := by
  suffices ∀ (as : List Arrival) (s : Listening), Able p as s → Able p (as ++ arrivals acts) (s.run p acts) from
    this [] .new ⟨rfl, fun i a h => by simp at h⟩
  induction acts with
  | nil => intro as s h; rw [arrivals, List.append_nil]; exact h
  | cons x acts ih =>
    intro as s h
    cases x with
    | wake i =>
      refine ih as (s.step p (.wake i)) ⟨?_, ?_⟩
      · rw [← h.count]
        cases hp : s.pending i with
        | none => rw [step_idle hp]
        | some y =>
          cases hq : y.poll p with
          | ready r => rw [step_ready hp hq]
          | wait y' => rw [step_wait hp hq]
      · intro j a ha
        rcases h.all j a ha with g | ⟨x, g1, g2⟩
        · exact .inl (((out_prefix p s [.wake i]).map Prod.fst).subset g)
        · cases hp : s.pending i with
          | none => rw [step_idle hp]; exact .inr ⟨x, g1, g2⟩
          | some y =>
            have ho := poll_outcome p y
            cases hq : y.poll p with
            | ready r =>
              rw [step_ready hp hq]
              by_cases e : j = i
              · exact .inl (by simp [e])
              · exact .inr ⟨x, by simp only [if_neg e]; exact g1, g2⟩
            | wait y' =>
              rw [step_wait hp hq]
              by_cases e : j = i
              · subst e
                rw [hp] at g1; cases g1
                rw [hq] at ho
                exact .inr ⟨y', by simp, by have := ho.2; omega⟩
              · exact .inr ⟨x, by simp only [if_neg e]; exact g1, g2⟩
    | arrive b =>
      have : Able p (as ++ [b]) (s.step p (.arrive b)) := by
        refine ⟨?_, ?_⟩
        · cases b <;> simp [Listening.step, h.count]
        · intro j a ha
          by_cases e : j < as.length
          · rw [List.getElem?_append_left e] at ha
            rcases h.all j a ha with g | ⟨x, g1, g2⟩
            · exact .inl (((out_prefix p s [.arrive b]).map Prod.fst).subset g)
            · refine .inr ⟨x, ?_, g2⟩
              have := h.count
              cases b with
              | conn tcp tls => simp only [Listening.step]; rw [if_neg (by omega)]; exact g1
              | refused k => exact g1
              | noPeer k => exact g1
          · have hl := (List.getElem?_eq_some_iff.mp ha).1
            simp only [List.length_append, List.length_singleton] at hl
            have ej : j = as.length := by omega
            subst ej
            simp at ha
            subst ha
            cases b with
            | refused k => exact .inl (by simp [Listening.step, h.count])
            | noPeer k => exact .inl (by simp [Listening.step, h.count])
            | conn tcp tls =>
              refine .inr ⟨.start tcp tls, by simp [Listening.step, h.count], ?_⟩
              cases tls with
              | none => exact Nat.le_refl _
              | some t =>
                obtain ⟨n, r⟩ := t
                cases r <;> exact Nat.le_refl _
      have := ih _ _ this
      rwa [List.append_assoc] at this

/-! ### Accept loops -/

theorem serverItems_append [B64] (p : ReqParser) (a b : List Call) : serverItems p (a ++ b) = serverItems p a ++ serverItems p b := by
  induction a with
  | nil => rfl
  | cons c a ih => exact congrArg (_ :: ·) ih

theorem serverAccept_transport [B64] (p : ReqParser) {c : Call} {d : Duplex} (h : c.transport = some d) :
    resultOk (serverAccept p c.listener c.tls) = resultOk (intoWs p d) := by
  obtain ⟨l, t⟩ := c
  cases l with
  | error k => cases h
  | ok tcp =>
    cases t with
    | none => cases h; unfold serverAccept; simp only; cases hx : intoWs p d <;> rfl
    | some r =>
      cases r with
      | error u => cases h
      | ok d' => cases h; unfold serverAccept; simp only; cases hx : intoWs p d <;> rfl

theorem items_split [B64] (p : ReqParser) (f : SyncUpgrade → Ending × Sink) (before after : List Call) {c : Call} {u : SyncUpgrade}
    (h : resultOk (serverAccept p c.listener c.tls) = some u) :
    ((serverItems p (before ++ c :: after)).filterMap resultOk).map f =
      ((serverItems p before).filterMap resultOk).map f ++ f u :: ((serverItems p after).filterMap resultOk).map f := by
  rw [serverItems_append]
  have : serverItems p (c :: after) = serverAccept p c.listener c.tls :: serverItems p after := rfl
  rw [this, List.filterMap_append, List.filterMap_cons_some h, List.map_append, List.map_cons]

theorem items_drop [B64] (p : ReqParser) (f : SyncUpgrade → Ending × Sink) (before after : List Call) {c : Call}
    (h : resultOk (serverAccept p c.listener c.tls) = none) :
    ((serverItems p (before ++ c :: after)).filterMap resultOk).map f =
      ((serverItems p before).filterMap resultOk).map f ++ ((serverItems p after).filterMap resultOk).map f := by
  rw [serverItems_append]
  have : serverItems p (c :: after) = serverAccept p c.listener c.tls :: serverItems p after := rfl
  rw [this, List.filterMap_append, List.filterMap_cons_none h, List.map_append]

theorem outcome_transport [B64] (p : ReqParser) {a : Arrival} {d : Duplex} (h : a.transport = some d) :
    resultOk (a.outcome p) = resultOk (asyncIntoWs p d) := by
  cases a with
  | refused k => cases h
  | noPeer k => cases h
  | conn tcp t =>
    cases t with
    | none => cases h; unfold Arrival.outcome asyncServerAccept; simp only; cases hx : asyncIntoWs p d <;> rfl
    | some r =>
      obtain ⟨n, r⟩ := r
      cases r with
      | error u => cases h
      | ok d' => cases h; unfold Arrival.outcome asyncServerAccept; simp only; cases hx : asyncIntoWs p d <;> rfl

theorem forEach_ignoreBad {ε α} (xs : List (Except ε α)) : forEach (ignoreBad xs) = (xs.filterMap resultOk, none) := by
  induction xs with
  | nil => rfl
  | cons x xs ih =>
    cases x with
    | error e => exact ih
    | ok a =>
      have : ignoreBad (.ok a :: xs) = .ok a :: ignoreBad xs := rfl
      rw [this, List.filterMap_cons_some (show resultOk (Except.ok (ε := ε) a) = some a from rfl)]
      simp only [forEach, ih]

theorem forEach_ok {ε α} (xs : List (Except ε α)) (h : ∀ x ∈ xs, ∃ a, x = .ok a) : forEach xs = (xs.filterMap resultOk, none) := by
  induction xs with
  | nil => rfl
  | cons x xs ih =>
    obtain ⟨a, rfl⟩ := h x (.head _)
    rw [List.filterMap_cons_some (show resultOk (Except.ok (ε := ε) a) = some a from rfl)]
    simp only [forEach, ih fun y hy => h y (.tail _ hy)]

theorem forEach_bad {ε α} (xs ys : List (Except ε α)) (e : ε) (h : ∀ x ∈ xs, ∃ a, x = .ok a) :
    forEach (xs ++ .error e :: ys) = (xs.filterMap resultOk, some e) := by
  induction xs with
  | nil => rfl
  | cons x xs ih =>
    obtain ⟨a, rfl⟩ := h x (.head _)
    rw [List.filterMap_cons_some (show resultOk (Except.ok (ε := ε) a) = some a from rfl)]
    simp only [List.cons_append, forEach, ih fun y hy => h y (.tail _ hy)]

end WS
