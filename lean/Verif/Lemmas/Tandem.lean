import Verif.Lemmas.Tasks
import Verif.Spec.Tasks
/-!
# Lemmas: runs of the two async tasks
-/

namespace WS
open Spec

section
variable {lines : List Bytes} {cdf cmsg sdf smsg : Nat} {r : Room} {x : Tandem} {bu bd : List Bytes}

theorem greets_sendable {lim : Nat} (h : ∀ l ∈ lines, (Message.text l).Sendable lim) (h12 : 12 ≤ lim) (i : Nat) : (greets lines i).spec.Sendable lim := by
  cases i with
  | zero => exact ⟨isUtf8_ascii (by decide), h12⟩
  | succ i => exact replies_sendable h (by omega) (i + 1)

theorem greets_range (lines : List Bytes) (k : Nat) :
    ((List.range (k + 1)).map (greets lines)).map OwnedMsg.spec = asyncScreen (((List.range k).map (asks lines)).map OwnedMsg.spec) := by
  rw [List.range_succ_eq_map, List.map_cons, List.map_cons, List.map_map, List.map_map, asyncScreen, List.map_map, List.map_map]
  congr 1
  apply List.map_congr_left
  intro i _
  exact sentBack_spec _

theorem flowing_new (mask : Bool) (said : Nat → OwnedMsg) (keys : Nat → Key4) (extra : Nat) : Flowing mask said 0 [] ⟨FramedWrite.new (!mask), [], keys, extra⟩ :=
  ⟨rfl, fun i b h => by simp at h, rfl, by simp [FramedWrite.new, BytesMut.WF], rfl⟩

theorem tandem_start (lines : List Bytes) (cdf cmsg sdf smsg : Nat) (ckeys skeys : Nat → Key4) (cx sx : Nat) (r : Room) :
    TandemInv lines cdf cmsg sdf smsg r (Tandem.start lines cdf cmsg sdf smsg ckeys skeys cx sx) [] [] := by
  refine ⟨?_, rfl, rfl, by simp [Tandem.start], by simp [Tandem.start, Count.gone, Tandem.count], by simp [Tandem.start], by simp [Tandem.start], ?_, ?_, rfl, ?_,
    by simp [Tandem.start], by simp [Tandem.start], rfl, by simp [Tandem.start], ?_, ?_⟩
  · constructor <;> simp [Tandem.start, Tandem.count, ChatPhase.stage, ServePhase.stage, cum, Count.pushed, Count.held, Count.answered]
  · exact flowing_new true _ _ _
  · exact flowing_new false _ _ _
  · exact ⟨rfl, by simp [Tandem.start], by simp [Tandem.start, cum], by simp [Tandem.start, Framed.new], by
      intro _
      have := lens_up_pos lines 0
      simp only [Tandem.start, List.length_nil, cum]
      omega, rfl⟩
  · have := lens_down_pos lines 0
    simp only [Tandem.start, List.length_nil, cum]
    omega
  · intro _
    exact ⟨⟨rfl, by simp [Tandem.start], by simp [Tandem.start, cum], by simp [Tandem.start, Framed.new], by
      intro _
      have := lens_down_pos lines 0
      simp only [Tandem.start, List.length_nil, cum]
      omega, rfl⟩, rfl⟩

theorem tandem_run (hs : Suiting lines (min cdf u32Max) (min sdf u32Max)) (es : List Move) (h : TandemInv lines cdf cmsg sdf smsg r x bu bd) :
    ∃ bu' bd', TandemInv lines cdf cmsg sdf smsg r (x.run r es) bu' bd' ∧ (x.run r es).count = es.foldl (fun a e => a.step (lens lines) r e) x.count := by
  induction es generalizing x bu bd with
  | nil => exact ⟨bu, bd, h, rfl⟩
  | cons e es ih =>
    obtain ⟨bu1, bd1, h1, hc⟩ := tandem_step (asks_sendable hs.up) (greets_sendable hs.down hs.hello) h e
    obtain ⟨bu2, bd2, h2, hc2⟩ := ih h1
    exact ⟨bu2, bd2, h2, by rw [List.foldl_cons, ← hc]; exact hc2⟩

theorem along_foldl (L : Lens) (r : Room) (a : Count) (f : Nat → Move) (t : Nat) : ((List.range t).map f).foldl (fun a e => a.step L r e) a = a.along L r f t := by
  induction t with
  | zero => rfl
  | succ t ih => rw [List.range_succ, List.map_append, List.foldl_append, ih]; rfl

theorem tandem_along (hs : Suiting lines (min cdf u32Max) (min sdf u32Max)) (f : Nat → Move) (t : Nat) (h : TandemInv lines cdf cmsg sdf smsg r x bu bd) :
    ∃ bu' bd', TandemInv lines cdf cmsg sdf smsg r (x.run r ((List.range t).map f)) bu' bd' ∧
      (x.run r ((List.range t).map f)).count = x.count.along (lens lines) r f t := by
  obtain ⟨bu', bd', h1, h2⟩ := tandem_run hs ((List.range t).map f) h
  exact ⟨bu', bd', h1, by rw [h2, along_foldl]⟩

theorem stuck_iff (h : TandemInv lines cdf cmsg sdf smsg r x bu bd) : x.Stuck r ↔ x.count.Jam (lens lines) r := by
  have h1 := up_data h
  have h2 := down_data h
  have h3 : x.upTransit.length = x.count.sent - x.count.got := by simp [Tandem.upTransit, Tandem.count]
  have h4 := downTransit_length h
  have h5 : (∃ m, x.chat.phase = .forward (some m)) ↔ x.count.cphase = .holding := by
    show _ ↔ x.chat.phase.stage = .holding
    cases x.chat.phase with
    | forward b => cases b <;> simp [ChatPhase.stage]
    | _ => simp [ChatPhase.stage]
  have h6 : (∃ m, x.server.phase = .forward (some m)) ↔ x.count.sphase = .holding := by
    show _ ↔ x.server.phase.stage = .holding
    cases x.server.phase with
    | forward b => cases b <;> simp [ServePhase.stage]
    | _ => simp [ServePhase.stage]
  have h7 : x.server.phase = .greeting ↔ x.count.sphase = .greeting := by
    show _ ↔ x.server.phase.stage = .greeting
    cases x.server.phase with
    | forward b => cases b <;> simp [ServePhase.stage]
    | _ => simp [ServePhase.stage]
  have h8 : x.server.out.sink.buf.data ≠ [] ↔ x.count.back < cum (lens lines).down x.count.answered := by
    rw [ne_eq, ← List.length_eq_zero_iff, h2]
    omega
  unfold Tandem.Stuck Count.Jam
  rw [h5, h6, h7, h8, h1, h2, h3, h4]

theorem over_phase (h : TandemInv lines cdf cmsg sdf smsg r x bu bd) : x.count.cphase = .over ↔ x.chat.phase = .over .returned := by
  have ho := h.chatOver
  show x.chat.phase.stage = .over ↔ _
  cases hp : x.chat.phase with
  | forward b => cases b <;> simp [ChatPhase.stage]
  | closing => simp [ChatPhase.stage]
  | over e => simp [ChatPhase.stage, ho e hp]

theorem over_serve (h : TandemInv lines cdf cmsg sdf smsg r x bu bd) : x.count.sphase = .over ↔ x.server.phase = .over .returned := by
  have ho := h.serverOver
  show x.server.phase.stage = .over ↔ _
  cases hp : x.server.phase with
  | forward b => cases b <;> simp [ServePhase.stage]
  | over e => simp [ServePhase.stage, ho e hp]
  | _ => simp [ServePhase.stage]

/-- When the client is done, everything has been said. -/
theorem all_said (h : TandemInv lines cdf cmsg sdf smsg r x bu bd) (ho : x.count.cphase = .over) :
    x.count.sphase = .over ∧ x.server.heard.length = x.chat.typed.length ∧ x.chat.seen.length = x.server.heard.length + 1 ∧
      0 < x.chat.typed.length ∧ (asks lines (x.chat.typed.length - 1)).isClose = true := by
  obtain ⟨l1, l2, l3⟩ := h.sane.leaving (.inr ho)
  obtain ⟨e1, e2⟩ := h.sane.eof l1
  have e3 := h.sane.over e1
  obtain ⟨d1, d2⟩ := h.sane.ending (.inr (.inr (.inr e1)))
  have hhp := h.sane.heard_pushed (lens_up_pos lines)
  have g := Count.sane_gone_typed l2
  have hans : x.count.answered = x.count.heard + 1 := by simp only [Count.answered, e1]
  have hpu : x.count.pushed ≤ x.count.typed := by simp only [Count.pushed, Count.held]; omega
  have hht : x.count.heard = x.count.typed := by
    by_cases hlt : x.count.heard - 1 + 1 < x.count.typed
    · have := h.sane.before _ hlt
      rw [d2] at this
      cases this
    · omega
  have c2 : x.count.read < cum (lens lines).down (x.chat.seen.length + 1) := h.caught.2
  have hle := h.seenLe
  have : x.chat.seen.length = x.count.answered := by
    by_cases hlt : x.chat.seen.length + 1 ≤ x.count.answered
    · have := cum_mono (len := (lens lines).down) hlt
      omega
    · omega
  exact ⟨e1, hht, by rw [this, hans]; rfl, g.1, g.2⟩

theorem cum_sum {α} (len : Nat → Nat) (g : α → Nat) (l : List α) (h : ∀ (i : Nat) a, l[i]? = some a → len i = g a) : cum len l.length = (l.map g).sum := by
  have : ∀ k, k ≤ l.length → cum len k = ((l.take k).map g).sum := by
    intro k
    induction k with
    | zero => intro _; rfl
    | succ k ih =>
      intro hk
      have hg : l[k]? = some l[k] := List.getElem?_eq_getElem hk
      rw [List.take_add_one, hg, List.map_append, List.sum_append, ← ih (by omega), cum, h k _ hg]
      simp
  rw [this _ (Nat.le_refl _), List.take_length]

theorem lineSaid_size (l : Bytes) : (lineSaid l).view.spec.payload.length = lineSize l ∧ (sentBack (lineSaid l)).view.spec.payload.length = lineSize l := by
  unfold lineSaid lineMessage lineSize
  by_cases h1 : l = ascii "/close"
  · rw [if_pos h1, if_pos h1]; exact ⟨rfl, rfl⟩
  · rw [if_neg h1, if_neg h1]
    by_cases h2 : l = ascii "/ping"
    · rw [if_pos h2, if_pos h2]; exact ⟨rfl, rfl⟩
    · rw [if_neg h2, if_neg h2]; exact ⟨rfl, rfl⟩

theorem lens_up_eq (lines : List Bytes) (i : Nat) : (lens lines).up i = onWire true (lineSize (lineAt lines i)) := by
  show onWire true (asks lines i).view.spec.payload.length = _
  rw [show (asks lines i).view.spec.payload.length = _ from (lineSaid_size _).1]

theorem lens_down_eq (lines : List Bytes) (i : Nat) : (lens lines).down (i + 1) = onWire false (lineSize (lineAt lines i)) := by
  show onWire false (sentBack (asks lines i)).view.spec.payload.length = _
  rw [show (sentBack (asks lines i)).view.spec.payload.length = _ from (lineSaid_size _).2]

/-! ## How it goes on -/

theorem along_mono (L : Lens) (r : Room) (a : Count) (f : Nat → Move) {t u : Nat} (h : t ≤ u) : (a.along L r f t).Grows (a.along L r f u) := by
  induction u with
  | zero => obtain rfl : t = 0 := by omega
            exact Count.Grows.refl _
  | succ u ih =>
    by_cases h' : t = u + 1
    · subst h'; exact Count.Grows.refl _
    · exact (ih (by omega)).trans (Count.grows_step (f u))

theorem along_final {L : Lens} {r : Room} {a : Count} (hs : a.Sane L r) (f : Nat → Move) {t u : Nat} (h : t ≤ u) (hf : (a.along L r f t).Final) :
    (a.along L r f u).Final := by
  induction u with
  | zero => obtain rfl : t = 0 := by omega
            exact hf
  | succ u ih =>
    by_cases h' : t = u + 1
    · subst h'; exact hf
    · show ((a.along L r f u).step L r (f u)).Final
      rw [Count.final_step (Count.sane_along hs f u) (ih (by omega))]
      exact ih (by omega)

theorem along_jam {L : Lens} {r : Room} {a : Count} (f : Nat → Move) {t u : Nat} (h : t ≤ u) (hf : (a.along L r f t).Jam L r) :
    (a.along L r f u).Jam L r := by
  induction u with
  | zero => obtain rfl : t = 0 := by omega
            exact hf
  | succ u ih =>
    by_cases h' : t = u + 1
    · subst h'; exact hf
    · exact (Count.jam_step (ih (by omega)) (f u)).2.1

theorem fair_progress {L : Lens} {r : Room} {a : Count} (hu : ∀ i, 0 < L.up i) (hru : 0 < r.up) (hrd : 0 < r.down) (h : a.Sane L r) {f : Nat → Move}
    (hf : FairMoves f) (goal : Count → Prop) (B : Nat) (hB : ∀ t, ¬ goal (a.along L r f t) → (a.along L r f t).pot ≤ B) :
    ∃ t, goal (a.along L r f t) ∨ (a.along L r f t).Final ∨ (a.along L r f t).Jam L r :=
  Count.progress hu hru hrd h f goal B hB (fun t => (hf t).1)
    (fun t => by obtain ⟨m, i, k, h1, h2⟩ := (hf t).2.1; exact ⟨m, i + 1, k, h1, h2, .inl (Nat.succ_pos _)⟩) (fun t => (hf t).2.2)

/-- With a line that asks to leave, both come to an end or are stuck. -/
theorem tandem_ends (hs : Suiting lines (min cdf u32Max) (min sdf u32Max)) (hru : 0 < r.up) (hrd : 0 < r.down) {f : Nat → Move} (hf : FairMoves f)
    (h : TandemInv lines cdf cmsg sdf smsg r x bu bd) {c : Nat} (hc : (asks lines c).isClose = true) :
    ∃ n, ∀ m, n ≤ m → ((x.run r ((List.range m).map f)).count.Final ∨ (x.run r ((List.range m).map f)).count.Jam (lens lines) r) := by
  obtain ⟨t, ht⟩ := fair_progress (lens_up_pos lines) hru hrd h.sane hf (fun _ => False) _
    (fun t _ => ((Count.sane_along h.sane f t).pot_le (lens_up_pos lines) (c := c) hc).2)
  refine ⟨t, fun m hm => ?_⟩
  obtain ⟨-, -, -, he⟩ := tandem_along hs f m h
  rw [he]
  rcases ht with ht | ht | ht
  · exact ht.elim
  · exact .inl (along_final h.sane f hm ht)
  · exact .inr (along_jam f hm ht)

/-- The client reads on, or both come to an end, or are stuck. -/
theorem tandem_reads (hs : Suiting lines (min cdf u32Max) (min sdf u32Max)) (hru : 0 < r.up) (hrd : 0 < r.down) {f : Nat → Move} (hf : FairMoves f)
    (h : TandemInv lines cdf cmsg sdf smsg r x bu bd) (R : Nat) :
    ∃ n, ∀ m, n ≤ m → (R ≤ (x.run r ((List.range m).map f)).count.read ∨ (x.run r ((List.range m).map f)).count.Final ∨
      (x.run r ((List.range m).map f)).count.Jam (lens lines) r) := by
  obtain ⟨B, hB⟩ := Count.Sane.pot_bound (L := lens lines) (r := r) (lens_up_pos lines) (lens_down_pos lines) R
  obtain ⟨t, ht⟩ := fair_progress (lens_up_pos lines) hru hrd h.sane hf (fun a => R ≤ a.read) B
    (fun t hn => hB _ (Count.sane_along h.sane f t) (by omega))
  refine ⟨t, fun m hm => ?_⟩
  obtain ⟨-, -, -, he⟩ := tandem_along hs f m h
  rw [he]
  rcases ht with ht | ht | ht
  · exact .inl (Nat.le_trans ht (along_mono _ _ _ _ hm).read)
  · exact .inr (.inl (along_final h.sane f hm ht))
  · exact .inr (.inr (along_jam f hm ht))

/-- Who has read so much has seen so many. -/
theorem seen_of_read (h : TandemInv lines cdf cmsg sdf smsg r x bu bd) {j : Nat} (hr : cum (lens lines).down j ≤ x.count.read) : j ≤ x.chat.seen.length := by
  have h2 : x.count.read < cum (lens lines).down (x.chat.seen.length + 1) := h.caught.2
  by_cases hj : x.chat.seen.length + 1 ≤ j
  · have := cum_mono (len := (lens lines).down) hj
    omega
  · omega

theorem tandem_run_append (r : Room) (x : Tandem) (es fs : List Move) : x.run r (es ++ fs) = (x.run r es).run r fs := by
  unfold Tandem.run
  rw [List.foldl_append]

/-- Nothing helps those who are stuck. -/
theorem stuck_run (hs : Suiting lines (min cdf u32Max) (min sdf u32Max)) (es : List Move) (h : TandemInv lines cdf cmsg sdf smsg r x bu bd) (hj : x.count.Jam (lens lines) r) :
    (x.run r es).count.Jam (lens lines) r ∧ (x.run r es).count.heard = x.count.heard ∧ (x.run r es).count.read = x.count.read := by
  obtain ⟨-, -, -, he⟩ := tandem_run hs es h
  rw [he]
  clear he h
  generalize x.count = a at hj
  induction es generalizing a with
  | nil => exact ⟨hj, rfl, rfl⟩
  | cons e es ih =>
    have := Count.jam_step hj e
    obtain ⟨i1, i2, i3⟩ := ih (a.step (lens lines) r e) this.2.1
    simp only [List.foldl_cons]
    exact ⟨i1, by rw [i2]; exact this.2.2.2.2.2.2.1, by rw [i3]; exact this.2.2.2.2.1⟩

/-- The same number of messages for the same number of bytes. -/
theorem seen_same {y : Tandem} {bu' bd'} (h : TandemInv lines cdf cmsg sdf smsg r x bu bd) (h' : TandemInv lines cdf cmsg sdf smsg r y bu' bd')
    (hr : y.count.read = x.count.read) : y.chat.seen = x.chat.seen := by
  have a := seen_of_read h (j := y.chat.seen.length) (by rw [← hr]; exact h'.caught.1)
  have b := seen_of_read h' (j := x.chat.seen.length) (by rw [hr]; exact h.caught.1)
  rw [h.seen, h'.seen, Nat.le_antisymm a b]

theorem tandem_slow (hs : Suiting lines (min cdf u32Max) (min sdf u32Max)) (hru : 0 < r.up) (hrd : 0 < r.down) (h : TandemInv lines cdf cmsg sdf smsg r x bu bd)
    (hg : ∀ t, (x.count.along (lens lines) r Count.slow t).gone (lens lines) = false) :
    ∃ es, (x.run r es).count.Jam (lens lines) r := by
  obtain ⟨t, ht⟩ := Count.slow_jams (lens_up_pos lines) (lens_down_pos lines) hru hrd h.sane hg
  obtain ⟨-, -, -, he⟩ := tandem_along hs Count.slow t h
  exact ⟨_, by rw [he]; exact ht⟩

end

end WS
