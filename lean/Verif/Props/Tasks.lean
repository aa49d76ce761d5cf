import Verif.Lemmas.Tandem
import Verif.Props.Keys
import Verif.Props.Live
/-!
# C77: examples/async-client.rs and examples/async-server.rs, side by side
-/

namespace WS
open Spec

theorem tandem_safe {lines : List Bytes} {cdf cmsg sdf smsg : Nat} {r : Room} {x : Tandem} {bu bd : List Bytes} (h : TandemInv lines cdf cmsg sdf smsg r x bu bd) :
    (∀ e, x.chat.phase = .over e → e = .returned) ∧ (∀ e, x.server.phase = .over e → e = .returned) ∧
    (∃ p, x.chat.typed <+: lines.map trim ++ List.replicate p []) ∧
    x.server.heard.map OwnedMsg.spec <+: x.chat.typed.map lineSays ∧
    x.chat.seen.map OwnedMsg.spec <+: asyncScreen (x.server.heard.map OwnedMsg.spec) ∧
    (x.chat.phase.isOver = true → x.server.phase.isOver = true ∧ x.server.heard.map OwnedMsg.spec = x.chat.typed.map lineSays ∧
      x.chat.seen.map OwnedMsg.spec = asyncScreen (x.server.heard.map OwnedMsg.spec)) := by
  have hht : x.server.heard.length ≤ x.chat.typed.length := by
    have h1 := h.sane.heard_pushed (lens_up_pos lines)
    have : x.count.pushed ≤ x.count.typed := by simp only [Count.pushed, Count.held]; omega
    exact Nat.le_trans h1 this
  have hans : x.count.answered ≤ x.server.heard.length + 1 := by
    show _ ≤ x.count.heard + 1
    simp only [Count.answered]; split <;> omega
  refine ⟨h.chatOver, h.serverOver, ⟨x.chat.typed.length, ?_⟩, ?_, ?_, fun ho => ?_⟩
  · generalize hk : x.chat.typed.length = k
    rw [h.typed, hk, lineAt_range lines (Nat.le_refl _)]
    exact List.take_prefix _ _
  · rw [h.heard, h.typed, ← asks_range]
    exact (range_prefix _ hht).map _
  · rw [h.heard, ← greets_range, h.seen]
    exact (range_prefix _ (Nat.le_trans h.seenLe hans)).map _
  · rw [isOver_iff, decide_eq_true_eq] at ho
    obtain ⟨a1, a2, a3, -, -⟩ := all_said h ho
    refine ⟨by rw [serveOver_iff, decide_eq_true_eq]; exact a1, ?_, ?_⟩
    · rw [h.heard, h.typed, ← asks_range, a2]
    · rw [h.seen, a3, greets_range, ← h.heard]

theorem Flowing.says {mask : Bool} {said : Nat → OwnedMsg} {n : Nat} {bss : List Bytes} {o : Outbox} (h : Flowing mask said n bss o) {lim : Nat} (hs : ∀ i, (said i).spec.Sendable lim) :
    Says mask (((List.range n).map said).map OwnedMsg.spec) (o.wire ++ o.sink.buf.data) := by
  rw [h.total]
  have hf := h.frames
  have hc := h.count
  clear h
  induction n generalizing bss with
  | zero =>
    rw [List.length_eq_zero_iff] at hc
    subst hc
    exact says_nil mask
  | succ n ih =>
    obtain ⟨b, hb⟩ : ∃ b, bss[n]? = some b := ⟨bss[n], List.getElem?_eq_getElem (by omega)⟩
    have hsplit : bss = bss.take n ++ [b] := by
      apply List.ext_getElem?
      intro i
      rw [List.getElem?_append, List.length_take, Nat.min_eq_left (by omega), List.getElem?_take]
      by_cases hi : i < n
      · rw [if_pos hi, if_pos hi]
      · rw [if_neg hi]
        by_cases he : i = n
        · rw [he, Nat.sub_self, hb]; rfl
        · rw [List.getElem?_eq_none (by omega), List.getElem?_eq_none (by simp; omega)]
    rw [hsplit, List.flatten_append, List.range_succ, List.map_append, List.map_append]
    refine Says.append (ih ?_ (by rw [List.length_take]; omega)) ?_
    · intro i b' hb'
      rw [List.getElem?_take] at hb'
      split at hb'
      · exact hf i b' hb'
      · cases hb'
    · refine ⟨[(said n).view.spec], by simpa using hf n b hb, rfl, ?_⟩
      intro q hq
      simp only [List.map_cons, List.map_nil, List.zip_cons_cons, List.zip_nil_right, List.mem_singleton] at hq
      subst hq
      exact (OwnedMsg.carries (hs n)).1

/-- The bytes: what the client has written, and has in its sink, are the frames of the first `k` lines typed, those heard among them; for the server of the first messages of
what it should say, those seen among them. -/
theorem tandem_says {lines : List Bytes} {cdf cmsg sdf smsg : Nat} (hs : Suiting lines (min cdf u32Max) (min sdf u32Max)) {r : Room} {x : Tandem} {bu bd : List Bytes}
    (h : TandemInv lines cdf cmsg sdf smsg r x bu bd) :
    (∃ k, x.server.heard.length ≤ k ∧ k ≤ x.chat.typed.length ∧ Says true ((x.chat.typed.take k).map lineSays) (x.chat.out.wire ++ x.chat.out.sink.buf.data)) ∧
    ∃ k, x.chat.seen.length ≤ k ∧ k ≤ x.server.heard.length + 1 ∧
      Says false ((asyncScreen (x.server.heard.map OwnedMsg.spec)).take k) (x.server.out.wire ++ x.server.out.sink.buf.data) := by
  have hpt : x.count.pushed ≤ x.chat.typed.length := by
    show _ ≤ x.count.typed
    simp only [Count.pushed, Count.held]; omega
  have hans : x.count.answered ≤ x.server.heard.length + 1 := by
    show _ ≤ x.count.heard + 1
    simp only [Count.answered]; split <;> omega
  refine ⟨⟨x.count.pushed, h.sane.heard_pushed (lens_up_pos lines), hpt, ?_⟩, x.count.answered, h.seenLe, hans, ?_⟩
  · have := h.up.says (asks_sendable hs.up)
    rw [asks_range] at this
    rw [h.typed, ← List.map_take, List.take_range, Nat.min_eq_left hpt]
    exact this
  · have := h.down.says (greets_sendable hs.down hs.hello)
    rw [h.heard, ← greets_range, ← List.map_take, ← List.map_take, List.take_range, Nat.min_eq_left hans]
    exact this

/-- Whatever the schedule, whatever room the network has, whatever the user types: neither program fails or panics; the server hears what was typed, in order; the user
sees the greeting, then what the server says to what it heard, in order; and the client ends only after the server has, with everything said and seen. -/
theorem C77_safe (lines : List Bytes) (cdf cmsg sdf smsg : Nat) (hs : Suiting lines (min cdf u32Max) (min sdf u32Max)) (ckeys skeys : Nat → Key4) (cx sx : Nat)
    (r : Room) (es : List Move) :
    let x := (Tandem.start lines cdf cmsg sdf smsg ckeys skeys cx sx).run r es
    (∀ e, x.chat.phase = .over e → e = .returned) ∧ (∀ e, x.server.phase = .over e → e = .returned) ∧
    (∃ p, x.chat.typed <+: lines.map trim ++ List.replicate p []) ∧
    x.server.heard.map OwnedMsg.spec <+: x.chat.typed.map lineSays ∧
    x.chat.seen.map OwnedMsg.spec <+: asyncScreen (x.server.heard.map OwnedMsg.spec) ∧
    (x.chat.phase.isOver = true → x.server.phase.isOver = true ∧ x.server.heard.map OwnedMsg.spec = x.chat.typed.map lineSays ∧
      x.chat.seen.map OwnedMsg.spec = asyncScreen (x.server.heard.map OwnedMsg.spec)) := by
  obtain ⟨bu, bd, h, -⟩ := tandem_run hs es (tandem_start lines cdf cmsg sdf smsg ckeys skeys cx sx r)
  exact tandem_safe h

/-- And byte for byte, at any time: what the client has written, and what waits in its sink, are the masked frames of the first `k` lines typed; the server has written, or has in its sink,
the unmasked frames of the first `k` messages of the greeting and the answers to what it has heard. What has been heard or seen is among them. -/
theorem C77_says (lines : List Bytes) (cdf cmsg sdf smsg : Nat) (hs : Suiting lines (min cdf u32Max) (min sdf u32Max)) (ckeys skeys : Nat → Key4) (cx sx : Nat)
    (r : Room) (es : List Move) :
    let x := (Tandem.start lines cdf cmsg sdf smsg ckeys skeys cx sx).run r es
    (∃ k, x.server.heard.length ≤ k ∧ k ≤ x.chat.typed.length ∧ Says true ((x.chat.typed.take k).map lineSays) (x.chat.out.wire ++ x.chat.out.sink.buf.data)) ∧
    ∃ k, x.chat.seen.length ≤ k ∧ k ≤ x.server.heard.length + 1 ∧
      Says false ((asyncScreen (x.server.heard.map OwnedMsg.spec)).take k) (x.server.out.wire ++ x.server.out.sink.buf.data) := by
  obtain ⟨bu, bd, h, -⟩ := tandem_run hs es (tandem_start lines cdf cmsg sdf smsg ckeys skeys cx sx r)
  exact tandem_says hs h

theorem tandem_answered {lines : List Bytes} {cdf cmsg sdf smsg : Nat} (hs : Suiting lines (min cdf u32Max) (min sdf u32Max)) {r : Room} {z : Tandem} {bu bd : List Bytes}
    (hru : 0 < r.up) (hrd : 0 < r.down) {f : Nat → Move} (hf : FairMoves f) (h0 : TandemInv lines cdf cmsg sdf smsg r z bu bd) (j : Nat) (hj : ascii "/close" ∉ (lines.map trim).take (j - 1)) :
    ∃ n, ∀ m, n ≤ m →
      let x := z.run r ((List.range m).map f)
      (x.chat.seen.map OwnedMsg.spec).take (j + 1) = asyncScreen (((lines.map trim ++ List.replicate j []).take j).map lineSays) ∨ x.Stuck r := by
  have hq : ∀ i, i + 1 < j → (asks lines i).isClose = false := by
    intro i hi
    cases hc : (asks lines i).isClose with
    | false => rfl
    | true =>
      rw [asks_close, lineAt_eq] at hc
      exfalso
      apply hj
      cases hl : (lines.map trim)[i]? with
      | none => rw [hl] at hc; exact absurd hc (by decide)
      | some l =>
        rw [hl] at hc
        exact List.mem_of_getElem? (i := i) (by rw [List.getElem?_take, if_pos (by omega), hl]; exact congrArg some hc)
  obtain ⟨n, hn⟩ := tandem_reads hs hru hrd hf h0 (cum (lens lines).down (j + 1))
  refine ⟨n, fun m hm => ?_⟩
  intro x
  obtain ⟨bu, bd, h, -⟩ := tandem_along hs f m h0
  change TandemInv lines cdf cmsg sdf smsg r x bu bd at h
  have hle : j < x.chat.seen.length ∨ x.Stuck r := by
    rcases hn m hm with hn | hn | hn
    · exact .inl (seen_of_read h hn)
    · obtain ⟨-, a2, a3, a4, a5⟩ := all_said h hn.1
      left
      by_cases hlt : x.chat.typed.length - 1 + 1 < j
      · have := hq _ hlt
        rw [a5] at this
        cases this
      · omega
    · exact .inr ((stuck_iff h).mpr hn)
  rcases hle with hle | hle
  · left
    rw [h.seen, ← lineAt_range lines (Nat.le_refl _), ← asks_range, ← greets_range, List.map_take.symm, ← List.map_take, List.take_range, Nat.min_eq_left (by omega)]
  · exact .inr hle

/-- Every line is answered, or both are stuck: if everybody moves again and again, then there comes a time from which on the user has seen the greeting and the answers
to the first `j` lines (after the last line, `read_line` goes on giving empty ones), unless a line before asked to leave, or the two are stuck. -/
theorem C77_answered_or_stuck (lines : List Bytes) (cdf cmsg sdf smsg : Nat) (hs : Suiting lines (min cdf u32Max) (min sdf u32Max)) (ckeys skeys : Nat → Key4)
    (cx sx : Nat) (r : Room) (hru : 0 < r.up) (hrd : 0 < r.down) (f : Nat → Move) (hf : FairMoves f) (j : Nat) (hj : ascii "/close" ∉ (lines.map trim).take (j - 1)) :
    ∃ n, ∀ m, n ≤ m →
      let x := (Tandem.start lines cdf cmsg sdf smsg ckeys skeys cx sx).run r ((List.range m).map f)
      (x.chat.seen.map OwnedMsg.spec).take (j + 1) = asyncScreen (((lines.map trim ++ List.replicate j []).take j).map lineSays) ∨ x.Stuck r :=
  tandem_answered hs hru hrd hf (tandem_start lines cdf cmsg sdf smsg ckeys skeys cx sx r) j hj

/-- Both have returned, the server has heard the lines before "/close" and a Close, and the user has seen the greeting, the answers and a Close. -/
def Tandem.Complete (lines : List Bytes) (x : Tandem) : Prop :=
  x.chat.phase = .over .returned ∧ x.server.phase = .over .returned ∧
    x.server.heard.map OwnedMsg.spec = ((lines.map trim).takeWhile (· ≠ ascii "/close")).map lineSays ++ [.close] ∧
    x.chat.seen.map OwnedMsg.spec = asyncScreen (x.server.heard.map OwnedMsg.spec)

theorem tandem_complete {lines : List Bytes} {cdf cmsg sdf smsg : Nat} {r : Room} {x : Tandem} {bu bd : List Bytes} (h : TandemInv lines cdf cmsg sdf smsg r x bu bd)
    (hc : ascii "/close" ∈ lines.map trim) (hf : x.count.Final) : x.Complete lines := by
  have hfc := first_close hc
  generalize hT : (lines.map trim).takeWhile (· ≠ ascii "/close") = T at *
  have hTn : ∀ l ∈ T, l ≠ ascii "/close" := by
    intro l hl
    rw [← hT] at hl
    simpa using takeWhile_mem _ hl
  have hclose : (asks lines T.length).isClose = true := by
    rw [asks_close]
    have := congrArg (fun l => l[T.length]?) hfc
    simpa [List.getElem?_range] using this
  have hstay : ∀ i, i < T.length → (asks lines i).isClose = false := by
    intro i hi
    cases hcl : (asks lines i).isClose with
    | false => rfl
    | true =>
      rw [asks_close] at hcl
      have := congrArg (fun l => l[i]?) hfc
      simp only [List.getElem?_map, List.getElem?_range (show i < T.length + 1 by omega), Option.map_some, List.getElem?_append_left hi, hcl] at this
      exact absurd rfl (hTn _ (List.mem_of_getElem? this.symm))
  obtain ⟨a1, a2, a3, a4, a5⟩ := all_said h hf.1
  have htl : x.chat.typed.length = T.length + 1 := by
    have h1 := (h.sane.pot_le (lens_up_pos lines) (c := T.length) hclose).1
    have h1' : x.chat.typed.length ≤ T.length + 1 := h1
    by_cases hlt : x.chat.typed.length - 1 < T.length
    · have := hstay _ hlt
      rw [a5] at this
      cases this
    · omega
  refine ⟨(over_phase h).mp hf.1, (over_serve h).mp hf.2, ?_, ?_⟩
  · rw [hT, h.heard, asks_range, a2, htl, hfc, List.map_append]
    rfl
  · rw [h.seen, a3, greets_range, ← h.heard]

theorem tandem_over {lines : List Bytes} {cdf cmsg sdf smsg : Nat} (hs : Suiting lines (min cdf u32Max) (min sdf u32Max)) {r : Room} {z : Tandem} {bu bd : List Bytes}
    (hru : 0 < r.up) (hrd : 0 < r.down) {f : Nat → Move} (hf : FairMoves f) (h0 : TandemInv lines cdf cmsg sdf smsg r z bu bd) (hc : ascii "/close" ∈ lines.map trim) :
    ∃ n, ∀ m, n ≤ m →
      let x := z.run r ((List.range m).map f)
      x.Complete lines ∨ x.Stuck r := by
  have hfc := first_close hc
  have hclose : (asks lines ((lines.map trim).takeWhile (· ≠ ascii "/close")).length).isClose = true := by
    rw [asks_close]
    have := congrArg (fun l => l[((lines.map trim).takeWhile (· ≠ ascii "/close")).length]?) hfc
    simpa [List.getElem?_range] using this
  obtain ⟨n, hn⟩ := tandem_ends hs hru hrd hf h0 hclose
  refine ⟨n, fun m hm => ?_⟩
  intro x
  obtain ⟨bu, bd, h, -⟩ := tandem_along hs f m h0
  change TandemInv lines cdf cmsg sdf smsg r x bu bd at h
  rcases hn m hm with hn | hn
  · exact .inl (tandem_complete h hc hn)
  · exact .inr ((stuck_iff h).mpr hn)

/-- It ends, or both are stuck: when a line asks to leave, there comes a time from which on all is said and both have returned, or the two are stuck. -/
theorem C77_ends_or_stuck (lines : List Bytes) (cdf cmsg sdf smsg : Nat) (hs : Suiting lines (min cdf u32Max) (min sdf u32Max)) (ckeys skeys : Nat → Key4)
    (cx sx : Nat) (r : Room) (hru : 0 < r.up) (hrd : 0 < r.down) (f : Nat → Move) (hf : FairMoves f) (hc : ascii "/close" ∈ lines.map trim) :
    ∃ n, ∀ m, n ≤ m →
      let x := (Tandem.start lines cdf cmsg sdf smsg ckeys skeys cx sx).run r ((List.range m).map f)
      x.Complete lines ∨ x.Stuck r :=
  tandem_over hs hru hrd hf (tandem_start lines cdf cmsg sdf smsg ckeys skeys cx sx r) hc

theorem tandem_little {lines : List Bytes} {cdf cmsg sdf smsg : Nat} {r : Room} {x : Tandem} {bu bd : List Bytes} (h : TandemInv lines cdf cmsg sdf smsg r x bu bd)
    (hc : ascii "/close" ∈ lines.map trim)
    (hl : (((lines.map trim).takeWhile (· ≠ ascii "/close")).map fun l => onWire true (lineSize l)).sum < 8192 + r.up ∨
      14 ≤ r.down ∧ 14 + (((lines.map trim).takeWhile (· ≠ ascii "/close")).dropLast.map fun l => onWire false (lineSize l)).sum < 8192 + r.down) : ¬ x.Stuck r := by
  intro hst
  have hfc := first_close hc
  generalize hT : (lines.map trim).takeWhile (· ≠ ascii "/close") = T at *
  have hclose : (asks lines T.length).isClose = true := by
    rw [asks_close]
    have := congrArg (fun l => l[T.length]?) hfc
    simpa [List.getElem?_range] using this
  have hat : ∀ (i : Nat) l, T[i]? = some l → lineAt lines i = l := by
    intro i l hi
    have hlt : i < T.length := by
      by_cases hlt : i < T.length
      · exact hlt
      · rw [List.getElem?_eq_none (by omega)] at hi; cases hi
    have := congrArg (fun l => l[i]?) hfc
    simpa [List.getElem?_range (show i < T.length + 1 by omega), List.getElem?_append_left hlt, hi] using this
  refine h.sane.no_jam (lens_up_pos lines) (c := T.length) hclose ?_ ((stuck_iff h).mp hst)
  rcases hl with hl | ⟨hl1, hl2⟩
  · left
    rw [cum_sum (lens lines).up (fun l => onWire true (lineSize l)) T]
    · exact hl
    · intro i l hi
      rw [lens_up_eq, hat i l hi]
  · right
    refine ⟨hl1, ?_⟩
    have hshift : ∀ k, cum (lens lines).down (k + 1) = 14 + cum (fun i => (lens lines).down (i + 1)) k := by
      intro k
      induction k with
      | zero => rfl
      | succ k ih =>
        show cum (lens lines).down (k + 1) + _ = 14 + (cum _ k + _)
        rw [ih, Nat.add_assoc]
    by_cases h0 : T.length = 0
    · rw [h0]
      show 0 < _
      omega
    · obtain ⟨k, hk⟩ : ∃ k, T.length = k + 1 := ⟨T.length - 1, by omega⟩
      rw [hk, hshift]
      have hd : T.dropLast.length = k := by rw [List.length_dropLast]; omega
      rw [← hd, cum_sum _ (fun l => onWire false (lineSize l)) T.dropLast]
      · exact hl2
      · intro i l hi
        rw [List.dropLast_eq_take, List.getElem?_take] at hi
        split at hi
        · show (lens lines).down (i + 1) = _
          rw [lens_down_eq, hat i l hi]
        · cases hi

/-- They are not stuck when little is said: if the frames of the lines before "/close" are shorter than the network's room and the sink's bound of 8192 bytes together, or
the greeting fits in the network and the frames of the greeting and of the answers to all of those lines but the last are shorter than that, then both come to an end. The
full claim, that they always do, does not hold: see `C77_refuted_never_ends`. -/
theorem C77_ends_partial (lines : List Bytes) (cdf cmsg sdf smsg : Nat) (hs : Suiting lines (min cdf u32Max) (min sdf u32Max)) (ckeys skeys : Nat → Key4)
    (cx sx : Nat) (r : Room) (hru : 0 < r.up) (hrd : 0 < r.down) (f : Nat → Move) (hf : FairMoves f) (hc : ascii "/close" ∈ lines.map trim)
    (hl : (((lines.map trim).takeWhile (· ≠ ascii "/close")).map fun l => onWire true (lineSize l)).sum < 8192 + r.up ∨
      14 ≤ r.down ∧ 14 + (((lines.map trim).takeWhile (· ≠ ascii "/close")).dropLast.map fun l => onWire false (lineSize l)).sum < 8192 + r.down) :
    ∃ n, ∀ m, n ≤ m → ((Tandem.start lines cdf cmsg sdf smsg ckeys skeys cx sx).run r ((List.range m).map f)).Complete lines := by
  obtain ⟨n, hn⟩ := C77_ends_or_stuck lines cdf cmsg sdf smsg hs ckeys skeys cx sx r hru hrd f hf hc
  refine ⟨n, fun m hm => (hn m hm).resolve_right fun hst => ?_⟩
  obtain ⟨bu, bd, h, -⟩ := tandem_along hs f m (tandem_start lines cdf cmsg sdf smsg ckeys skeys cx sx r)
  exact tandem_little h hc hl hst

theorem tandem_stays {lines : List Bytes} {cdf cmsg sdf smsg : Nat} (hs : Suiting lines (min cdf u32Max) (min sdf u32Max)) {r : Room} {x : Tandem} {bu bd : List Bytes}
    (hx : TandemInv lines cdf cmsg sdf smsg r x bu bd) (fs : List Move) (h : x.Stuck r) :
    (x.run r fs).Stuck r ∧ (x.run r fs).server.heard = x.server.heard ∧ (x.run r fs).chat.seen = x.chat.seen ∧ (x.run r fs).chat.phase.isOver = false ∧
      (x.run r fs).server.phase.isOver = false := by
  have hj := (stuck_iff hx).mp h
  obtain ⟨bu', bd', hy', -⟩ := tandem_run hs fs hx
  obtain ⟨s1, s2, s3⟩ := stuck_run hs fs hx hj
  generalize x.run r fs = y at *
  have s2' : y.server.heard.length = x.server.heard.length := s2
  refine ⟨(stuck_iff hy').mpr s1, by rw [hx.heard, hy'.heard, s2'], seen_same hx hy' s3, ?_, ?_⟩
  · rw [isOver_iff, decide_eq_false_iff_not]
    intro ho
    have h1 := s1.1
    have ho' : y.count.cphase = .over := ho
    rw [h1] at ho'
    cases ho'
  · rw [serveOver_iff, decide_eq_false_iff_not]
    intro ho
    have ho' : y.count.sphase = .over := ho
    rcases s1.2.2.2.2 with h1 | h1 <;> rw [h1.1] at ho' <;> cases ho'

/-- Nothing helps: once the two are stuck they stay stuck whatever happens; nothing more is heard and nothing more is seen, and neither ends. -/
theorem C77_stuck_forever (lines : List Bytes) (cdf cmsg sdf smsg : Nat) (hs : Suiting lines (min cdf u32Max) (min sdf u32Max)) (ckeys skeys : Nat → Key4)
    (cx sx : Nat) (r : Room) (es fs : List Move) (h : ((Tandem.start lines cdf cmsg sdf smsg ckeys skeys cx sx).run r es).Stuck r) :
    let x := (Tandem.start lines cdf cmsg sdf smsg ckeys skeys cx sx).run r es
    let y := (Tandem.start lines cdf cmsg sdf smsg ckeys skeys cx sx).run r (es ++ fs)
    y.Stuck r ∧ y.server.heard = x.server.heard ∧ y.chat.seen = x.chat.seen ∧ y.chat.phase.isOver = false ∧ y.server.phase.isOver = false := by
  intro x y
  obtain ⟨bu, bd, hx, -⟩ := tandem_run hs es (tandem_start lines cdf cmsg sdf smsg ckeys skeys cx sx r)
  have hy : y = x.run r fs := tandem_run_append r _ es fs
  rw [hy]
  exact tandem_stays hs hx fs h

theorem tandem_jams {lines : List Bytes} {cdf cmsg sdf smsg : Nat} (hs : Suiting lines (min cdf u32Max) (min sdf u32Max)) {r : Room} {x : Tandem} {bu bd : List Bytes}
    (hru : 0 < r.up) (hrd : 0 < r.down) (hx : TandemInv lines cdf cmsg sdf smsg r x bu bd) (hc : ascii "/close" ∉ lines.map trim) : ∃ fs, (x.run r fs).Stuck r := by
  have hlast : ∀ i, (lens lines).last i = false := by
    intro i
    show (asks lines i).isClose = false
    cases hcl : (asks lines i).isClose with
    | false => rfl
    | true =>
      rw [asks_close, lineAt_eq] at hcl
      exfalso
      apply hc
      cases hl : (lines.map trim)[i]? with
      | none => rw [hl] at hcl; exact absurd hcl (by decide)
      | some l => rw [hl] at hcl; exact List.mem_of_getElem? (by rw [hl]; exact congrArg some hcl)
  obtain ⟨fs, hfs⟩ := tandem_slow hs hru hrd hx (fun t => by simp [Count.gone, hlast])
  obtain ⟨bu', bd', hy, -⟩ := tandem_run hs fs hx
  exact ⟨fs, (stuck_iff hy).mpr hfs⟩

/-- As long as no line asks to leave it can always happen: whatever room the network has and however far the two have come, some way to go on gets them stuck. -/
theorem C77_can_get_stuck (lines : List Bytes) (cdf cmsg sdf smsg : Nat) (hs : Suiting lines (min cdf u32Max) (min sdf u32Max)) (ckeys skeys : Nat → Key4)
    (cx sx : Nat) (r : Room) (hru : 0 < r.up) (hrd : 0 < r.down) (hc : ascii "/close" ∉ lines.map trim) (es : List Move) :
    ∃ fs, ((Tandem.start lines cdf cmsg sdf smsg ckeys skeys cx sx).run r (es ++ fs)).Stuck r := by
  obtain ⟨bu, bd, hx, -⟩ := tandem_run hs es (tandem_start lines cdf cmsg sdf smsg ckeys skeys cx sx r)
  obtain ⟨fs, hfs⟩ := tandem_jams hs hru hrd hx hc
  exact ⟨fs, by rw [tandem_run_append]; exact hfs⟩

/-- Empty lines, and then the one that asks to leave. -/
def manyLines (N : Nat) : List Bytes := List.replicate N (ascii "\n") ++ [ascii "/close\n"]

theorem many_suit (N : Nat) {cdf sdf : Nat} (hcdf : 12 ≤ cdf) (hsdf : 7 ≤ sdf) : Suiting (manyLines N) (min cdf u32Max) (min sdf u32Max) := by
  generalize hlines : manyLines N = lines
  unfold manyLines at hlines
  have hmem : ∀ l ∈ lines, l = ascii "\n" ∨ l = ascii "/close\n" := by
    intro l hl
    rw [← hlines, List.mem_append, List.mem_replicate, List.mem_singleton] at hl
    exact hl.imp And.right id
  have h32 : 12 ≤ u32Max := by decide
  have hsend : ∀ lim, 7 ≤ lim → ∀ l ∈ lines, (Message.text l).Sendable lim := by
    intro lim hlim l hl
    rcases hmem l hl with rfl | rfl
    · exact ⟨isUtf8_ascii (by decide), Nat.le_trans (by decide) hlim⟩
    · exact ⟨isUtf8_ascii (by decide), hlim⟩
  exact ⟨hsend _ (by omega), hsend _ (by omega), by omega⟩

theorem many_jam {N : Nat} {cdf cmsg sdf smsg : Nat} (hcdf : 12 ≤ cdf) (hsdf : 7 ≤ sdf) {r : Room} (hru : 0 < r.up) (hrd : 0 < r.down) {x : Tandem} {bu bd : List Bytes}
    (h0 : TandemInv (manyLines N) cdf cmsg sdf smsg r x bu bd) {R : Nat} (hR : x.count.read ≤ R)
    (hN : 4 * (R + r.down + 8192 + 1) + 6 * (6 * (R + r.down + 8192 + 2) + 2 * r.up + 8192 + 3) + 50 ≤ N) : ∃ es, (x.run r es).Stuck r := by
  have hs := many_suit N hcdf hsdf
  generalize hlines : manyLines N = lines at *
  unfold manyLines at hlines
  have t1 : trim (ascii "\n") = [] := by decide +kernel
  have t2 : trim (ascii "/close\n") = ascii "/close" := by decide +kernel
  have hat : ∀ i, lineAt lines i = [] ∨ lineAt lines i = ascii "/close" ∧ i = N := by
    intro i
    unfold lineAt
    rw [← hlines, List.getElem?_append, List.length_replicate]
    by_cases hi : i < N
    · rw [if_pos hi, List.getElem?_replicate, if_pos hi]
      exact .inl t1
    · rw [if_neg hi]
      by_cases hi' : i = N
      · subst hi'
        rw [Nat.sub_self]
        exact .inr ⟨t2, rfl⟩
      · rw [List.getElem?_eq_none (by simp; omega)]
        exact .inl trim_nil
  have hup : ∀ i, (lens lines).up i = 6 := by
    intro i
    rw [lens_up_eq]
    rcases hat i with h | ⟨h, -⟩ <;> rw [h] <;> decide
  have hcum : ∀ k, cum (lens lines).up k = 6 * k := by
    intro k
    induction k with
    | zero => rfl
    | succ k ih => simp only [cum, ih, hup]; omega
  have hlast : ∀ i, (lens lines).last i = true → i = N := by
    intro i hi
    have hi' : (asks lines i).isClose = true := hi
    rw [asks_close] at hi'
    rcases hat i with h | ⟨-, h⟩
    · rw [h] at hi'; exact absurd hi' (by decide)
    · exact h
  obtain ⟨es, hes⟩ := tandem_slow hs hru hrd h0 (fun t => by
    cases hg : (x.count.along (lens lines) r Count.slow t).gone (lens lines) with
    | false => rfl
    | true =>
      obtain ⟨g1, g2⟩ := Count.sane_gone_typed hg
      have g3 := hlast _ g2
      have hp := (Count.sane_along h0.sane Count.slow t).pot_little (lens_up_pos lines) (lens_down_pos lines) (Nat.le_trans (Nat.le_of_eq (Count.slow_read t)) hR)
      rw [hcum] at hp
      have ht : (x.count.along (lens lines) r Count.slow t).typed ≤ (x.count.along (lens lines) r Count.slow t).pot := by
        simp only [Count.pot]; omega
      omega)
  obtain ⟨bu, bd, hx, -⟩ := tandem_run hs es h0
  exact ⟨es, (stuck_iff hx).mpr hes⟩

/-- The claim that both always come to an end when a line asks to leave is false: whatever room the network has, some number of empty lines and then "/close" can get the
two stuck, and then they never end, whatever happens. -/
theorem C77_refuted_never_ends (cdf cmsg sdf smsg : Nat) (hcdf : 12 ≤ cdf) (hsdf : 7 ≤ sdf) (ckeys skeys : Nat → Key4) (cx sx : Nat) (r : Room) (hru : 0 < r.up) (hrd : 0 < r.down) :
    ∃ N es, ∀ fs,
      let x := (Tandem.start (List.replicate N (ascii "\n") ++ [ascii "/close\n"]) cdf cmsg sdf smsg ckeys skeys cx sx).run r (es ++ fs)
      x.Stuck r ∧ x.chat.phase.isOver = false ∧ x.server.phase.isOver = false := by
  obtain ⟨N, hN⟩ : ∃ N, 4 * (0 + r.down + 8192 + 1) + 6 * (6 * (0 + r.down + 8192 + 2) + 2 * r.up + 8192 + 3) + 50 ≤ N := ⟨_, Nat.le_refl _⟩
  obtain ⟨es, hes⟩ := many_jam hcdf hsdf hru hrd (tandem_start (manyLines N) cdf cmsg sdf smsg ckeys skeys cx sx r) (R := 0) (Nat.le_refl _) hN
  refine ⟨N, es, fun fs => ?_⟩
  have := C77_stuck_forever _ cdf cmsg sdf smsg (many_suit _ hcdf hsdf) ckeys skeys cx sx r es fs hes
  exact ⟨this.1, this.2.2.2.1, this.2.2.2.2⟩

/-! ## A concrete case -/

theorem liveLines_suit : Suiting liveLines (min 200 u32Max) (min 200 u32Max) := ⟨liveLines_fit.up, liveLines_fit.down, by decide⟩

/-- Everybody in turn, three bytes at a time. -/
def taskTurns (n : Nat) : Move := if n % 3 = 0 then .type else if n % 3 = 1 then .chat 3 3 else .serve 3 3

theorem taskTurns_fair : FairMoves taskTurns := by
  intro n
  refine ⟨⟨3 * n, by omega, ?_⟩, ⟨3 * n + 1, 2, 2, by omega, ?_⟩, 3 * n + 2, 2, 2, by omega, ?_⟩
  · unfold taskTurns; rw [if_pos (by omega)]
  · unfold taskTurns; rw [if_neg (by omega), if_pos (by omega)]
  · unfold taskTurns; rw [if_neg (by omega), if_neg (by omega)]

def taskStart : Tandem := Tandem.start liveLines 200 200 200 200 (fun n => ⟨UInt8.ofNat n, 1, 2, 3⟩) (fun _ => ⟨0, 0, 0, 0⟩) 0 7

def Tandem.summary (x : Tandem) : Bool × Bool × List OwnedMsg × List OwnedMsg := (x.chat.phase.isOver, x.server.phase.isOver, x.server.heard, x.chat.seen)

/-- With room for one byte each way. -/
example : ((taskStart.run ⟨1, 1⟩ ((List.range 500).map taskTurns)).summary : Bool × Bool × List OwnedMsg × List OwnedMsg) =
    (true, true, [.text (ascii "hi"), .ping (ascii "PING"), .close none],
      [.text (ascii "Hello World!"), .text (ascii "hi"), .pong (ascii "PING"), .close none]) := by decide +kernel

example := C77_safe liveLines 200 200 200 200 liveLines_suit (fun n => ⟨UInt8.ofNat n, 1, 2, 3⟩) (fun _ => ⟨0, 0, 0, 0⟩) 0 7 ⟨1, 1⟩
  [.serve 0 1, .type, .chat 0 0, .chat 5 5, .serve 3 9, .type, .chat 100 2]
example := C77_says liveLines 200 200 200 200 liveLines_suit (fun n => ⟨UInt8.ofNat n, 1, 2, 3⟩) (fun _ => ⟨0, 0, 0, 0⟩) 0 7 ⟨1, 1⟩
  [.serve 0 1, .type, .chat 0 0, .chat 5 5, .serve 3 9, .type, .chat 100 2]
example := C77_answered_or_stuck liveLines 200 200 200 200 liveLines_suit (fun n => ⟨UInt8.ofNat n, 1, 2, 3⟩) (fun _ => ⟨0, 0, 0, 0⟩) 0 7 ⟨1, 1⟩
  (by decide) (by decide) taskTurns taskTurns_fair 3 (by decide +kernel)
example := C77_ends_or_stuck liveLines 200 200 200 200 liveLines_suit (fun n => ⟨UInt8.ofNat n, 1, 2, 3⟩) (fun _ => ⟨0, 0, 0, 0⟩) 0 7 ⟨1, 1⟩
  (by decide) (by decide) taskTurns taskTurns_fair (by decide +kernel)
example := C77_ends_partial liveLines 200 200 200 200 liveLines_suit (fun n => ⟨UInt8.ofNat n, 1, 2, 3⟩) (fun _ => ⟨0, 0, 0, 0⟩) 0 7 ⟨1, 1⟩
  (by decide) (by decide) taskTurns taskTurns_fair (by decide +kernel) (.inl (by decide +kernel))

theorem quietLines_suit : Suiting [ascii "hi\n"] (min 200 u32Max) (min 200 u32Max) := by
  have : ∀ l ∈ [ascii "hi\n"], (Message.text l).Sendable 200 := by
    intro l hl
    simp only [List.mem_singleton] at hl
    subst hl
    exact ⟨isUtf8_ascii (by decide), by decide⟩
  exact ⟨this, this, by decide⟩

example := C77_can_get_stuck [ascii "hi\n"] 200 200 200 200 quietLines_suit (fun n => ⟨UInt8.ofNat n, 1, 2, 3⟩) (fun _ => ⟨0, 0, 0, 0⟩) 0 7 ⟨65536, 1⟩
  (by decide) (by decide) (by decide +kernel) [.type, .chat 5 5, .serve 3 9]

/-- The stuck state that `C77_stuck_forever` speaks of is there. -/
example : ∃ es, ∀ fs, ((Tandem.start [ascii "hi\n"] 200 200 200 200 (fun n => ⟨UInt8.ofNat n, 1, 2, 3⟩) (fun _ => ⟨0, 0, 0, 0⟩) 0 7).run ⟨65536, 1⟩ (es ++ fs)).Stuck ⟨65536, 1⟩ := by
  obtain ⟨es, h⟩ := C77_can_get_stuck [ascii "hi\n"] 200 200 200 200 quietLines_suit (fun n => ⟨UInt8.ofNat n, 1, 2, 3⟩) (fun _ => ⟨0, 0, 0, 0⟩) 0 7 ⟨65536, 1⟩
    (by decide) (by decide) (by decide +kernel) []
  exact ⟨es, fun fs => (C77_stuck_forever [ascii "hi\n"] 200 200 200 200 quietLines_suit (fun n => ⟨UInt8.ofNat n, 1, 2, 3⟩) (fun _ => ⟨0, 0, 0, 0⟩) 0 7 ⟨65536, 1⟩ es fs h).1⟩

example := C77_refuted_never_ends 200 200 200 200 (by decide) (by decide) (fun n => ⟨UInt8.ofNat n, 1, 2, 3⟩) (fun _ => ⟨0, 0, 0, 0⟩) 0 7 ⟨65536, 65536⟩ (by decide) (by decide)

end WS
