import Verif.Spec.Live
import Verif.Lemmas.Chat
import Verif.Lemmas.Dialogue
/-!
# Lemmas: the chat client and the example server, side by side
-/

namespace WS
open Spec

/-! ## One direction -/

/-- `n` messages of `said` have been written, in the frames `bss`; `k` have been heard. -/
structure Pipe (mask : Bool) (said : Nat → OwnedMsg) (n k : Nat) (bss : List Bytes) (wire : Bytes) (carried : Nat) (arrived : Src) : Prop where
  count : bss.length = n
  frames : ∀ (i : Nat) b, bss[i]? = some b → Wire mask [(said i).view.spec] b
  base : ∃ base, wire = base ++ bss.flatten ∧ base.length ≤ carried
  inside : carried ≤ wire.length
  clean : arrived.Clean
  pend : arrived.flat ++ wire.drop carried = (bss.drop k).flatten
  le : k ≤ n

theorem Pipe.say {mask said n k bss wire carried arrived} (h : Pipe mask said n k bss wire carried arrived) {b : Bytes}
    (hb : Wire mask [(said n).view.spec] b) : Pipe mask said (n + 1) k (bss ++ [b]) (wire ++ b) carried arrived := by
  have hk : k ≤ bss.length := by rw [h.count]; exact h.le
  refine ⟨by simp [h.count], ?_, ?_, by rw [List.length_append]; have := h.inside; omega, h.clean, ?_, by have := h.le; omega⟩
  · intro i x hx
    rw [List.getElem?_append] at hx
    split at hx
    · exact h.frames i x hx
    · next hi =>
      cases hq : i - bss.length with
      | zero =>
        rw [hq] at hx
        simp only [List.getElem?_cons_zero, Option.some.injEq] at hx
        have : i = n := by rw [← h.count]; omega
        rw [this, ← hx]
        exact hb
      | succ q => rw [hq] at hx; simp at hx
  · obtain ⟨base, h1, h2⟩ := h.base
    exact ⟨base, by rw [h1]; simp, h2⟩
  · rw [List.drop_append_of_le_length h.inside, ← List.append_assoc, h.pend, List.drop_append_of_le_length hk]
    simp

theorem Pipe.carry {mask said n k bss wire carried arrived} (h : Pipe mask said n k bss wire carried arrived) (c : Nat) (hne : wire.drop carried ≠ []) :
    Pipe mask said n k bss wire (carried + ((wire.drop carried).take (c + 1)).length) (arrived ++ [.chunk ((wire.drop carried).take (c + 1))]) := by
  have hl : 0 < (wire.drop carried).length := List.length_pos_iff.mpr hne
  rw [List.length_drop] at hl
  refine ⟨h.count, h.frames, ?_, ?_, ?_, ?_, h.le⟩
  · obtain ⟨base, h1, h2⟩ := h.base
    exact ⟨base, h1, by omega⟩
  · rw [List.length_take, List.length_drop]; omega
  · refine clean_snoc h.clean fun h0 => ?_
    have := congrArg List.length h0
    rw [List.length_take, List.length_drop, List.length_nil] at this
    omega
  · rw [flat_snoc, ← h.pend, List.append_assoc]
    congr 1
    rw [← List.drop_drop]
    conv => rhs; rw [← List.take_append_drop (c + 1) (wire.drop carried)]
    congr 1
    rw [List.length_take]
    by_cases hq : c + 1 ≤ (wire.drop carried).length
    · rw [Nat.min_eq_left hq]
    · rw [Nat.min_eq_right (by omega), List.drop_of_length_le (Nat.le_refl _), List.drop_of_length_le (by omega)]

/-- The rest, when `j` frames are left out. -/
def later (j : Nat) (bss : List Bytes) : Nat := (bss.drop j).flatten.length

theorem later_snoc_of_le {j : Nat} {bss : List Bytes} (b : Bytes) (h : j ≤ bss.length) : later j (bss ++ [b]) = later j bss + b.length := by
  unfold later
  rw [List.drop_append_of_le_length h]
  simp

theorem later_mono {i j : Nat} (h : i ≤ j) (bss : List Bytes) : later j bss ≤ later i bss := by
  unfold later
  obtain ⟨d, rfl⟩ := Nat.le.dest h
  rw [← List.drop_drop]
  conv => rhs; rw [← List.take_append_drop d (bss.drop i)]
  simp

theorem Pipe.transit_le {mask said n k bss wire carried arrived} (h : Pipe mask said n k bss wire carried arrived) :
    (wire.drop carried).length ≤ later k bss := by
  unfold later
  rw [← h.pend, List.length_append]
  omega

theorem Pipe.quiet {mask said n bss wire carried arrived} (h : Pipe mask said n n bss wire carried arrived) :
    wire.drop carried = [] ∧ arrived.flat = [] := by
  have := h.pend
  rw [List.drop_of_length_le (l := bss) (by rw [h.count]; omega), List.flatten_nil, List.append_eq_nil_iff] at this
  exact ⟨this.2, this.1⟩

/-- There is something to hear: it is heard, or not all of it has arrived. -/
theorem Pipe.hear {mask said n k bss wire carried arrived} (h : Pipe mask said n k bss wire carried arrived) (hk : k < n) (maxDf maxMsg : Nat)
    (hs : (said k).spec.Sendable (min maxDf u32Max)) :
    (∃ s', (Receiver.newWithLimits mask maxDf maxMsg).recvMessage arrived = (.ok (said k), Receiver.newWithLimits mask maxDf maxMsg, s') ∧
      Pipe mask said n (k + 1) bss wire carried s') ∨
    (((Receiver.newWithLimits mask maxDf maxMsg).recvMessage arrived).1 = .err .noData ∧ later (k + 1) bss < (wire.drop carried).length) := by
  have hkb : k < bss.length := by rw [h.count]; exact hk
  have hw := h.frames k bss[k] (List.getElem?_eq_getElem hkb)
  have hp := h.pend
  rw [List.drop_eq_getElem_cons hkb, List.flatten_cons] at hp
  rcases front_or_cut hp with ⟨y, hy, hyx⟩ | ⟨hl, z, hz, hzn⟩
  · left
    obtain ⟨s', h1, h2⟩ := receive_blocking mask maxDf maxMsg [said k] (by simpa using hs) hw y arrived h.clean hy
    have hr := Nat.le_trans (Receiver.wf_new mask maxDf maxMsg).1 (show u32Max ≤ isizeMax by decide)
    obtain ⟨s2, g1, g2, -⟩ := recvMessage_clean _ hr arrived h.clean
    have e : (Receiver.newWithLimits mask maxDf maxMsg).recvMessage arrived = (.ok (said k), Receiver.newWithLimits mask maxDf maxMsg, s') := by
      simpa [Receiver.recvMany, Prod.ext_iff] using h1
    have hs' : s'.Clean := by
      rw [e] at g2
      simp only [Prod.mk.injEq] at g2
      rw [g2.2.2]; exact g1
    exact ⟨s', e, h.count, h.frames, h.base, h.inside, hs', by rw [h2, hyx], hk⟩
  · right
    obtain ⟨s', h1, -⟩ := recv_cut (maxMsg := maxMsg) h.clean (truncated_of_wire hs hw hz hzn)
    refine ⟨by rw [h1], ?_⟩
    have := congrArg List.length hp
    rw [List.length_append, List.length_append] at this
    unfold later
    omega

theorem Pipe.wait {mask said n bss wire carried arrived} (h : Pipe mask said n n bss wire carried arrived) (maxDf maxMsg : Nat) :
    ((Receiver.newWithLimits mask maxDf maxMsg).recvMessage arrived).1 = .err .noData := by
  obtain ⟨s', h1, -⟩ := recv_cut (mask := mask) (maxDf := maxDf) (maxMsg := maxMsg) h.clean (h.quiet.2 ▸ truncated_nil mask (min maxDf u32Max))
  rw [h1]

/-! ## What is said -/

/-- The message for a line. -/
def lineSaid (l : Bytes) : OwnedMsg := (lineMessage l).getD (.close none)

/-- The line the main thread reads after `i` others. -/
def lineAt (lines : List Bytes) (i : Nat) : Bytes := trim (lines[i]?.getD [])

def asks (lines : List Bytes) (i : Nat) : OwnedMsg := lineSaid (lineAt lines i)

/-- What the server sends for a message. -/
def sentBack : OwnedMsg → OwnedMsg
  | .close _ => .close none
  | .ping d => .pong d
  | m => m

def replies (lines : List Bytes) : Nat → OwnedMsg
  | 0 => .text (ascii "Hello")
  | i + 1 => sentBack (asks lines i)

theorem lineSaid_spec (l : Bytes) : (lineSaid l).spec = lineSays l := by
  unfold lineSaid
  cases h : lineMessage l with
  | none => rw [(lineMessage_none h).2]; rfl
  | some m => exact (lineMessage_some h).2.1

theorem lineSaid_close (l : Bytes) : (lineSaid l).isClose = true ↔ l = ascii "/close" := by
  unfold lineSaid
  cases h : lineMessage l with
  | none => simp [(lineMessage_none h).1, OwnedMsg.isClose]
  | some m => simp [(lineMessage_some h).1, (lineMessage_some h).2.2]

theorem lineMessage_cases (l : Bytes) : (lineMessage l = none ∧ (lineSaid l).isClose = true ∧ lineSaid l = .close none) ∨
    (lineMessage l = some (lineSaid l) ∧ (lineSaid l).isClose = false) := by
  unfold lineSaid
  cases h : lineMessage l with
  | none => exact .inl ⟨rfl, rfl, rfl⟩
  | some m => exact .inr ⟨rfl, (lineMessage_some h).2.2⟩

theorem sentBack_close (m : OwnedMsg) : (sentBack m).isClose = m.isClose := by
  cases m <;> rfl

theorem sentBack_spec (m : OwnedMsg) : (sentBack m).spec = m.spec.back := by
  cases m with
  | close d => cases d <;> rfl
  | _ => rfl

theorem asks_sendable {lim : Nat} {lines : List Bytes} (h : ∀ l ∈ lines, (Message.text l).Sendable lim) (i : Nat) : (asks lines i).spec.Sendable lim := by
  unfold asks
  rw [lineSaid_spec]
  have ht : (Message.text (lineAt lines i)).Sendable lim := by
    unfold lineAt
    cases hi : lines[i]? with
    | none => exact ⟨isUtf8_ascii (by rw [Option.getD_none, trim_nil]; decide), by rw [Option.getD_none, trim_nil]; exact Nat.zero_le _⟩
    | some l => exact sendable_trim (h l (List.mem_of_getElem? hi))
  unfold lineSays
  split
  · trivial
  · split
    · next hl =>
      rw [hl] at ht
      exact ⟨by decide, Nat.le_trans (by decide) ht.2⟩
    · exact ht

theorem replies_sendable {lim : Nat} {lines : List Bytes} (h : ∀ l ∈ lines, (Message.text l).Sendable lim) (h5 : 5 ≤ lim) (i : Nat) :
    (replies lines i).spec.Sendable lim := by
  cases i with
  | zero => exact ⟨isUtf8_ascii (by decide), h5⟩
  | succ i =>
    have := asks_sendable h i
    simp only [replies]
    cases hm : asks lines i with
    | close d => trivial
    | ping d => rw [hm] at this; exact this
    | pong d => rw [hm] at this; exact this
    | text d => rw [hm] at this; exact this
    | binary d => rw [hm] at this; exact this

/-! ## The invariant -/

/-- Nobody has asked to leave so far. -/
def Stays (lines : List Bytes) (n : Nat) : Prop := ∀ i < n, (asks lines i).isClose = false

theorem Stays.mono {lines : List Bytes} {m n : Nat} (h : Stays lines n) (hm : m ≤ n) : Stays lines m := fun i hi => h i (by omega)

theorem Stays.succ {lines : List Bytes} {n : Nat} : Stays lines (n + 1) ↔ Stays lines n ∧ (asks lines n).isClose = false := by
  constructor
  · exact fun h => ⟨h.mono (by omega), h n (by omega)⟩
  · intro ⟨h, hn⟩ i hi
    by_cases hq : i = n
    · rw [hq]; exact hn
    · exact h i (by omega)

/-- The same for what the server says. -/
def Hangs (lines : List Bytes) (n : Nat) : Prop := ∀ i < n, (replies lines i).isClose = false

theorem Hangs.succ {lines : List Bytes} {n : Nat} : Hangs lines (n + 1) ↔ Hangs lines n ∧ (replies lines n).isClose = false := by
  constructor
  · exact fun h => ⟨fun i hi => h i (by omega), h n (by omega)⟩
  · intro ⟨h, hn⟩ i hi
    by_cases hq : i = n
    · rw [hq]; exact hn
    · exact h i (by omega)

theorem hangs_of_stays {lines : List Bytes} {n : Nat} (h : Stays lines n) : Hangs lines (n + 1) := by
  intro i hi
  cases i with
  | zero => rfl
  | succ i => simp only [replies]; rw [sentBack_close]; exact h i (by omega)

structure DuoInv (lines : List Bytes) (cr sr : Receiver) (x : Duo) (bu bd : List Bytes) : Prop where
  left : x.chat.lines = lines.drop x.chat.typed.length
  typed : x.chat.typed = (List.range x.chat.typed.length).map (lineAt lines)
  taken : x.chat.taken = (List.range x.chat.taken.length).map (asks lines)
  channel : x.chat.talking = true → x.chat.channel = ((List.range x.chat.typed.length).drop x.chat.taken.length).map (asks lines)
  ahead : x.chat.taken.length ≤ x.chat.typed.length
  before : ∀ n, n < x.chat.typed.length → Stays lines n
  typing : x.chat.typing = true ↔ Stays lines x.chat.typed.length
  talking : x.chat.talking = true ↔ Stays lines x.chat.taken.length
  heard : x.server.heard = (List.range x.server.heard.length).map (asks lines)
  ending : (Stays lines x.server.heard.length ∧ x.server.ending = none) ∨ (¬Stays lines x.server.heard.length ∧ x.server.ending = some .returned)
  greeted : x.server.greeted = false → x.server.heard = []
  seen : x.chat.heard = (List.range x.chat.heard.length).map fun i => .ok (replies lines i)
  listening : x.chat.listening = true ↔ Hangs lines x.chat.heard.length
  receiver : x.chat.receiver = cr
  receiver' : x.server.receiver = sr
  up : Pipe true (asks lines) x.chat.taken.length x.server.heard.length bu x.chat.writer.stream.wire x.up x.server.input
  down : Pipe false (replies lines) (x.server.greeted.toNat + x.server.heard.length) x.chat.heard.length bd x.server.writer.stream.wire x.down x.chat.input
  writer : x.chat.writer.sender.mask = true ∧ x.chat.writer.stream.Willing
  writer' : x.server.writer.sender.mask = false ∧ x.server.writer.stream.Willing
  ended : x.server.ended = false
  cut : x.cut = true → x.server.ending.isSome = true ∧ x.downTransit = []

/-- How far everything has come, as far as the first `j` lines go. -/
structure Tally where
  typed : Nat
  taken : Nat
  greeted : Nat
  heard : Nat
  seen : Nat
  up : Nat
  down : Nat

def Duo.tally (j : Nat) (x : Duo) (bu bd : List Bytes) : Tally :=
  ⟨x.chat.typed.length, x.chat.taken.length, x.server.greeted.toNat, x.server.heard.length, x.chat.heard.length, x.upTransit.length - later j bu,
    x.downTransit.length - later (j + 1) bd⟩

/-- What one step can do. -/
inductive Tally.Goes (j : Nat) (a : Tally) : Tally → Prop
  | same : Goes j a a
  | types : Goes j a { a with typed := a.typed + 1 }
  | takes (u : Nat) : (j ≤ a.taken → u = a.up) → Goes j a { a with taken := a.taken + 1, up := u }
  | greets (u : Nat) : a.greeted = 0 → Goes j a { a with greeted := 1, down := u }
  | hears (u : Nat) : a.greeted = 1 → (j ≤ a.heard → u = a.down) → Goes j a { a with heard := a.heard + 1, down := u }
  | sees : Goes j a { a with seen := a.seen + 1 }
  | up (u : Nat) : u ≤ a.up → (0 < a.up → u < a.up) → Goes j a { a with up := u }
  | down (u : Nat) : u ≤ a.down → (0 < a.down → u < a.down) → Goes j a { a with down := u }

theorem range_snoc_map {α} (f : Nat → α) {xs : List α} (h : xs = (List.range xs.length).map f) :
    xs ++ [f xs.length] = (List.range (xs ++ [f xs.length]).length).map f := by
  rw [List.length_append, List.length_singleton, List.range_succ, List.map_append, ← h]
  rfl

theorem range_drop_map {α} (f : Nat → α) {n k : Nat} (h : k < n) :
    ((List.range n).drop k).map f = f k :: ((List.range n).drop (k + 1)).map f := by
  rw [List.drop_eq_getElem_cons (by simpa using h)]
  simp

theorem range_drop_snoc {α} (f : Nat → α) {n k : Nat} (h : k ≤ n) :
    ((List.range n).drop k).map f ++ [f n] = ((List.range (n + 1)).drop k).map f := by
  rw [List.range_succ, List.drop_append_of_le_length (by simpa using h), List.map_append]
  rfl

theorem duo_main {lines cr sr x bu bd} (h : DuoInv lines cr sr x bu bd) :
    DuoInv lines cr sr { x with chat := x.chat.mainTurn } bu bd ∧ ∀ j,
      Tally.Goes j (x.tally j bu bd) (Duo.tally j { x with chat := x.chat.mainTurn } bu bd) ∧
        (x.chat.typing = true → (Duo.tally j { x with chat := x.chat.mainTurn } bu bd).typed = (x.tally j bu bd).typed + 1) := by
  by_cases ht : x.chat.typing = true
  case neg =>
    have e : x.chat.mainTurn = x.chat := by unfold Chat.mainTurn; rw [if_neg ht]
    rw [e]
    exact ⟨h, fun j => ⟨.same, fun q => absurd q ht⟩⟩
  case pos =>
    have hst := h.typing.mp ht
    have hta : x.chat.talking = true := h.talking.mpr (hst.mono h.ahead)
    have hline : trim (x.chat.lines.headD []) = lineAt lines x.chat.typed.length := by
      rw [h.left]
      unfold lineAt
      congr 1
      rw [List.headD_eq_head?_getD, List.head?_drop]
    obtain ⟨lg, e⟩ : ∃ lg, x.chat.mainTurn = { x.chat with
        lines := x.chat.lines.tail, typed := x.chat.typed ++ [lineAt lines x.chat.typed.length], channel := x.chat.channel ++ [asks lines x.chat.typed.length],
        log := lg, typing := !(asks lines x.chat.typed.length).isClose } := by
      unfold Chat.mainTurn
      rw [if_pos ht]
      simp only [hline]
      unfold asks
      rcases lineMessage_cases (lineAt lines x.chat.typed.length) with ⟨e1, e2, e3⟩ | ⟨e1, e2⟩
      · rw [e1, e2, e3]
        simp only [Chat.put, hta, if_true]
        exact ⟨_, rfl⟩
      · rw [e1, e2]
        simp only [Chat.put, hta, if_true, Bool.not_false]
        exact ⟨x.chat.log ++ [(.main, lineSaid (lineAt lines x.chat.typed.length))], by simp only [Chat.mk.injEq, ht, and_self]⟩
    rw [e]
    refine ⟨?_, fun j => ⟨?_, fun _ => by simp [Duo.tally]⟩⟩
    · exact {
        left := by simp only [List.length_append, List.length_singleton, h.left, List.tail_drop]
        typed := range_snoc_map (lineAt lines) h.typed
        taken := h.taken
        channel := fun q => by
          simp only [List.length_append, List.length_singleton]
          rw [h.channel hta, range_drop_snoc _ h.ahead]
        ahead := by have := h.ahead; simp only [List.length_append, List.length_singleton]; omega
        before := by
          intro n hn
          simp only [List.length_append, List.length_singleton] at hn
          exact hst.mono (by omega)
        typing := by
          simp only [List.length_append, List.length_singleton]
          rw [Stays.succ]
          simp [hst]
        talking := h.talking
        heard := h.heard
        ending := h.ending
        greeted := h.greeted
        seen := h.seen
        listening := h.listening
        receiver := h.receiver
        receiver' := h.receiver'
        up := h.up
        down := h.down
        writer := h.writer
        writer' := h.writer'
        ended := h.ended
        cut := h.cut }
    · have : Duo.tally j { x with chat := { x.chat with
        lines := x.chat.lines.tail, typed := x.chat.typed ++ [lineAt lines x.chat.typed.length], channel := x.chat.channel ++ [asks lines x.chat.typed.length],
        log := lg, typing := !(asks lines x.chat.typed.length).isClose } } bu bd = { x.tally j bu bd with typed := (x.tally j bu bd).typed + 1 } := by
        simp [Duo.tally, Duo.upTransit, Duo.downTransit]
      rw [this]
      exact .types

/-- A message goes out: the rest of the first `j` frames does not change if `j` frames are out already. -/
theorem transit_snoc {mask said n k bss wire carried arrived} (h : Pipe mask said n k bss wire carried arrived) (b : Bytes) (j : Nat) (hj : j ≤ n) :
    ((wire ++ b).drop carried).length - later j (bss ++ [b]) = (wire.drop carried).length - later j bss := by
  rw [later_snoc_of_le b (by rw [h.count]; exact hj), List.drop_append_of_le_length h.inside, List.length_append]
  omega

theorem duo_send {lines cr sr x bu bd} {lim : Nat} (hlim : lim < 2 ^ 63) (hs : ∀ i, (asks lines i).spec.Sendable lim) (h : DuoInv lines cr sr x bu bd) :
    ∃ bu', DuoInv lines cr sr { x with chat := x.chat.sendTurn } bu' bd ∧ ∀ j,
      Tally.Goes j (x.tally j bu bd) (Duo.tally j { x with chat := x.chat.sendTurn } bu' bd) ∧
        (x.chat.taken.length < x.chat.typed.length →
          (Duo.tally j { x with chat := x.chat.sendTurn } bu' bd).taken = (x.tally j bu bd).taken + 1) := by
  by_cases hlt : x.chat.taken.length < x.chat.typed.length
  case neg =>
    have hk : x.chat.taken.length = x.chat.typed.length := by have := h.ahead; omega
    have e : x.chat.sendTurn = x.chat := by
      unfold Chat.sendTurn
      split
      · next ht =>
        have hc := h.channel ht
        rw [List.drop_of_length_le (by simp; omega), List.map_nil] at hc
        rw [hc]
        simp only
        rw [if_pos]
        rw [h.typing.mpr (hk ▸ h.talking.mp ht)]
        rfl
      · rfl
    rw [e]
    exact ⟨bu, h, fun j => ⟨.same, fun q => absurd q hlt⟩⟩
  case pos =>
    have hst := h.before _ hlt
    have ht := h.talking.mpr hst
    have hc := h.channel ht
    rw [range_drop_map _ hlt] at hc
    obtain ⟨b, w', w1, w2, w3, w4, w5⟩ := writer_send x.chat.writer h.writer.2 hlim (hs x.chat.taken.length) (x.chat.keys 0)
    rw [h.writer.1] at w5
    have hb : Wire true [(asks lines x.chat.taken.length).view.spec] b :=
      says_wire (es := [asks lines x.chat.taken.length]) (by simpa using hs _) (by simpa using w5)
    obtain ⟨ch, ke, e, hch⟩ : ∃ ch ke, x.chat.sendTurn = { x.chat with
          channel := ch, taken := x.chat.taken ++ [asks lines x.chat.taken.length],
          writer := w', keys := ke, talking := !(asks lines x.chat.taken.length).isClose } ∧
        ((asks lines x.chat.taken.length).isClose = false → ch = ((List.range x.chat.typed.length).drop (x.chat.taken.length + 1)).map (asks lines)) := by
      unfold Chat.sendTurn
      rw [if_pos ht, hc]
      simp only [Chat.say, w1]
      cases hcl : (asks lines x.chat.taken.length).isClose with
      | true => exact ⟨[], _, rfl, by simp⟩
      | false =>
        simp only [Bool.false_eq_true, if_false, Bool.not_false]
        exact ⟨((List.range x.chat.typed.length).drop (x.chat.taken.length + 1)).map (asks lines), fun n => x.chat.keys (n + 1), by simp only [Chat.mk.injEq, ht, and_self], fun _ => rfl⟩
    rw [e]
    refine ⟨bu ++ [b], ?_, fun j => ⟨?_, fun _ => by simp [Duo.tally]⟩⟩
    · exact {
        left := h.left
        typed := h.typed
        taken := range_snoc_map (asks lines) h.taken
        channel := fun q => by
          simp only [List.length_append, List.length_singleton]
          exact hch (by simpa using q)
        ahead := by simp only [List.length_append, List.length_singleton]; omega
        before := h.before
        typing := h.typing
        talking := by
          simp only [List.length_append, List.length_singleton]
          rw [Stays.succ]
          simp [hst]
        heard := h.heard
        ending := h.ending
        greeted := h.greeted
        seen := h.seen
        listening := h.listening
        receiver := h.receiver
        receiver' := h.receiver'
        up := by
          have := h.up.say hb
          simp only [List.length_append, List.length_singleton, w4]
          exact this
        down := h.down
        writer := ⟨by simp only [w2]; exact h.writer.1, w3⟩
        writer' := h.writer'
        ended := h.ended
        cut := h.cut }
    · have : Duo.tally j { x with chat := { x.chat with
          channel := ch, taken := x.chat.taken ++ [asks lines x.chat.taken.length],
          writer := w', keys := ke, talking := !(asks lines x.chat.taken.length).isClose } } (bu ++ [b]) bd =
          { x.tally j bu bd with taken := (x.tally j bu bd).taken + 1, up := (w'.stream.wire.drop x.up).length - later j (bu ++ [b]) } := by
        simp [Duo.tally, Duo.upTransit, Duo.downTransit]
      rw [this]
      refine .takes _ fun hj => ?_
      rw [w4]
      exact transit_snoc h.up b j hj

/-- As long as the server has not heard a Close the client listens. -/
theorem DuoInv.listens {lines cr sr x bu bd} (h : DuoInv lines cr sr x bu bd) (ha : x.server.ending.isNone = true) : x.chat.listening = true := by
  rcases h.ending with ⟨h1, -⟩ | ⟨-, h2⟩
  · have hle := h.down.le
    have hg : x.server.greeted.toNat ≤ 1 := by cases x.server.greeted <;> decide
    exact h.listening.mpr fun i hi => hangs_of_stays h1 i (by omega)
  · rw [h2] at ha; cases ha

theorem duo_up {lines cr sr x bu bd} (n : Nat) (h : DuoInv lines cr sr x bu bd) (ha : x.server.ending.isNone = true) :
    DuoInv lines cr sr (x.carryUp n) bu bd ∧ ∀ j, Tally.Goes j (x.tally j bu bd) ((x.carryUp n).tally j bu bd) ∧
      (0 < (x.tally j bu bd).up → ((x.carryUp n).tally j bu bd).up < (x.tally j bu bd).up ∧ ((x.carryUp n).tally j bu bd) = { x.tally j bu bd with up := ((x.carryUp n).tally j bu bd).up }) := by
  unfold Duo.carryUp
  by_cases h0 : x.upTransit = []
  · rw [if_pos h0, if_pos]
    · exact ⟨h, fun j => ⟨.same, fun q => by simp [Duo.tally, h0] at q⟩⟩
    · rw [h.listens ha, Bool.or_true]
  · rw [if_neg h0]
    have hp := h.up.carry n h0
    have hlen : ((x.chat.writer.stream.wire.drop x.up).take (n + 1)).length + (x.chat.writer.stream.wire.drop (x.up + ((x.chat.writer.stream.wire.drop x.up).take (n + 1)).length)).length =
        (x.chat.writer.stream.wire.drop x.up).length := by
      rw [List.length_drop, List.length_take, List.length_drop]; omega
    have hpos : 0 < ((x.chat.writer.stream.wire.drop x.up).take (n + 1)).length := by
      have := List.length_pos_iff.mpr h0
      unfold Duo.upTransit at this
      rw [List.length_take]; omega
    refine ⟨{ h with up := hp }, fun j => ?_⟩
    have : Duo.tally j { x with
        up := x.up + (x.upTransit.take (n + 1)).length, server := { x.server with input := x.server.input ++ [.chunk (x.upTransit.take (n + 1))] } } bu bd =
        { x.tally j bu bd with up := (x.chat.writer.stream.wire.drop (x.up + ((x.chat.writer.stream.wire.drop x.up).take (n + 1)).length)).length - later j bu } := by
      simp [Duo.tally, Duo.upTransit, Duo.downTransit]
    rw [this]
    refine ⟨.up _ ?_ ?_, fun q => ⟨?_, rfl⟩⟩
    · simp only [Duo.tally, Duo.upTransit]; omega
    · simp only [Duo.tally, Duo.upTransit]; omega
    · simp only [Duo.tally, Duo.upTransit] at q ⊢; omega

theorem duo_down {lines cr sr x bu bd} (n : Nat) (h : DuoInv lines cr sr x bu bd) :
    DuoInv lines cr sr (x.carryDown n) bu bd ∧ ∀ j, Tally.Goes j (x.tally j bu bd) ((x.carryDown n).tally j bu bd) ∧
      (0 < (x.tally j bu bd).down → ((x.carryDown n).tally j bu bd).down < (x.tally j bu bd).down ∧
        ((x.carryDown n).tally j bu bd) = { x.tally j bu bd with down := ((x.carryDown n).tally j bu bd).down }) := by
  unfold Duo.carryDown
  by_cases h0 : x.downTransit = []
  · rw [if_pos h0]
    split
    · exact ⟨h, fun j => ⟨.same, fun q => by simp [Duo.tally, h0] at q⟩⟩
    · next hn =>
      refine ⟨{ h with cut := fun _ => ⟨?_, h0⟩ }, fun j => ⟨.same, fun q => by simp [Duo.tally, h0] at q⟩⟩
      cases hq : x.server.ending with
      | none => rw [hq] at hn; exact absurd rfl hn
      | some e => rfl
  · rw [if_neg h0]
    have hp := h.down.carry n h0
    have hlen : ((x.server.writer.stream.wire.drop x.down).take (n + 1)).length + (x.server.writer.stream.wire.drop (x.down + ((x.server.writer.stream.wire.drop x.down).take (n + 1)).length)).length =
        (x.server.writer.stream.wire.drop x.down).length := by
      rw [List.length_drop, List.length_take, List.length_drop]; omega
    have hpos : 0 < ((x.server.writer.stream.wire.drop x.down).take (n + 1)).length := by
      have := List.length_pos_iff.mpr h0
      unfold Duo.downTransit at this
      rw [List.length_take]; omega
    refine ⟨{ h with down := hp, cut := fun q => absurd (h.cut q).2 h0 }, fun j => ?_⟩
    have : Duo.tally j { x with
        down := x.down + (x.downTransit.take (n + 1)).length, chat := { x.chat with input := x.chat.input ++ [.chunk (x.downTransit.take (n + 1))] } } bu bd =
        { x.tally j bu bd with down := (x.server.writer.stream.wire.drop (x.down + ((x.server.writer.stream.wire.drop x.down).take (n + 1)).length)).length - later (j + 1) bd } := by
      simp [Duo.tally, Duo.upTransit, Duo.downTransit]
    rw [this]
    refine ⟨.down _ ?_ ?_, fun q => ⟨?_, rfl⟩⟩
    · simp only [Duo.tally, Duo.downTransit]; omega
    · simp only [Duo.tally, Duo.downTransit]; omega
    · simp only [Duo.tally, Duo.downTransit] at q ⊢; omega

theorem duo_receive {lines sr x bu bd} {maxDf maxMsg : Nat} (hs : ∀ i, (replies lines i).spec.Sendable (min maxDf u32Max))
    (h : DuoInv lines (Receiver.newWithLimits false maxDf maxMsg) sr x bu bd) :
    DuoInv lines (Receiver.newWithLimits false maxDf maxMsg) sr x.receive bu bd ∧ ∀ j, Tally.Goes j (x.tally j bu bd) (x.receive.tally j bu bd) ∧
      (x.chat.heard.length ≤ j → x.chat.heard.length < x.server.greeted.toNat + x.server.heard.length → (x.tally j bu bd).down = 0 →
        x.chat.listening = true → (x.receive.tally j bu bd).seen = (x.tally j bu bd).seen + 1) := by
  have hcr := h.receiver
  by_cases hl : x.chat.listening = true
  case neg =>
    have e : x.receive = x := by
      unfold Duo.receive
      split
      · rfl
      · unfold Chat.receiveTurn
        rw [if_neg hl]
    rw [e]
    exact ⟨h, fun j => ⟨.same, fun _ _ _ q => absurd q hl⟩⟩
  case pos =>
  have hh := h.listening.mp hl
  by_cases hk : x.chat.heard.length < x.server.greeted.toNat + x.server.heard.length
  case neg =>
    have hk' : x.chat.heard.length = x.server.greeted.toNat + x.server.heard.length := by have := h.down.le; omega
    have hd := h.down
    rw [← hk'] at hd
    have e : x.receive = x := by
      unfold Duo.receive
      rw [hcr, if_pos]
      refine ⟨hd.wait maxDf maxMsg, ?_⟩
      cases hc : x.cut with
      | false => rfl
      | true =>
        have he := (h.cut hc).1
        rcases h.ending with ⟨-, h2⟩ | ⟨h1, -⟩
        · rw [h2] at he; cases he
        · exfalso
          apply h1
          intro i hi
          cases hg : x.server.greeted with
          | false => rw [h.greeted hg] at hi; simp at hi
          | true =>
            rw [hg] at hk'
            have := hh (i + 1) (by simp at hk'; omega)
            simp only [replies] at this
            rw [sentBack_close] at this
            exact this
    rw [e]
    exact ⟨h, fun j => ⟨.same, fun _ q => absurd q hk⟩⟩
  case pos =>
  rcases h.down.hear hk maxDf maxMsg (hs _) with ⟨s', r1, r2⟩ | ⟨r1, r2⟩
  · have e : x.receive = { x with chat := { x.chat with
        input := s', heard := x.chat.heard ++ [.ok (replies lines x.chat.heard.length)], listening := !(replies lines x.chat.heard.length).isClose } } := by
      unfold Duo.receive
      rw [hcr, r1]
      simp only [reduceCtorEq, false_and, if_false]
      congr 1
      unfold Chat.receiveTurn
      rw [if_pos hl, hcr, r1]
      simp only
      have hnp : ∀ d, replies lines x.chat.heard.length ≠ .ping d := by
        intro d hq
        cases hn : x.chat.heard.length with
        | zero => rw [hn] at hq; cases hq
        | succ n =>
          rw [hn] at hq
          simp only [replies] at hq
          cases ha : asks lines n <;> rw [ha] at hq <;> cases hq
      cases hm : replies lines x.chat.heard.length with
      | close d =>
        have hnt : x.chat.talking = false := by
          cases hn : x.chat.heard.length with
          | zero => rw [hn] at hm; cases hm
          | succ n =>
            rw [hn] at hm hk
            have hg : x.server.greeted.toNat ≤ 1 := by cases x.server.greeted <;> decide
            cases ht : x.chat.talking with
            | false => rfl
            | true =>
              have := h.talking.mp ht n (by have := h.up.le; omega)
              rw [← sentBack_close] at this
              simp only [replies] at hm
              rw [hm] at this
              cases this
        simp only [Chat.put, hnt, Bool.false_eq_true, if_false, OwnedMsg.isClose, Bool.not_true, Chat.mk.injEq, ← hcr, and_self]
      | ping d => exact absurd hm (hnp d)
      | pong d => simp only [OwnedMsg.isClose, Bool.not_false, Chat.mk.injEq, hl, ← hcr, and_self]
      | text d => simp only [OwnedMsg.isClose, Bool.not_false, Chat.mk.injEq, hl, ← hcr, and_self]
      | binary d => simp only [OwnedMsg.isClose, Bool.not_false, Chat.mk.injEq, hl, ← hcr, and_self]
    rw [e]
    refine ⟨?_, fun j => ⟨?_, fun _ _ _ _ => by simp [Duo.tally]⟩⟩
    · exact { h with
        seen := range_snoc_map (fun i => Res.ok (replies lines i)) h.seen
        listening := by
          simp only [List.length_append, List.length_singleton]
          rw [Hangs.succ]
          simp [hh]
        down := by
          simp only [List.length_append, List.length_singleton]
          exact r2 }
    · have : Duo.tally j { x with chat := { x.chat with
        input := s', heard := x.chat.heard ++ [.ok (replies lines x.chat.heard.length)], listening := !(replies lines x.chat.heard.length).isClose } } bu bd =
        { x.tally j bu bd with seen := (x.tally j bu bd).seen + 1 } := by
        simp [Duo.tally, Duo.upTransit, Duo.downTransit]
      rw [this]
      exact .sees
  · have e : x.receive = x := by
      unfold Duo.receive
      rw [hcr, if_pos]
      refine ⟨r1, ?_⟩
      cases hc : x.cut with
      | false => rfl
      | true =>
        have := (h.cut hc).2
        unfold Duo.downTransit at this
        rw [this] at r2
        simp at r2
    rw [e]
    refine ⟨h, fun j => ⟨.same, fun hj _ h0 _ => ?_⟩⟩
    exfalso
    have := later_mono (show x.chat.heard.length + 1 ≤ j + 1 by omega) bd
    simp only [Duo.tally, Duo.downTransit] at h0
    omega

/-- The server says something. -/
theorem server_says {t : ServerThread} {m : OwnedMsg} {lim : Nat} (hlim : lim < 2 ^ 63) (hm : m.spec.Sendable lim) (hw : t.writer.sender.mask = false)
    (hw' : t.writer.stream.Willing) :
    ∃ b w' ks, t.say m = { t with writer := w', keys := ks } ∧ w'.sender.mask = false ∧ w'.stream.Willing ∧ w'.stream.wire = t.writer.stream.wire ++ b ∧
      Wire false [m.view.spec] b := by
  obtain ⟨b, w', w1, w2, w3, w4, w5⟩ := writer_send t.writer hw' hlim hm (t.keys 0)
  rw [hw] at w5
  refine ⟨b, w', fun n => t.keys (n + 1), ?_, by rw [w2]; exact hw, w3, w4, says_wire (es := [m]) (by simpa using hm) (by simpa using w5)⟩
  unfold ServerThread.say
  rw [w1]

theorem thread_answers (t : ServerThread) (m : OwnedMsg) :
    t.answer m = if m.isClose && (t.say (sentBack m)).ending.isNone then { t.say (sentBack m) with ending := some .returned } else t.say (sentBack m) := by
  unfold ServerThread.answer
  cases m with
  | close d => simp only [OwnedMsg.isClose, sentBack, Bool.true_and]
  | _ => rfl

theorem duo_serve {lines cr x bu bd} {maxDf maxMsg lim : Nat} (hlim : lim < 2 ^ 63) (hs : ∀ i, (asks lines i).spec.Sendable (min maxDf u32Max))
    (hr : ∀ i, (replies lines i).spec.Sendable lim)
    (h : DuoInv lines cr (Receiver.newWithLimits true maxDf maxMsg) x bu bd) :
    ∃ bd', DuoInv lines cr (Receiver.newWithLimits true maxDf maxMsg) { x with server := x.server.turn } bu bd' ∧ ∀ j,
      Tally.Goes j (x.tally j bu bd) (Duo.tally j { x with server := x.server.turn } bu bd') ∧
      (x.server.ending.isNone = true → x.server.greeted = false → (Duo.tally j { x with server := x.server.turn } bu bd').greeted = 1) ∧
      (x.server.ending.isNone = true → x.server.greeted = true → x.server.heard.length < j → x.server.heard.length < x.chat.taken.length → (x.tally j bu bd).up = 0 →
        (Duo.tally j { x with server := x.server.turn } bu bd').heard = (x.tally j bu bd).heard + 1) := by
  rcases h.ending with ⟨hst, he⟩ | ⟨hst, he⟩
  case inr =>
    have e : x.server.turn = x.server := by
      unfold ServerThread.turn
      rw [he]
      rfl
    rw [e]
    refine ⟨bd, h, fun j => ⟨.same, fun q => ?_, fun q => ?_⟩⟩ <;> rw [he] at q <;> cases q
  case inl =>
  have hcut : x.cut = false := by
    cases hc : x.cut with
    | false => rfl
    | true => have := (h.cut hc).1; rw [he] at this; cases this
  cases hg : x.server.greeted with
  | false =>
    have hh := h.greeted hg
    obtain ⟨b, w', ks, e1, e2, e3, e4, e5⟩ := server_says hlim (hr 0) h.writer'.1 h.writer'.2
    have e : x.server.turn = { x.server with writer := w', keys := ks, greeted := true } := by
      unfold ServerThread.turn
      rw [he, hg]
      simp only [Option.isSome_none, Bool.false_eq_true, if_false, if_true]
      rw [show (.text (ascii "Hello") : OwnedMsg) = replies lines 0 from rfl, e1]
    have hd := h.down
    rw [hg, hh] at hd
    simp only [Bool.toNat_false, List.length_nil, Nat.add_zero] at hd
    rw [e]
    refine ⟨bd ++ [b], ?_, fun j => ⟨?_, fun _ _ => rfl, fun _ q => by cases q⟩⟩
    · exact { h with
        greeted := fun q => by cases q
        down := by
          simp only [hh, List.length_nil, Bool.toNat_true, Nat.add_zero, e4]
          exact hd.say e5
        writer' := ⟨e2, e3⟩
        cut := fun q => by rw [hcut] at q; cases q }
    · have : Duo.tally j { x with server := { x.server with writer := w', keys := ks, greeted := true } } bu (bd ++ [b]) =
          { x.tally j bu bd with greeted := 1, down := (w'.stream.wire.drop x.down).length - later (j + 1) (bd ++ [b]) } := by
        simp [Duo.tally, Duo.upTransit, Duo.downTransit]
      rw [this]
      exact .greets _ (by simp [Duo.tally, hg])
  | true =>
    by_cases hk : x.server.heard.length < x.chat.taken.length
    case neg =>
      have hk' : x.server.heard.length = x.chat.taken.length := by have := h.up.le; omega
      have hd := h.up
      rw [← hk'] at hd
      have e : x.server.turn = x.server := by
        unfold ServerThread.turn
        rw [he, hg]
        simp only [Option.isSome_none, Bool.false_eq_true, if_false, Bool.true_eq_false]
        rw [h.receiver', if_pos ⟨hd.wait maxDf maxMsg, h.ended⟩]
      rw [e]
      exact ⟨bd, h, fun j => ⟨.same, fun _ q => (by cases q), fun _ _ _ q => absurd q hk⟩⟩
    case pos =>
    rcases h.up.hear hk maxDf maxMsg (hs _) with ⟨s', r1, r2⟩ | ⟨r1, r2⟩
    · obtain ⟨b, w', ks, e1, e2, e3, e4, e5⟩ := server_says (t := { x.server with
          receiver := Receiver.newWithLimits true maxDf maxMsg, input := s', heard := x.server.heard ++ [asks lines x.server.heard.length] })
          hlim (hr (x.server.heard.length + 1)) h.writer'.1 h.writer'.2
      have e : x.server.turn = { x.server with
          input := s', heard := x.server.heard ++ [asks lines x.server.heard.length], writer := w', keys := ks
          ending := if (asks lines x.server.heard.length).isClose then some .returned else none } := by
        unfold ServerThread.turn
        rw [he, hg]
        simp only [Option.isSome_none, Bool.false_eq_true, if_false, Bool.true_eq_false]
        rw [h.receiver', r1]
        simp only [reduceCtorEq, false_and, if_false]
        simp only [he, hg] at e1
        rw [thread_answers, show sentBack (asks lines x.server.heard.length) = replies lines (x.server.heard.length + 1) from rfl, e1]
        cases hc : (asks lines x.server.heard.length).isClose <;>
          simp only [he, hg, Option.isNone_none, Bool.and_true, Bool.false_eq_true, if_false, if_true, h.receiver']
      have hd := h.down
      rw [hg] at hd
      rw [e]
      refine ⟨bd ++ [b], ?_, fun j => ⟨?_, fun _ q => (by cases q), fun _ _ _ _ _ => by simp [Duo.tally]⟩⟩
      · exact { h with
          heard := range_snoc_map (asks lines) h.heard
          ending := by
            simp only [List.length_append, List.length_singleton]
            rw [Stays.succ]
            cases hc : (asks lines x.server.heard.length).isClose
            · exact .inl ⟨⟨hst, rfl⟩, rfl⟩
            · exact .inr ⟨by simp, rfl⟩
          greeted := fun q => by (try simp only [hg] at q); cases q
          up := by
            simp only [List.length_append, List.length_singleton]
            exact r2
          down := by
            simp only [List.length_append, List.length_singleton, hg, e4]
            have := hd.say (b := b) (by rw [show true.toNat + x.server.heard.length = x.server.heard.length + 1 by simp; omega]; exact e5)
            exact this
          writer' := ⟨e2, e3⟩
          cut := fun q => by rw [hcut] at q; cases q }
      · have : Duo.tally j { x with server := { x.server with
            input := s', heard := x.server.heard ++ [asks lines x.server.heard.length], writer := w', keys := ks
            ending := if (asks lines x.server.heard.length).isClose then some .returned else none } } bu (bd ++ [b]) =
            { x.tally j bu bd with heard := (x.tally j bu bd).heard + 1, down := (w'.stream.wire.drop x.down).length - later (j + 1) (bd ++ [b]) } := by
          simp [Duo.tally, Duo.upTransit, Duo.downTransit]
        rw [this]
        refine .hears _ (by simp [Duo.tally, hg]) fun hj => ?_
        rw [e4]
        refine transit_snoc h.down b (j + 1) ?_
        simp only [Duo.tally] at hj
        rw [hg]
        simp only [Bool.toNat_true]
        omega
    · have e : x.server.turn = x.server := by
        unfold ServerThread.turn
        rw [he, hg]
        simp only [Option.isSome_none, Bool.false_eq_true, if_false, Bool.true_eq_false]
        rw [h.receiver', if_pos ⟨r1, h.ended⟩]
      rw [e]
      refine ⟨bd, h, fun j => ⟨.same, fun _ q => (by cases q), fun _ _ hj _ h0 => ?_⟩⟩
      exfalso
      have := later_mono (show x.server.heard.length + 1 ≤ j by omega) bu
      simp only [Duo.tally, Duo.upTransit] at h0
      omega

/-! ## Everybody gets on -/

/-- What is still to be done for the first `j` lines: messages first, then bytes. -/
def Tally.rank (j : Nat) (a : Tally) : Nat × Nat :=
  ((j - a.typed) + (j - a.taken) + (1 - a.greeted) + (j - a.heard) + (j + 1 - a.seen), a.up + a.down)

/-- Who has to move. -/
inductive Mover
  | main
  | receive
  | send
  | serve
  | up
  | down
  deriving DecidableEq

def Tally.mover (a : Tally) : Mover :=
  if 0 < a.down then .down
  else if a.seen < a.greeted + a.heard then .receive
  else if a.greeted = 0 then .serve
  else if 0 < a.up then .up
  else if a.heard < a.taken then .serve
  else if a.taken < a.typed then .send
  else .main

def Mover.does : Mover → Beat → Prop
  | .main, e => e = .turn .main
  | .receive, e => e = .turn .receive
  | .send, e => e = .turn .send
  | .serve, e => e = .serve
  | .up, e => ∃ n, e = .up n
  | .down, e => ∃ n, e = .down n

/-- What always holds of the counts. -/
structure Tally.Sane (a : Tally) : Prop where
  greeted : a.greeted ≤ 1
  none : a.greeted = 0 → a.heard = 0
  heard : a.heard ≤ a.taken
  taken : a.taken ≤ a.typed
  seen : a.seen ≤ a.greeted + a.heard

def Less (a b : Nat × Nat) : Prop := Prod.Lex (· < ·) (· < ·) a b

theorem less_iff {a b c d : Nat} : Less (a, b) (c, d) ↔ a < c ∨ (a = c ∧ b < d) := by
  unfold Less
  rw [Prod.lex_def]

theorem Tally.goes_rank {j : Nat} {a b : Tally} (h : a.Goes j b) (ha : a.Sane) (hj : a.seen ≤ j) :
    Less (b.rank j) (a.rank j) ∨ (b.mover = a.mover ∧ b.rank j = a.rank j) := by
  obtain ⟨k, t, g, hh, c, u, d⟩ := a
  obtain ⟨s1, s2, s3, s4, s5⟩ := ha
  simp only at s1 s2 s3 s4 s5 hj
  cases h with
  | same => exact .inr ⟨rfl, rfl⟩
  | types =>
    simp only [Tally.rank, less_iff]
    by_cases hk : k < j
    · left; omega
    · right
      refine ⟨?_, by simp only [Prod.mk.injEq, and_true]; omega⟩
      simp only [Tally.mover]
      repeat' split
      all_goals first | rfl | omega
  | takes v hv =>
    simp only [Tally.rank, less_iff]
    simp only at hv
    by_cases hk : t < j
    · left; omega
    · right
      rw [hv (by omega)]
      refine ⟨?_, by simp only [Prod.mk.injEq, and_true]; omega⟩
      simp only [Tally.mover]
      repeat' split
      all_goals first | rfl | omega
  | greets v hv =>
    simp only at hv
    simp only [Tally.rank, less_iff]
    left; omega
  | hears v hg hv =>
    simp only [Tally.rank, less_iff]
    simp only at hg hv
    by_cases hk : hh < j
    · left; omega
    · right
      rw [hv (by omega)]
      refine ⟨?_, by simp only [Prod.mk.injEq, and_true]; omega⟩
      simp only [Tally.mover]
      repeat' split
      all_goals first | rfl | omega
  | sees =>
    simp only [Tally.rank, less_iff]
    left; omega
  | up v h1 h2 =>
    simp only at h1 h2
    by_cases hu : 0 < u
    · have := h2 hu
      exact .inl (less_iff.mpr (.inr ⟨rfl, by simp only; omega⟩))
    · have : v = u := by omega
      right; rw [this]; exact ⟨rfl, rfl⟩
  | down v h1 h2 =>
    simp only at h1 h2
    by_cases hu : 0 < d
    · have := h2 hu
      exact .inl (less_iff.mpr (.inr ⟨rfl, by simp only; omega⟩))
    · have : v = d := by omega
      right; rw [this]; exact ⟨rfl, rfl⟩

theorem Tally.Goes.less_typed {j : Nat} {a b : Tally} (h : a.Goes j b) (hb : b.typed = a.typed + 1) (hj : a.typed < j) : Less (b.rank j) (a.rank j) := by
  obtain ⟨k, t, g, hh, c, u, d⟩ := a
  cases h <;> simp only [Tally.rank, less_iff] at * <;> omega

theorem Tally.Goes.less_taken {j : Nat} {a b : Tally} (h : a.Goes j b) (hb : b.taken = a.taken + 1) (hj : a.taken < j) : Less (b.rank j) (a.rank j) := by
  obtain ⟨k, t, g, hh, c, u, d⟩ := a
  cases h <;> simp only [Tally.rank, less_iff] at * <;> omega

theorem Tally.Goes.less_heard {j : Nat} {a b : Tally} (h : a.Goes j b) (hb : b.heard = a.heard + 1) (hj : a.heard < j) : Less (b.rank j) (a.rank j) := by
  obtain ⟨k, t, g, hh, c, u, d⟩ := a
  cases h <;> simp only [Tally.rank, less_iff] at * <;> omega

theorem Tally.Goes.less_seen {j : Nat} {a b : Tally} (h : a.Goes j b) (hb : b.seen = a.seen + 1) (hj : a.seen ≤ j) : Less (b.rank j) (a.rank j) := by
  obtain ⟨k, t, g, hh, c, u, d⟩ := a
  cases h <;> simp only [Tally.rank, less_iff] at * <;> omega

theorem Tally.Goes.less_greeted {j : Nat} {a b : Tally} (h : a.Goes j b) (hb : b.greeted = 1) (ha : a.greeted = 0) : Less (b.rank j) (a.rank j) := by
  obtain ⟨k, t, g, hh, c, u, d⟩ := a
  cases h <;> simp only [Tally.rank, less_iff] at * <;> omega

theorem Tally.less_up {j : Nat} {a b : Tally} (h : b.up < a.up ∧ b = { a with up := b.up }) : Less (b.rank j) (a.rank j) := by
  rw [h.2]
  exact less_iff.mpr (.inr ⟨rfl, Nat.add_lt_add_right h.1 _⟩)

theorem Tally.less_down {j : Nat} {a b : Tally} (h : b.down < a.down ∧ b = { a with down := b.down }) : Less (b.rank j) (a.rank j) := by
  rw [h.2]
  exact less_iff.mpr (.inr ⟨rfl, Nat.add_lt_add_left h.1 _⟩)

theorem Tally.does_main {a : Tally} (h : a.mover.does (.turn .main)) : a.down = 0 ∧ a.greeted + a.heard ≤ a.seen ∧ a.greeted ≠ 0 ∧ a.up = 0 ∧ a.taken ≤ a.heard ∧ a.typed ≤ a.taken := by
  unfold Tally.mover at h
  repeat' split at h
  all_goals first | (simp [Mover.does] at h; done) | omega

theorem Tally.does_send {a : Tally} (h : a.mover.does (.turn .send)) : a.down = 0 ∧ a.greeted + a.heard ≤ a.seen ∧ a.greeted ≠ 0 ∧ a.up = 0 ∧ a.taken ≤ a.heard ∧ a.taken < a.typed := by
  unfold Tally.mover at h
  repeat' split at h
  all_goals first | (simp [Mover.does] at h; done) | omega

theorem Tally.does_receive {a : Tally} (h : a.mover.does (.turn .receive)) : a.down = 0 ∧ a.seen < a.greeted + a.heard := by
  unfold Tally.mover at h
  repeat' split at h
  all_goals first | (simp [Mover.does] at h; done) | omega

theorem Tally.does_serve {a : Tally} (h : a.mover.does (.serve)) : a.down = 0 ∧ a.greeted + a.heard ≤ a.seen ∧ (a.greeted = 0 ∨ (a.greeted ≠ 0 ∧ a.up = 0 ∧ a.heard < a.taken)) := by
  unfold Tally.mover at h
  repeat' split at h
  all_goals first | (simp [Mover.does] at h; done) | omega

theorem Tally.does_up {a : Tally} {n : Nat} (h : a.mover.does (.up n)) : a.down = 0 ∧ a.greeted + a.heard ≤ a.seen ∧ a.greeted ≠ 0 ∧ 0 < a.up := by
  unfold Tally.mover at h
  repeat' split at h
  all_goals first | (simp [Mover.does] at h; done) | omega

theorem Tally.does_down {a : Tally} {n : Nat} (h : a.mover.does (.down n)) : 0 < a.down := by
  unfold Tally.mover at h
  repeat' split at h
  all_goals first | (simp [Mover.does] at h; done) | omega

theorem DuoInv.sane {lines cr sr x bu bd} (h : DuoInv lines cr sr x bu bd) (j : Nat) : (x.tally j bu bd).Sane := by
  refine ⟨?_, ?_, h.up.le, h.ahead, h.down.le⟩
  · show x.server.greeted.toNat ≤ 1
    cases x.server.greeted <;> decide
  · intro hg
    show x.server.heard.length = 0
    rw [h.greeted (by cases hq : x.server.greeted with | false => rfl | true => simp [Duo.tally, hq] at hg)]
    rfl

theorem duo_start (lines : List Bytes) (cr sr : Receiver) (cw sw : Writer) (keys skeys : Nat → Key4) (hcm : cw.sender.mask = true)
    (hsm : sw.sender.mask = false) (hcw : cw.stream.Willing) (hsw : sw.stream.Willing) :
    DuoInv lines cr sr (Duo.start lines cr sr cw sw keys skeys) [] [] := by
  have hs : Stays lines 0 := fun i hi => by omega
  exact {
    left := rfl
    typed := rfl
    taken := rfl
    channel := fun _ => rfl
    ahead := Nat.le_refl _
    before := fun n hn => by cases hn
    typing := ⟨fun _ => hs, fun _ => rfl⟩
    talking := ⟨fun _ => hs, fun _ => rfl⟩
    heard := rfl
    ending := .inl ⟨hs, rfl⟩
    greeted := fun _ => rfl
    seen := rfl
    listening := ⟨fun _ i hi => (by cases hi), fun _ => rfl⟩
    receiver := rfl
    receiver' := rfl
    up := ⟨rfl, fun i b hb => by simp at hb, ⟨cw.stream.wire, by simp [Duo.start, Chat.start], Nat.le_refl _⟩, Nat.le_refl _, trivial,
      by simp [Duo.start, Chat.start, Src.flat], Nat.le_refl _⟩
    down := ⟨rfl, fun i b hb => by simp at hb, ⟨sw.stream.wire, by simp [Duo.start], Nat.le_refl _⟩, Nat.le_refl _, trivial,
      by simp [Duo.start, Chat.start, Src.flat], Nat.le_refl _⟩
    writer := ⟨hcm, hcw⟩
    writer' := ⟨hsm, hsw⟩
    ended := rfl
    cut := fun q => by cases q }

theorem duo_step {lines x bu bd} {cdf cmsg sdf smsg : Nat} (hf : Fitting lines (min cdf u32Max) (min sdf u32Max)) (r : Room)
    (h : DuoInv lines (Receiver.newWithLimits false cdf cmsg) (Receiver.newWithLimits true sdf smsg) x bu bd) (e : Beat) :
    ∃ bu' bd', DuoInv lines (Receiver.newWithLimits false cdf cmsg) (Receiver.newWithLimits true sdf smsg) (x.step r e) bu' bd' ∧
      ∀ j, Tally.Goes j (x.tally j bu bd) ((x.step r e).tally j bu' bd') ∧
        (x.chat.heard.length ≤ j → (∀ i, i + 1 < j → (asks lines i).isClose = false) → (x.tally j bu bd).mover.does e →
          Less (((x.step r e).tally j bu' bd').rank j) ((x.tally j bu bd).rank j)) := by
  have hlim : ∀ n, min n u32Max < 2 ^ 63 := fun n => Nat.lt_of_le_of_lt (Nat.min_le_right _ _) (by decide)
  have ha := asks_sendable hf.up
  have hr := replies_sendable hf.down hf.hello
  have no : ∀ e, x.allows r e = false → ∃ bu' bd', DuoInv lines (Receiver.newWithLimits false cdf cmsg) (Receiver.newWithLimits true sdf smsg) (x.step r e) bu' bd' ∧
      x.step r e = x ∧ bu' = bu ∧ bd' = bd := by
    intro e he
    have : x.step r e = x := by unfold Duo.step; rw [he]; rfl
    exact ⟨bu, bd, by rw [this]; exact h, this, rfl, rfl⟩
  have hup : ∀ j, (x.tally j bu bd).up = x.upTransit.length - later j bu := fun _ => rfl
  have hdown : ∀ j, (x.tally j bu bd).down = x.downTransit.length - later (j + 1) bd := fun _ => rfl
  -- the client listens as long as it has not heard everything
  have listens : ∀ j, x.chat.heard.length ≤ j → (∀ i, i + 1 < j → (asks lines i).isClose = false) → x.chat.listening = true := by
    intro j hj hq
    refine h.listening.mpr fun i hi => ?_
    cases i with
    | zero => rfl
    | succ i => simp only [replies]; rw [sentBack_close]; exact hq i (by omega)
  -- nothing is on the way down if everything has been seen
  have calm : x.server.greeted.toNat + x.server.heard.length ≤ x.chat.heard.length → x.downTransit = [] := by
    intro hq
    have hd := h.down
    rw [show x.server.greeted.toNat + x.server.heard.length = x.chat.heard.length by have := hd.le; omega] at hd
    exact hd.quiet.1
  have calm' : x.chat.taken.length ≤ x.server.heard.length → x.upTransit = [] := by
    intro hq
    have hd := h.up
    rw [show x.chat.taken.length = x.server.heard.length by have := hd.le; omega] at hd
    exact hd.quiet.1
  have hg01 : x.server.greeted.toNat = 0 ∨ x.server.greeted = true := by cases x.server.greeted <;> simp
  cases e with
  | turn t =>
    cases t with
    | main =>
      obtain ⟨h1, h2⟩ := duo_main h
      refine ⟨bu, bd, h1, fun j => ⟨(h2 j).1, fun hj hq hm => ?_⟩⟩
      obtain ⟨-, m2, m3, -, m5, m6⟩ := Tally.does_main hm
      simp only [Duo.tally] at m2 m3 m5 m6
      have hk : x.chat.typed.length < j := by omega
      refine (h2 j).1.less_typed ((h2 j).2 (h.typing.mpr fun i hi => hq i (by omega))) hk
    | receive =>
      obtain ⟨h1, h2⟩ := duo_receive hr h
      refine ⟨bu, bd, h1, fun j => ⟨(h2 j).1, fun hj hq hm => ?_⟩⟩
      obtain ⟨m1, m2⟩ := Tally.does_receive hm
      exact (h2 j).1.less_seen ((h2 j).2 hj m2 m1 (listens j hj hq)) hj
    | send =>
      by_cases hal : x.allows r (.turn .send) = true
      · obtain ⟨bu', h1, h2⟩ := duo_send (hlim sdf) ha h
        have e : x.step r (.turn .send) = { x with chat := x.chat.sendTurn } := by unfold Duo.step; rw [if_pos hal]; rfl
        rw [e]
        refine ⟨bu', bd, h1, fun j => ⟨(h2 j).1, fun hj hq hm => ?_⟩⟩
        obtain ⟨-, m2, m3, -, m5, m6⟩ := Tally.does_send hm
        simp only [Duo.tally] at m2 m3 m5 m6
        have hk : x.chat.taken.length < j := by omega
        exact (h2 j).1.less_taken ((h2 j).2 m6) hk
      · have e : x.step r (.turn .send) = x := by unfold Duo.step; rw [if_neg hal]
        rw [e]
        refine ⟨bu, bd, h, fun j => ⟨.same, fun hj hq hm => ?_⟩⟩
        exfalso
        obtain ⟨-, m2, m3, -, m5, m6⟩ := Tally.does_send hm
        apply hal
        show decide (x.upTransit.length ≤ r.up) = true
        rw [calm' m5]
        simp
  | serve =>
    by_cases hal : x.allows r .serve = true
    · obtain ⟨bd', h1, h2⟩ := duo_serve (hlim cdf) ha hr h
      have e : x.step r .serve = { x with server := x.server.turn } := by unfold Duo.step; rw [if_pos hal]
      rw [e]
      refine ⟨bu, bd', h1, fun j => ⟨(h2 j).1, fun hj hq hm => ?_⟩⟩
      obtain ⟨-, m2, m3⟩ := Tally.does_serve hm
      simp only [Duo.tally] at m2 m3
      have open' : Stays lines x.server.heard.length → x.server.ending.isNone = true := by
        intro hs
        rcases h.ending with ⟨-, q⟩ | ⟨q, -⟩
        · rw [q]; rfl
        · exact absurd hs q
      rcases m3 with m3 | ⟨m3, m4, m5⟩
      · have hg : x.server.greeted = false := by cases hg : x.server.greeted with | false => rfl | true => rw [hg] at m3; cases m3
        refine (h2 j).1.less_greeted ((h2 j).2.1 (open' ?_) hg) m3
        rw [h.greeted hg]
        exact fun i hi => by cases hi
      · have hg : x.server.greeted = true := hg01.resolve_left m3
        have hk : x.server.heard.length < j := by omega
        refine (h2 j).1.less_heard ((h2 j).2.2 (open' (h.before _ (by have := h.ahead; omega))) hg hk m5 m4) hk
    · have e : x.step r .serve = x := by unfold Duo.step; rw [if_neg hal]
      rw [e]
      refine ⟨bu, bd, h, fun j => ⟨.same, fun hj hq hm => ?_⟩⟩
      exfalso
      apply hal
      show decide (x.downTransit.length ≤ r.down) = true
      rw [calm (Tally.does_serve hm).2.1]
      simp
  | up n =>
    by_cases hal : x.allows r (.up n) = true
    · have hal' := hal
      simp only [Duo.allows, Bool.and_eq_true] at hal'
      obtain ⟨h1, h2⟩ := duo_up n h hal'.1.1
      have e : x.step r (.up n) = x.carryUp n := by unfold Duo.step; rw [if_pos hal]
      rw [e]
      refine ⟨bu, bd, h1, fun j => ⟨(h2 j).1, fun hj hq hm => ?_⟩⟩
      exact Tally.less_up ((h2 j).2 (Tally.does_up hm).2.2.2)
    · have e : x.step r (.up n) = x := by unfold Duo.step; rw [if_neg hal]
      rw [e]
      refine ⟨bu, bd, h, fun j => ⟨.same, fun hj hq hm => ?_⟩⟩
      exfalso
      obtain ⟨-, m2, m3, m4⟩ := Tally.does_up hm
      apply hal
      simp only [Duo.allows, Bool.and_eq_true]
      refine ⟨⟨?_, hg01.resolve_left m3⟩, by rw [calm m2]; simp⟩
      have hlt : x.server.heard.length < x.chat.taken.length := by
        apply Nat.lt_of_not_le
        intro hq
        rw [hup, calm' hq] at m4
        simp at m4
      rcases h.ending with ⟨-, q⟩ | ⟨q, -⟩
      · rw [q]; rfl
      · exact absurd (h.before _ (by have := h.ahead; omega)) q
  | down n =>
    by_cases hal : x.allows r (.down n) = true
    · obtain ⟨h1, h2⟩ := duo_down n h
      have e : x.step r (.down n) = x.carryDown n := by unfold Duo.step; rw [if_pos hal]
      rw [e]
      refine ⟨bu, bd, h1, fun j => ⟨(h2 j).1, fun hj hq hm => ?_⟩⟩
      exact Tally.less_down ((h2 j).2 (Tally.does_down hm))
    · have e : x.step r (.down n) = x := by unfold Duo.step; rw [if_neg hal]
      rw [e]
      exact ⟨bu, bd, h, fun j => ⟨.same, fun hj hq _ => absurd (listens j hj hq) hal⟩⟩

/-- Every schedule. -/
theorem duo_run {lines} {cdf cmsg sdf smsg : Nat} (hf : Fitting lines (min cdf u32Max) (min sdf u32Max)) (r : Room) (es : List Beat) :
    ∀ {x bu bd}, DuoInv lines (Receiver.newWithLimits false cdf cmsg) (Receiver.newWithLimits true sdf smsg) x bu bd →
      ∃ bu' bd', DuoInv lines (Receiver.newWithLimits false cdf cmsg) (Receiver.newWithLimits true sdf smsg) (x.run r es) bu' bd' := by
  induction es with
  | nil => intro x bu bd h; exact ⟨bu, bd, h⟩
  | cons e es ih =>
    intro x bu bd h
    obtain ⟨bu', bd', h', -⟩ := duo_step hf r h e
    exact ih h'

/-- The state after `n` steps of an endless schedule. -/
def Duo.at (r : Room) (x : Duo) (f : Nat → Beat) (n : Nat) : Duo := x.run r ((List.range n).map f)

theorem duoAt_succ (r : Room) (x : Duo) (f : Nat → Beat) (n : Nat) : x.at r f (n + 1) = (x.at r f n).step r (f n) := by
  unfold Duo.at Duo.run
  rw [List.range_succ, List.map_append, List.foldl_append]
  rfl

theorem less_wf : WellFounded Less := (Prod.lex ⟨_, Nat.lt_wfRel.wf⟩ ⟨_, Nat.lt_wfRel.wf⟩).wf

theorem fair_does {f : Nat → Beat} (hf : FairBeat f) (m : Mover) (n : Nat) : ∃ k, m.does (f (n + k)) := by
  obtain ⟨h1, ⟨a, ha, ha'⟩, ⟨b, k, hb, hb'⟩, c, l, hc, hc'⟩ := hf n
  have key : ∀ q, n ≤ q → m.does (f q) → ∃ k, m.does (f (n + k)) := fun q hq h => ⟨q - n, by rw [Nat.add_sub_cancel' hq]; exact h⟩
  cases m with
  | main => obtain ⟨q, hq, hq'⟩ := h1 .main; exact key q hq hq'
  | receive => obtain ⟨q, hq, hq'⟩ := h1 .receive; exact key q hq hq'
  | send => obtain ⟨q, hq, hq'⟩ := h1 .send; exact key q hq hq'
  | serve => exact key a ha ha'
  | up => exact key b hb ⟨k, hb'⟩
  | down => exact key c hc ⟨l, hc'⟩

/-- The user sees the answer to the `j`th line, if nobody has asked to leave before it. -/
theorem duo_sees {lines} {cdf cmsg sdf smsg : Nat} (hf : Fitting lines (min cdf u32Max) (min sdf u32Max)) (r : Room) {f : Nat → Beat} (hfair : FairBeat f) (x : Duo)
    (j : Nat) (hq : ∀ i, i + 1 < j → (asks lines i).isClose = false) (rk : Nat × Nat) :
    ∀ n bu bd, DuoInv lines (Receiver.newWithLimits false cdf cmsg) (Receiver.newWithLimits true sdf smsg) (x.at r f n) bu bd →
      ((x.at r f n).tally j bu bd).rank j = rk → ∃ m, n ≤ m ∧ j < (x.at r f m).chat.heard.length := by
  induction rk using less_wf.induction with
  | _ rk ih =>
    intro n bu bd h hrk
    obtain ⟨k, hk⟩ := fair_does hfair ((x.at r f n).tally j bu bd).mover n
    induction k generalizing n bu bd with
    | zero =>
      by_cases hj : (x.at r f n).chat.heard.length ≤ j
      · obtain ⟨bu', bd', h1, h2⟩ := duo_step hf r h (f n)
        rw [← duoAt_succ] at h1 h2
        obtain ⟨m, hm, hm'⟩ := ih _ (hrk ▸ (h2 j).2 hj hq hk) (n + 1) bu' bd' h1 rfl
        exact ⟨m, by omega, hm'⟩
      · exact ⟨n, Nat.le_refl _, by omega⟩
    | succ k ih2 =>
      by_cases hj : (x.at r f n).chat.heard.length ≤ j
      · obtain ⟨bu', bd', h1, h2⟩ := duo_step hf r h (f n)
        rw [← duoAt_succ] at h1 h2
        rcases Tally.goes_rank (h2 j).1 (h.sane j) hj with hl | he
        · obtain ⟨m, hm, hm'⟩ := ih _ (hrk ▸ hl) (n + 1) bu' bd' h1 rfl
          exact ⟨m, by omega, hm'⟩
        · obtain ⟨m, hm, hm'⟩ := ih2 (n + 1) bu' bd' h1 (he.2.trans hrk) (by rw [he.1, show n + 1 + k = n + (k + 1) by omega]; exact hk)
          exact ⟨m, by omega, hm'⟩
      · exact ⟨n, Nat.le_refl _, by omega⟩

theorem lineAt_eq (lines : List Bytes) (i : Nat) : lineAt lines i = ((lines.map trim)[i]?).getD [] := by
  unfold lineAt
  rw [List.getElem?_map]
  cases lines[i]? with
  | none => rw [Option.getD_none, trim_nil]; rfl
  | some l => rfl

theorem lineAt_range (lines : List Bytes) {k p : Nat} (hp : k ≤ p) : (List.range k).map (lineAt lines) = (lines.map trim ++ List.replicate p []).take k := by
  apply List.ext_getElem?
  intro i
  rw [List.getElem?_map, List.getElem?_take]
  by_cases hi : i < k
  · rw [List.getElem?_range hi, if_pos hi, Option.map_some, lineAt_eq, List.getElem?_append]
    split
    · next hl => rw [List.getElem?_eq_getElem hl]; rfl
    · next hl =>
      rw [List.getElem?_eq_none (by omega), List.getElem?_replicate, if_pos (by omega)]
      rfl
  · rw [if_neg hi, List.getElem?_eq_none (by simp; omega)]
    rfl

theorem asks_range (lines : List Bytes) (k : Nat) :
    ((List.range k).map (asks lines)).map OwnedMsg.spec = ((List.range k).map (lineAt lines)).map lineSays := by
  rw [List.map_map, List.map_map]
  apply List.map_congr_left
  intro i _
  exact lineSaid_spec _

theorem replies_range (lines : List Bytes) (k : Nat) :
    ((List.range (k + 1)).map (replies lines)).map OwnedMsg.spec = screen (((List.range k).map (asks lines)).map OwnedMsg.spec) := by
  rw [List.range_succ_eq_map, List.map_cons, List.map_cons, List.map_map, List.map_map, screen, List.map_map, List.map_map]
  congr 1
  apply List.map_congr_left
  intro i _
  exact sentBack_spec _

theorem range_prefix {α} (f : Nat → α) {m n : Nat} (h : m ≤ n) : (List.range m).map f <+: (List.range n).map f := by
  obtain ⟨d, rfl⟩ := Nat.le.dest h
  rw [List.range_add, List.map_append]
  exact List.prefix_append _ _

theorem asks_close (lines : List Bytes) (i : Nat) : (asks lines i).isClose = true ↔ lineAt lines i = ascii "/close" := lineSaid_close _

/-- Where the first "/close" is. -/
theorem first_close {lines : List Bytes} (h : ascii "/close" ∈ lines.map trim) :
    (List.range (((lines.map trim).takeWhile (· ≠ ascii "/close")).length + 1)).map (lineAt lines) =
      (lines.map trim).takeWhile (· ≠ ascii "/close") ++ [ascii "/close"] := by
  generalize hL : lines.map trim = L at *
  have hd : L = L.takeWhile (· ≠ ascii "/close") ++ L.dropWhile (· ≠ ascii "/close") := List.takeWhile_append_dropWhile.symm
  have hc : ∃ rest, L.dropWhile (· ≠ ascii "/close") = ascii "/close" :: rest := by
    clear hL hd
    induction L with
    | nil => cases h
    | cons l L ih =>
      by_cases hl : l = ascii "/close"
      · exact ⟨L, by rw [List.dropWhile_cons_of_neg (by simpa using hl), hl]⟩
      · obtain ⟨rest, hr⟩ := ih (by
          rcases List.mem_cons.mp h with h | h
          · exact absurd h.symm hl
          · exact h)
        exact ⟨rest, by rw [List.dropWhile_cons_of_pos (by simpa using hl), hr]⟩
  obtain ⟨rest, hr⟩ := hc
  rw [lineAt_range lines (Nat.le_refl _), hL]
  rw [hr] at hd
  generalize L.takeWhile (· ≠ ascii "/close") = T at *
  rw [hd, List.append_assoc, List.take_append, List.take_of_length_le (by omega)]
  simp

theorem takeWhile_mem {α} (p : α → Bool) {xs : List α} {x : α} (h : x ∈ xs.takeWhile p) : p x = true := by
  induction xs with
  | nil => cases h
  | cons y ys ih =>
    by_cases hy : p y = true
    · rw [List.takeWhile_cons_of_pos hy] at h
      rcases List.mem_cons.mp h with rfl | h
      · exact hy
      · exact ih h
    · rw [List.takeWhile_cons_of_neg hy] at h
      cases h

theorem duo_mono {lines} {cdf cmsg sdf smsg : Nat} (hf : Fitting lines (min cdf u32Max) (min sdf u32Max)) (r : Room) {f : Nat → Beat} (x : Duo) {n m : Nat}
    (hnm : n ≤ m) : ∀ {bu bd}, DuoInv lines (Receiver.newWithLimits false cdf cmsg) (Receiver.newWithLimits true sdf smsg) (x.at r f n) bu bd →
      (x.at r f n).chat.heard.length ≤ (x.at r f m).chat.heard.length ∧
        ∃ bu' bd', DuoInv lines (Receiver.newWithLimits false cdf cmsg) (Receiver.newWithLimits true sdf smsg) (x.at r f m) bu' bd' := by
  induction hnm with
  | refl => exact fun h => ⟨Nat.le_refl _, _, _, h⟩
  | @step m _ ih =>
    intro bu bd h
    obtain ⟨h1, bu', bd', h2⟩ := ih h
    obtain ⟨bu2, bd2, h3, h4⟩ := duo_step hf r h2 (f m)
    rw [← duoAt_succ] at h3 h4
    refine ⟨Nat.le_trans h1 ?_, bu2, bd2, h3⟩
    have hgo := (h4 0).1
    have : ∀ {a b : Tally}, a.Goes 0 b → a.seen ≤ b.seen := by
      intro a b hab
      cases hab <;> simp
    exact this hgo

/-- The thread of the server, when everything is there, does what `serverLoop` does. -/
theorem serverLoop_turns (keys : Nat → Key4) (rc : Receiver) (s : Src) (w : Writer) :
    ∀ t : ServerThread, t.receiver = rc → t.input = s → t.writer = w → t.keys = keys → t.ended = true → t.greeted = true → t.ending = none →
      ∃ n, (t.turns n).ending = some (serverLoop keys rc s w).1 ∧ (t.turns n).writer = (serverLoop keys rc s w).2 := by
  fun_induction serverLoop keys rc s w
  all_goals
    intro t h1 h2 h3 h4 h5 h6 h7
    subst h1 h2 h3 h4
  case case1 => exact ⟨1, by simp [ServerThread.turns, ServerThread.turn, ServerThread.answer, ServerThread.say, *]⟩
  case case2 => exact ⟨1, by simp [ServerThread.turns, ServerThread.turn, ServerThread.answer, ServerThread.say, *]⟩
  case case3 =>
    rename_i r' s' d a w' _ hr ih hw
    obtain ⟨n, hn⟩ := ih { t with receiver := r', input := s', heard := t.heard ++ [.ping d], writer := w', keys := fun n => t.keys (n + 1) } rfl rfl rfl rfl h5 h6 h7
    refine ⟨n + 1, ?_⟩
    have e : t.turn = { t with receiver := r', input := s', heard := t.heard ++ [.ping d], writer := w', keys := fun n => t.keys (n + 1) } := by
      simp [ServerThread.turn, ServerThread.answer, ServerThread.say, *]
    rw [ServerThread.turns, e]
    exact hn
  case case4 => exact ⟨1, by simp [ServerThread.turns, ServerThread.turn, ServerThread.answer, ServerThread.say, *]⟩
  case case5 =>
    rename_i r' s' m a w' _ hc hp hr ih hw
    obtain ⟨n, hn⟩ := ih { t with receiver := r', input := s', heard := t.heard ++ [m], writer := w', keys := fun n => t.keys (n + 1) } rfl rfl rfl rfl h5 h6 h7
    refine ⟨n + 1, ?_⟩
    have e : t.turn = { t with receiver := r', input := s', heard := t.heard ++ [m], writer := w', keys := fun n => t.keys (n + 1) } := by
      cases m with
      | close d => exact (hc d hr rfl HEq.rfl).elim
      | ping d => exact (hp d hr rfl HEq.rfl).elim
      | _ => simp [ServerThread.turn, ServerThread.answer, ServerThread.say, *]
    rw [ServerThread.turns, e]
    exact hn
  case case6 =>
    rename_i r' s' m a w' hf _ hc hp hr hw
    refine ⟨1, ?_⟩
    cases m with
    | close d => exact (hc d hr rfl HEq.rfl).elim
    | ping d => exact (hp d hr rfl HEq.rfl).elim
    | _ => simp [ServerThread.turns, ServerThread.turn, ServerThread.answer, ServerThread.say, *]
  case case7 => exact ⟨1, by simp [ServerThread.turns, ServerThread.turn, *]⟩

/-! ## What holds of two programs that are talking -/

theorem duo_safe {lines cr sr} {x : Duo} {bu bd} (h : DuoInv lines cr sr x bu bd) :
    x.server.ending ≠ some .panicked ∧
    (∃ p, x.chat.typed <+: lines.map trim ++ List.replicate p []) ∧
    x.chat.taken.map OwnedMsg.spec <+: x.chat.typed.map lineSays ∧
    x.server.heard.map OwnedMsg.spec <+: x.chat.taken.map OwnedMsg.spec ∧
    (∃ ms : List OwnedMsg, x.chat.heard = ms.map Res.ok ∧ ms.map OwnedMsg.spec <+: screen (x.server.heard.map OwnedMsg.spec)) ∧
    (x.server.ending = none → x.chat.listening = true) := by
  refine ⟨?_, ⟨x.chat.typed.length, ?_⟩, ?_, ?_, ⟨(List.range x.chat.heard.length).map (replies lines), ?_, ?_⟩, ?_⟩
  · rcases h.ending with ⟨-, q⟩ | ⟨-, q⟩ <;> rw [q] <;> simp
  · generalize hk : x.chat.typed.length = k
    rw [h.typed, hk, lineAt_range lines (Nat.le_refl _)]
    exact List.take_prefix _ _
  · rw [h.taken, h.typed, asks_range]
    exact (range_prefix _ h.ahead).map _
  · rw [h.taken, h.heard]
    exact (range_prefix _ h.up.le).map _
  · rw [List.map_map]
    exact h.seen
  · rw [h.heard, ← replies_range]
    refine (range_prefix _ (Nat.le_trans h.down.le ?_)).map _
    have : x.server.greeted.toNat ≤ 1 := by cases x.server.greeted <;> decide
    omega
  · intro q
    exact h.listens (by rw [q]; rfl)

theorem duo_answered {lines} {cdf cmsg sdf smsg : Nat} (hf : Fitting lines (min cdf u32Max) (min sdf u32Max)) {x : Duo} {bu bd}
    (h0 : DuoInv lines (Receiver.newWithLimits false cdf cmsg) (Receiver.newWithLimits true sdf smsg) x bu bd) (r : Room) {f : Nat → Beat} (hfair : FairBeat f)
    (j : Nat) (hj : ascii "/close" ∉ (lines.map trim).take (j - 1)) :
    ∃ n, ∀ m, n ≤ m →
      let y := x.run r ((List.range m).map f)
      ∃ ms : List OwnedMsg, y.chat.heard = ms.map Res.ok ∧
        (ms.map OwnedMsg.spec).take (j + 1) = screen (((lines.map trim ++ List.replicate j []).take j).map lineSays) := by
  have hq : ∀ i, i + 1 < j → (asks lines i).isClose = false := by
    intro i hi
    cases hc : (asks lines i).isClose with
    | false => rfl
    | true =>
      rw [asks_close, lineAt_eq] at hc
      exfalso
      apply hj
      cases hl : (lines.map trim)[i]? with
      | none => rw [hl] at hc; exact absurd hc (by decide)
      | some l =>
        rw [hl] at hc
        exact List.mem_of_getElem? (i := i) (by rw [List.getElem?_take, if_pos (by omega), hl]; exact congrArg some hc)
  obtain ⟨n, -, hn⟩ := duo_sees (cmsg := cmsg) (smsg := smsg) hf r hfair _ j hq _ 0 _ _ h0 rfl
  refine ⟨n, fun m hm => ?_⟩
  intro y
  obtain ⟨bu, bd, h1⟩ := duo_run hf r ((List.range n).map f) h0
  obtain ⟨g1, bu', bd', h⟩ := duo_mono hf r _ hm h1
  change DuoInv lines _ _ y bu' bd' at h
  refine ⟨(List.range y.chat.heard.length).map (replies lines), by rw [List.map_map]; exact h.seen, ?_⟩
  have hle : j < y.chat.heard.length := Nat.lt_of_lt_of_le hn g1
  rw [← lineAt_range lines (Nat.le_refl _), ← asks_range, ← replies_range, List.map_take.symm, ← List.map_take, List.take_range, Nat.min_eq_left (by omega)]

theorem duo_ends {lines} {cdf cmsg sdf smsg : Nat} (hf : Fitting lines (min cdf u32Max) (min sdf u32Max)) {x : Duo} {bu bd}
    (h0 : DuoInv lines (Receiver.newWithLimits false cdf cmsg) (Receiver.newWithLimits true sdf smsg) x bu bd) (r : Room) {f : Nat → Beat} (hfair : FairBeat f)
    (hc : ascii "/close" ∈ lines.map trim) :
    ∃ n, ∀ m, n ≤ m →
      let y := x.run r ((List.range m).map f)
      y.chat.done = true ∧ y.server.ending = some .returned ∧
      y.server.heard.map OwnedMsg.spec = ((lines.map trim).takeWhile (· ≠ ascii "/close")).map lineSays ++ [.close] ∧
      ∃ ms : List OwnedMsg, y.chat.heard = ms.map Res.ok ∧ ms.map OwnedMsg.spec = screen (y.server.heard.map OwnedMsg.spec) := by
  have hfc := first_close hc
  generalize hT : (lines.map trim).takeWhile (· ≠ ascii "/close") = T at *
  have hTn : ∀ l ∈ T, l ≠ ascii "/close" := by
    intro l hl
    rw [← hT] at hl
    simpa using takeWhile_mem _ hl
  have hstay : Stays lines T.length := by
    intro i hi
    cases hcl : (asks lines i).isClose with
    | false => rfl
    | true =>
      rw [asks_close] at hcl
      have := congrArg (fun l => l[i]?) hfc
      simp only [List.getElem?_map, List.getElem?_range (show i < T.length + 1 by omega), Option.map_some, List.getElem?_append_left hi, hcl] at this
      exact absurd rfl (hTn _ (List.mem_of_getElem? this.symm))
  have hclose : (asks lines T.length).isClose = true := by
    rw [asks_close]
    have := congrArg (fun l => l[T.length]?) hfc
    simpa [List.getElem?_range] using this
  obtain ⟨n, -, hn⟩ := duo_sees (cmsg := cmsg) (smsg := smsg) hf r hfair _ (T.length + 1) (fun i hi => hstay i (by omega)) _ 0 _ _ h0 rfl
  refine ⟨n, fun m hm => ?_⟩
  intro y
  obtain ⟨bu, bd, h1⟩ := duo_run hf r ((List.range n).map f) h0
  obtain ⟨g1, bu', bd', h⟩ := duo_mono hf r _ hm h1
  change DuoInv lines _ _ y bu' bd' at h
  have hle : T.length + 1 < y.chat.heard.length := Nat.lt_of_lt_of_le hn g1
  have hns : ∀ k, T.length < k → ¬Stays lines k := fun k hk hs => by have := hs _ hk; rw [hclose] at this; cases this
  have htyped : y.chat.typed.length ≤ T.length + 1 := Nat.le_of_not_lt fun hq => hns _ (Nat.lt_succ_self _) (h.before _ hq)
  have hg : y.server.greeted.toNat ≤ 1 := by cases y.server.greeted <;> decide
  have a1 := h.down.le
  have a2 := h.up.le
  have a3 := h.ahead
  have hh : y.server.heard.length = T.length + 1 := by omega
  have hs : y.chat.heard.length = y.server.heard.length + 1 := by omega
  refine ⟨?_, ?_, ?_, (List.range y.chat.heard.length).map (replies lines), by rw [List.map_map]; exact h.seen, ?_⟩
  · have b1 : y.chat.typing = false := by
      cases q : y.chat.typing with
      | false => rfl
      | true => exact absurd (h.typing.mp q) (hns _ (by omega))
    have b2 : y.chat.talking = false := by
      cases q : y.chat.talking with
      | false => rfl
      | true => exact absurd (h.talking.mp q) (hns _ (by omega))
    have b3 : y.chat.listening = false := by
      cases q : y.chat.listening with
      | false => rfl
      | true =>
        have := h.listening.mp q (T.length + 1) hle
        simp only [replies] at this
        rw [sentBack_close, hclose] at this
        cases this
    simp [Chat.done, b1, b2, b3]
  · rcases h.ending with ⟨q, -⟩ | ⟨-, q⟩
    · exact absurd q (hns _ (by omega))
    · exact q
  · rw [h.heard, asks_range]
    rw [hh, hfc, List.map_append]
    rfl
  · rw [hs, replies_range, ← h.heard]

theorem beats_add (f : Nat → Beat) (n k : Nat) : (List.range (n + k)).map f = (List.range n).map f ++ (List.range k).map fun i => f (n + i) := by
  rw [List.range_add, List.map_append, List.map_map]; rfl

theorem fair_beats {f : Nat → Beat} (h : FairBeat f) (n : Nat) : FairBeat fun i => f (n + i) := by
  intro k
  obtain ⟨h1, ⟨a, a1, a2⟩, ⟨b, l, b1, b2⟩, c, l', c1, c2⟩ := h (n + k)
  refine ⟨fun t => ?_, ⟨a - n, by omega, ?_⟩, ⟨b - n, l, by omega, ?_⟩, c - n, l', by omega, ?_⟩
  · obtain ⟨d, d1, d2⟩ := h1 t
    exact ⟨d - n, by omega, by simp only [Nat.add_sub_cancel' (show n ≤ d by omega)]; exact d2⟩
  · simp only [Nat.add_sub_cancel' (show n ≤ a by omega)]; exact a2
  · simp only [Nat.add_sub_cancel' (show n ≤ b by omega)]; exact b2
  · simp only [Nat.add_sub_cancel' (show n ≤ c by omega)]; exact c2

/-! ## What is on the wire -/

/-- Each side has written something, and then its messages. -/
structure Spelled (a b : Bytes) (x : Duo) : Prop where
  client : ∃ bs, x.chat.writer.stream.wire = a ++ bs ∧ Says true (x.chat.taken.map OwnedMsg.spec) bs
  server : ∃ bs, x.server.writer.stream.wire = b ++ bs ∧
    Says false ((screen (x.server.heard.map OwnedMsg.spec)).take (x.server.greeted.toNat + x.server.heard.length)) bs

theorem server_speaks {t : ServerThread} {m : OwnedMsg} {lim : Nat} (hlim : lim < 2 ^ 63) (hm : m.spec.Sendable lim) (hw : t.writer.sender.mask = false)
    (hw' : t.writer.stream.Willing) :
    ∃ b w' ks, t.say m = { t with writer := w', keys := ks } ∧ w'.sender.mask = false ∧ w'.stream.Willing ∧ w'.stream.wire = t.writer.stream.wire ++ b ∧
      Says false [m.spec] b := by
  obtain ⟨b, w', w1, w2, w3, w4, w5⟩ := writer_send t.writer hw' hlim hm (t.keys 0)
  rw [hw] at w5
  refine ⟨b, w', fun n => t.keys (n + 1), ?_, by rw [w2]; exact hw, w3, w4, w5⟩
  unfold ServerThread.say
  rw [w1]

theorem main_says (c : Chat) : c.mainTurn.writer = c.writer ∧ c.mainTurn.taken = c.taken := by
  unfold Chat.mainTurn
  split
  · simp only [Chat.put]
    split
    · cases c.talking <;> exact ⟨rfl, rfl⟩
    · cases c.talking <;> exact ⟨rfl, rfl⟩
  · exact ⟨rfl, rfl⟩

theorem receive_says (c : Chat) : c.receiveTurn.writer = c.writer ∧ c.receiveTurn.taken = c.taken := by
  unfold Chat.receiveTurn
  split
  · cases c.receiver.recvMessage c.input with
    | mk x p =>
    simp only [Chat.put]
    rcases x with (_ | _ | _ | _ | _) | _ | _ <;> cases c.talking <;> exact ⟨rfl, rfl⟩
  · exact ⟨rfl, rfl⟩

theorem send_says {c : Chat} {lim : Nat} (hlim : lim < 2 ^ 63) (hm : c.writer.sender.mask = true) (hw : c.writer.stream.Willing) (hc : ∀ m ∈ c.channel, m.spec.Sendable lim) :
    ∃ b ms, c.sendTurn.writer.stream.wire = c.writer.stream.wire ++ b ∧ c.sendTurn.taken = c.taken ++ ms ∧ Says true (ms.map OwnedMsg.spec) b := by
  unfold Chat.sendTurn
  split
  · cases hch : c.channel with
    | nil =>
      simp only
      split
      · exact ⟨[], [], by simp, by simp, says_nil _⟩
      · exact ⟨[], [], by simp, by simp, says_nil _⟩
    | cons m rest =>
      obtain ⟨b, w', w1, w2, w3, w4, w5⟩ := writer_send c.writer hw hlim (hc m (by rw [hch]; exact List.mem_cons_self)) (c.keys 0)
      rw [hm] at w5
      simp only [Chat.say, w1]
      split
      · exact ⟨b, [m], w4, rfl, w5⟩
      · exact ⟨b, [m], w4, rfl, w5⟩
  · exact ⟨[], [], by simp, by simp, says_nil _⟩

theorem spelled_step {lines x bu bd} {cdf cmsg sdf smsg : Nat} (hf : Fitting lines (min cdf u32Max) (min sdf u32Max)) (r : Room)
    (h : DuoInv lines (Receiver.newWithLimits false cdf cmsg) (Receiver.newWithLimits true sdf smsg) x bu bd) {a b : Bytes} (hx : Spelled a b x) (e : Beat) :
    Spelled a b (x.step r e) := by
  have hlim : ∀ n, min n u32Max < 2 ^ 63 := fun n => Nat.lt_of_le_of_lt (Nat.min_le_right _ _) (by decide)
  obtain ⟨bu', bd', h', -⟩ := duo_step hf r h e
  unfold Duo.step at h' ⊢
  split
  case isFalse => exact hx
  case isTrue hal =>
    rw [if_pos hal] at h'
    rcases e with ⟨_ | _ | _⟩ | _ | n | n
    · obtain ⟨e1, e2⟩ := main_says x.chat
      exact ⟨by show ∃ bs, x.chat.mainTurn.writer.stream.wire = _ ∧ Says true (x.chat.mainTurn.taken.map _) bs; rw [e1, e2]; exact hx.client, hx.server⟩
    · simp only [Duo.receive]
      split
      · exact hx
      · obtain ⟨e1, e2⟩ := receive_says x.chat
        exact ⟨by show ∃ bs, x.chat.receiveTurn.writer.stream.wire = _ ∧ Says true (x.chat.receiveTurn.taken.map _) bs; rw [e1, e2]; exact hx.client, hx.server⟩
    · refine ⟨?_, hx.server⟩
      show ∃ bs, x.chat.sendTurn.writer.stream.wire = _ ∧ Says true (x.chat.sendTurn.taken.map _) bs
      by_cases ht : x.chat.talking = true
      · obtain ⟨z, ms, h1, h2, h3⟩ := send_says (hlim sdf) h.writer.1 h.writer.2 (by
          intro m hm
          rw [h.channel ht, List.mem_map] at hm
          obtain ⟨i, -, rfl⟩ := hm
          exact asks_sendable hf.up i)
        obtain ⟨bs, g1, g2⟩ := hx.client
        exact ⟨bs ++ z, by rw [h1, g1, List.append_assoc], by rw [h2, List.map_append]; exact Says.append g2 h3⟩
      · have : x.chat.sendTurn = x.chat := by unfold Chat.sendTurn; rw [if_neg ht]
        rw [this]; exact hx.client
    · refine ⟨hx.client, ?_⟩
      simp only at h' ⊢
      obtain ⟨bs, g1, g2⟩ := hx.server
      have hw' := h.writer'
      have hgr := h.greeted
      have hpan : x.server.turn.ending ≠ some .panicked := by
        rcases h'.ending with ⟨-, q⟩ | ⟨-, q⟩
        · intro q'; rw [show x.server.turn.ending = none from q] at q'; cases q'
        · intro q'; rw [show x.server.turn.ending = some .returned from q] at q'; cases q'
      have hheard : x.server.turn.heard = (List.range x.server.turn.heard.length).map (asks lines) := h'.heard
      clear h'
      generalize x.server = t at *
      unfold ServerThread.turn at hpan hheard ⊢
      by_cases he : t.ending.isSome = true
      · rw [if_pos he]; exact ⟨bs, g1, g2⟩
      rw [if_neg he] at hpan hheard ⊢
      by_cases hg : t.greeted = false
      · rw [if_pos hg]
        rw [hg, hgr hg] at g2
        simp only [Bool.toNat_false, List.length_nil, Nat.add_zero, List.take_zero] at g2
        obtain ⟨z, w', ks, k1, k2, k3, k4, k5⟩ := server_speaks (hlim cdf) (replies_sendable hf.down hf.hello 0) hw'.1 hw'.2
        rw [show OwnedMsg.text (ascii "Hello") = replies lines 0 from rfl, k1]
        refine ⟨bs ++ z, by simp only [k4, g1, List.append_assoc], ?_⟩
        simp only [hgr hg, Bool.toNat_true, List.length_nil, List.map_nil]
        exact Says.append g2 k5
      rw [if_neg hg] at hpan hheard ⊢
      have hg' : t.greeted = true := by simpa using hg
      cases hrm : t.receiver.recvMessage t.input with
      | mk y p =>
      rw [hrm] at hpan hheard
      simp only at hpan hheard ⊢
      split
      · exact ⟨bs, g1, g2⟩
      next hno =>
      rw [if_neg hno] at hpan hheard
      cases y with
      | err e => exact absurd rfl hpan
      | panic e => exact absurd rfl hpan
      | ok m =>
        simp only at hpan hheard ⊢
        have hl : ∀ u : ServerThread, (u.answer m).heard = u.heard := by
          intro u
          have hs : ∀ v : ServerThread, ∀ m, (v.say m).heard = v.heard := by
            intro v m; unfold ServerThread.say; split <;> rfl
          rw [thread_answers]
          split
          · exact hs _ _
          · exact hs _ _
        rw [hl] at hheard
        simp only at hheard
        have hm : m = asks lines t.heard.length := by
          have := congrArg (fun l => l[t.heard.length]?) hheard
          simpa [List.getElem?_range] using this
        obtain ⟨z, w', ks, k1, k2, k3, k4, k5⟩ := server_speaks (t := { t with receiver := p.1, input := p.2, heard := t.heard ++ [m] }) (hlim cdf)
          (replies_sendable hf.down hf.hello (t.heard.length + 1)) hw'.1 hw'.2
        have e1 : replies lines (t.heard.length + 1) = sentBack m := by rw [hm]; rfl
        rw [e1] at k1 k5
        have hwire : (ServerThread.answer { t with receiver := p.1, input := p.2, heard := t.heard ++ [m] } m).writer = w' ∧
            (ServerThread.answer { t with receiver := p.1, input := p.2, heard := t.heard ++ [m] } m).greeted = t.greeted := by
          rw [thread_answers, k1]
          split <;> exact ⟨rfl, rfl⟩
        rw [hwire.1, hwire.2, hl]
        refine ⟨bs ++ z, by rw [k4]; simp only; rw [g1, List.append_assoc], ?_⟩
        rw [hg'] at g2 ⊢
        have e2 : ∀ l : List Spec.Message, (screen l).take (1 + l.length) = screen l := by
          intro l; apply List.take_of_length_le; simp [screen]; omega
        have e3 := e2 (t.heard.map OwnedMsg.spec)
        have e4 := e2 ((t.heard ++ [m]).map OwnedMsg.spec)
        rw [List.length_map] at e3 e4
        rw [show true.toNat = 1 from rfl] at g2 ⊢
        rw [e3] at g2
        rw [e4, List.map_append, screen, List.map_append, ← List.cons_append]
        refine Says.append g2 ?_
        simpa [sentBack_spec] using k5
    · simp only [Duo.carryUp]
      split
      · split
        · exact hx
        · exact ⟨hx.client, hx.server⟩
      · exact ⟨hx.client, hx.server⟩
    · simp only [Duo.carryDown]
      split
      · split
        · exact hx
        · exact ⟨hx.client, hx.server⟩
      · exact ⟨hx.client, hx.server⟩

end WS
