import Verif.Lemmas.Echo
import Verif.Lemmas.Retry
import Verif.Spec.Chat
/-!
# The threads of examples/client.rs: lemmas
-/

namespace WS
open Spec (lineSays)

theorem lineMessage_none {l : Bytes} (h : lineMessage l = none) : l = ascii "/close" ∧ lineSays l = .close := by
  unfold lineMessage at h
  split at h
  · next hl => exact ⟨hl, by unfold lineSays; rw [if_pos hl]⟩
  · split at h <;> cases h

theorem lineMessage_some {l : Bytes} {m : OwnedMsg} (h : lineMessage l = some m) :
    l ≠ ascii "/close" ∧ m.spec = lineSays l ∧ m.isClose = false := by
  unfold lineMessage at h
  split at h
  · cases h
  · next hl =>
    refine ⟨hl, ?_⟩
    unfold lineSays
    rw [if_neg hl]
    split at h
    · next hp => cases h; rw [if_pos hp]; exact ⟨rfl, rfl⟩
    · next hp => cases h; rw [if_neg hp]; exact ⟨rfl, rfl⟩

/-- What holds after any turns, whatever the transport does. -/
structure ChatInv (lines : List Bytes) (r : Receiver) (s : Src) (c : Chat) : Prop where
  /-- the channel is a queue -/
  queue : c.talking = true → c.log.map Prod.snd = c.taken ++ c.channel
  order : c.taken <+: c.log.map Prod.snd
  /-- the send thread goes on only after something that is no close -/
  goes : c.talking = true → ∀ m ∈ c.taken, m.isClose = false
  last : ∀ m ∈ c.taken.dropLast, m.isClose = false
  /-- who leaves says so -/
  left : c.talking = true → (c.typing = false ∨ c.listening = false) → ∃ m ∈ c.channel, m.isClose = true
  /-- lines -/
  read : ∃ k, c.typed ++ c.lines.map trim = lines.map trim ++ List.replicate k [] ∧ (k = 0 ∨ c.lines = [])
  leave : ∀ l ∈ c.typed.dropLast, l ≠ ascii "/close"
  stay : c.typing = true → ∀ l ∈ c.typed, l ≠ ascii "/close"
  user : saidBy .main c.log <+: c.typed.map lineSays
  userAll : c.talking = true → saidBy .main c.log = c.typed.map lineSays
  /-- results -/
  hears : r.recvMany c.heard.length s = (c.heard, c.receiver, c.input)
  peer : saidBy .receive c.log <+: c.heard.filterMap resAnswer
  peerAll : c.talking = true → saidBy .receive c.log = c.heard.filterMap resAnswer
  fit : c.listening = true → Fit c.receiver
  heardOpen : c.listening = true → ∀ x ∈ c.heard, ∃ m, x = .ok m ∧ m.isClose = false
  heardLast : ∀ x ∈ c.heard.dropLast, ∃ m, x = .ok m ∧ m.isClose = false
  heardEnd : c.listening = false → ∃ a x, c.heard = a ++ [x] ∧ (resAnswer x).isSome = true
  safe : ∀ x ∈ c.heard, x.isPanic = false
  /-- nobody else writes into the channel -/
  nosend : ∀ e ∈ c.log, e.1 ≠ .send

theorem saidBy_snoc (log : List (Thread × OwnedMsg)) (t u : Thread) (m : OwnedMsg) :
    saidBy u (log ++ [(t, m)]) = saidBy u log ++ (if t = u then [m.spec] else []) := by
  unfold saidBy
  rw [List.filter_append, List.map_append]
  congr 1
  by_cases h : t = u
  · rw [if_pos h, List.filter_cons_of_pos (by simpa using h)]; rfl
  · rw [if_neg h, List.filter_cons_of_neg (by simpa using h)]; rfl

theorem dropLast_snoc_mem {α} {P : α → Prop} {xs : List α} {x : α} (h : ∀ y ∈ xs, P y) : ∀ y ∈ (xs ++ [x]).dropLast, P y := by
  rw [List.dropLast_concat]; exact h

theorem prefix_snoc {α} {a b : List α} (h : a <+: b) (x : List α) : a <+: b ++ x := h.trans (List.prefix_append _ _)

theorem inv_main {lines : List Bytes} {r : Receiver} {s : Src} {c : Chat} (h : ChatInv lines r s c) : ChatInv lines r s c.mainTurn := by
  unfold Chat.mainTurn
  split
  case isFalse => exact h
  case isTrue ht =>
    obtain ⟨ls, rc, inp, wr, ks, ch, ty, li, ta, td, hd, lg, tk⟩ := c
    simp only at ht
    subst ht
    have hread : ∃ k, (td ++ [trim (ls.headD [])]) ++ ls.tail.map trim = lines.map trim ++ List.replicate k [] ∧ (k = 0 ∨ ls.tail = []) := by
      obtain ⟨k, h1, h2⟩ := h.read
      simp only at h1 h2
      cases ls with
      | cons l ls =>
        exact ⟨k, by simpa using h1, h2.imp id fun h => by cases h⟩
      | nil =>
        refine ⟨k + 1, ?_, .inr rfl⟩
        simp only [List.map_nil, List.append_nil] at h1
        simp only [List.headD_nil, List.tail_nil, List.map_nil, List.append_nil, trim_nil]
        rw [h1, List.append_assoc, List.replicate_succ']
    have hstay := h.stay rfl
    simp only at hstay
    have huser := h.user
    have huall := h.userAll
    simp only at huall
    simp only [Chat.put]
    cases hl : lineMessage (trim (ls.headD [])) with
    | none =>
      obtain ⟨e1, e2⟩ := lineMessage_none hl
      cases ta with
      | true =>
        simp only [if_true]
        have hq := h.queue rfl
        simp only at hq
        exact {
          queue := fun _ => by simp only [List.map_append, hq]; simp
          order := by simp only [List.map_append, hq, List.append_assoc]; exact List.prefix_append _ _
          goes := h.goes
          last := h.last
          left := fun _ _ => ⟨.close none, by simp, rfl⟩
          read := hread
          leave := dropLast_snoc_mem hstay
          stay := fun h => by cases h
          user := by
            rw [saidBy_snoc, if_pos rfl, huall rfl, List.map_append]
            simp only [List.map_cons, List.map_nil, e2]
            exact List.prefix_rfl
          userAll := fun _ => by
            rw [saidBy_snoc, if_pos rfl, huall rfl, List.map_append]
            simp only [List.map_cons, List.map_nil, e2]; rfl
          hears := h.hears
          peer := by rw [saidBy_snoc, if_neg (by decide), List.append_nil]; exact h.peer
          peerAll := fun q => by rw [saidBy_snoc, if_neg (by decide), List.append_nil]; exact h.peerAll q
          fit := h.fit
          heardOpen := h.heardOpen
          heardLast := h.heardLast
          heardEnd := h.heardEnd
          safe := h.safe
          nosend := by
            intro e he
            simp only [List.mem_append, List.mem_singleton] at he
            rcases he with he | rfl
            · exact h.nosend e he
            · exact fun h => by cases h }
      | false =>
        simp only [Bool.false_eq_true, if_false]
        exact { h with
          queue := fun h => by cases h
          left := fun h => by cases h
          read := hread
          leave := dropLast_snoc_mem hstay
          stay := fun h => by cases h
          user := by
            simp only [List.map_append]
            exact prefix_snoc huser _
          userAll := fun h => by cases h }
    | some m =>
      obtain ⟨e1, e2, e3⟩ := lineMessage_some hl
      have hst : ∀ l ∈ td ++ [trim (ls.headD [])], l ≠ ascii "/close" := by
        intro l hm
        simp only [List.mem_append, List.mem_singleton] at hm
        rcases hm with hm | rfl
        · exact hstay l hm
        · exact e1
      cases ta with
      | true =>
        simp only [if_true]
        have hq := h.queue rfl
        simp only at hq
        exact {
          queue := fun _ => by simp only [List.map_append, hq]; simp
          order := by simp only [List.map_append, hq, List.append_assoc]; exact List.prefix_append _ _
          goes := h.goes
          last := h.last
          left := fun a b => by
            obtain ⟨m, hm, hc⟩ := h.left a b
            exact ⟨m, List.mem_append_left _ hm, hc⟩
          read := hread
          leave := dropLast_snoc_mem hstay
          stay := fun _ => hst
          user := by
            rw [saidBy_snoc, if_pos rfl, huall rfl, List.map_append]
            simp only [List.map_cons, List.map_nil, e2]
            exact List.prefix_rfl
          userAll := fun _ => by
            rw [saidBy_snoc, if_pos rfl, huall rfl, List.map_append]
            simp only [List.map_cons, List.map_nil, e2]
          hears := h.hears
          peer := by rw [saidBy_snoc, if_neg (by decide), List.append_nil]; exact h.peer
          peerAll := fun q => by rw [saidBy_snoc, if_neg (by decide), List.append_nil]; exact h.peerAll q
          fit := h.fit
          heardOpen := h.heardOpen
          heardLast := h.heardLast
          heardEnd := h.heardEnd
          safe := h.safe
          nosend := by
            intro e he
            simp only [List.mem_append, List.mem_singleton] at he
            rcases he with he | rfl
            · exact h.nosend e he
            · exact fun h => by cases h }
      | false =>
        simp only [Bool.false_eq_true, if_false]
        exact { h with
          queue := fun h => by cases h
          left := fun h => by cases h
          read := hread
          leave := dropLast_snoc_mem hstay
          stay := fun h => by cases h
          user := by
            simp only [List.map_append]
            exact prefix_snoc huser _
          userAll := fun h => by cases h }

theorem inv_receive {lines : List Bytes} {r : Receiver} {s : Src} {c : Chat} (h : ChatInv lines r s c) :
    ChatInv lines r s c.receiveTurn := by
  unfold Chat.receiveTurn
  split
  case isFalse => exact h
  case isTrue ht =>
    obtain ⟨ls, rc, inp, wr, ks, ch, ty, li, ta, td, hd, lg, tk⟩ := c
    simp only at ht
    subst ht
    have hfit := h.fit rfl
    have hopen := h.heardOpen rfl
    have hh := h.hears
    simp only at hfit hopen hh
    have hst := fit_step hfit inp
    simp only
    cases hx : rc.recvMessage inp with
    | mk x p =>
    obtain ⟨rc', inp'⟩ := p
    rw [hx] at hst
    simp only at hst
    obtain ⟨hsafe, hgood⟩ := hst
    have hears : r.recvMany (hd ++ [x]).length s = (hd ++ [x], rc', inp') := by
      rw [List.length_append, List.length_singleton, recvMany_add, hh]
      simp only [Receiver.recvMany, hx]
    have hpeer := h.peer
    have hpall := h.peerAll
    simp only at hpall hpeer
    have safe : ∀ y ∈ hd ++ [x], y.isPanic = false := by
      intro y hy
      simp only [List.mem_append, List.mem_singleton] at hy
      rcases hy with hy | rfl
      · exact h.safe y hy
      · exact hsafe
    have hlast : ∀ y ∈ (hd ++ [x]).dropLast, ∃ m, y = .ok m ∧ m.isClose = false := dropLast_snoc_mem hopen
    -- leaving with a close
    have leave : resAnswer x = some .close → ∀ (g : Chat), g = { (Chat.put ⟨ls, rc', inp', wr, ks, ch, ty, true, ta, td, hd ++ [x], lg, tk⟩ .receive (.close none)).2 with listening := false } →
        ChatInv lines r s g := by
      rintro ha g rfl
      simp only [Chat.put]
      cases ta with
      | true =>
        simp only [if_true]
        have hq := h.queue rfl
        simp only at hq
        exact {
          queue := fun _ => by simp only [List.map_append, hq]; simp
          order := by simp only [List.map_append, hq, List.append_assoc]; exact List.prefix_append _ _
          goes := h.goes
          last := h.last
          left := fun _ _ => ⟨.close none, by simp, rfl⟩
          read := h.read
          leave := h.leave
          stay := h.stay
          user := by rw [saidBy_snoc, if_neg (by decide), List.append_nil]; exact h.user
          userAll := fun q => by rw [saidBy_snoc, if_neg (by decide), List.append_nil]; exact h.userAll q
          hears := hears
          peer := by
            rw [saidBy_snoc, if_pos rfl, hpall rfl, List.filterMap_append]
            simp only [List.filterMap_cons, ha, List.filterMap_nil]
            exact List.prefix_rfl
          peerAll := fun _ => by
            rw [saidBy_snoc, if_pos rfl, hpall rfl, List.filterMap_append]
            simp only [List.filterMap_cons, ha, List.filterMap_nil]; rfl
          fit := fun h => by cases h
          heardOpen := fun h => by cases h
          heardLast := hlast
          heardEnd := fun _ => ⟨hd, x, rfl, by rw [ha]; rfl⟩
          safe := safe
          nosend := by
            intro e he
            simp only [List.mem_append, List.mem_singleton] at he
            rcases he with he | rfl
            · exact h.nosend e he
            · exact fun h => by cases h }
      | false =>
        simp only [Bool.false_eq_true, if_false]
        exact { h with
          queue := fun h => by cases h
          left := fun h => by cases h
          hears := hears
          peer := by
            simp only [List.filterMap_append]
            exact prefix_snoc hpeer _
          peerAll := fun h => by cases h
          fit := fun h => by cases h
          heardOpen := fun h => by cases h
          heardLast := hlast
          heardEnd := fun _ => ⟨hd, x, rfl, by rw [ha]; rfl⟩
          safe := safe }
    cases x with
    | panic p => cases hsafe
    | err e => exact leave rfl _ rfl
    | ok m =>
      have hfit' : Fit rc' := (hgood m rfl).1
      have quiet : resAnswer (.ok m) = none → m.isClose = false →
          ChatInv lines r s ⟨ls, rc', inp', wr, ks, ch, ty, true, ta, td, hd ++ [.ok m], lg, tk⟩ := by
        intro ha hc
        exact { h with
          hears := hears
          peer := by
            simp only [List.filterMap_append, List.filterMap_cons, ha, List.filterMap_nil, List.append_nil]
            exact hpeer
          peerAll := fun q => by
            simp only [List.filterMap_append, List.filterMap_cons, ha, List.filterMap_nil, List.append_nil]
            exact hpall q
          fit := fun _ => hfit'
          heardOpen := fun _ y hy => by
            simp only [List.mem_append, List.mem_singleton] at hy
            rcases hy with hy | rfl
            · exact hopen y hy
            · exact ⟨m, rfl, hc⟩
          heardLast := hlast
          heardEnd := fun h => by cases h
          safe := safe }
      cases m with
      | close o => cases o <;> exact leave rfl _ rfl
      | text t => exact quiet rfl rfl
      | binary b => exact quiet rfl rfl
      | pong d => exact quiet rfl rfl
      | ping d =>
        have ha : resAnswer (.ok (.ping d)) = some (.pong d) := rfl
        simp only [Chat.put]
        cases ta with
        | true =>
          simp only [if_true]
          have hq := h.queue rfl
          simp only at hq
          exact {
            queue := fun _ => by simp only [List.map_append, hq]; simp
            order := by simp only [List.map_append, hq, List.append_assoc]; exact List.prefix_append _ _
            goes := h.goes
            last := h.last
            left := fun a b => by
              obtain ⟨m, hm, hc⟩ := h.left a b
              exact ⟨m, List.mem_append_left _ hm, hc⟩
            read := h.read
            leave := h.leave
            stay := h.stay
            user := by rw [saidBy_snoc, if_neg (by decide), List.append_nil]; exact h.user
            userAll := fun q => by rw [saidBy_snoc, if_neg (by decide), List.append_nil]; exact h.userAll q
            hears := hears
            peer := by
              rw [saidBy_snoc, if_pos rfl, hpall rfl, List.filterMap_append]
              simp only [List.filterMap_cons, ha, List.filterMap_nil]
              exact List.prefix_rfl
            peerAll := fun _ => by
              rw [saidBy_snoc, if_pos rfl, hpall rfl, List.filterMap_append]
              simp only [List.filterMap_cons, ha, List.filterMap_nil]; rfl
            fit := fun _ => hfit'
            heardOpen := fun _ y hy => by
              simp only [List.mem_append, List.mem_singleton] at hy
              rcases hy with hy | rfl
              · exact hopen y hy
              · exact ⟨_, rfl, rfl⟩
            heardLast := hlast
            heardEnd := fun h => by cases h
            safe := safe
            nosend := by
              intro e he
              simp only [List.mem_append, List.mem_singleton] at he
              rcases he with he | rfl
              · exact h.nosend e he
              · exact fun h => by cases h }
        | false =>
          simp only [Bool.false_eq_true, if_false]
          exact { h with
            queue := fun h => by cases h
            left := fun h => by cases h
            hears := hears
            peer := by
              simp only [List.filterMap_append]
              exact prefix_snoc hpeer _
            peerAll := fun h => by cases h
            fit := fun h => by cases h
            heardOpen := fun h => by cases h
            heardLast := hlast
            heardEnd := fun _ => ⟨hd, _, rfl, rfl⟩
            safe := safe }

theorem inv_send {lines : List Bytes} {r : Receiver} {s : Src} {c : Chat} (h : ChatInv lines r s c) :
    ChatInv lines r s c.sendTurn := by
  unfold Chat.sendTurn
  split
  case isFalse => exact h
  case isTrue ht =>
    obtain ⟨ls, rc, inp, wr, ks, ch, ty, li, ta, td, hd, lg, tk⟩ := c
    simp only at ht
    subst ht
    have hq := h.queue rfl
    have hgo := h.goes rfl
    have hleft := h.left rfl
    simp only at hq hgo hleft
    cases ch with
    | nil =>
      simp only
      split
      · exact h
      · next hn =>
        simp only [Bool.or_eq_true, not_or, Bool.not_eq_true] at hn
        obtain ⟨m, hm, -⟩ := hleft (.inl hn.1)
        cases hm
    | cons m rest =>
      have ho : tk ++ [m] <+: lg.map Prod.snd := by rw [hq]; exact ⟨rest, by simp⟩
      have hd' : ∀ y ∈ (tk ++ [m]).dropLast, y.isClose = false := dropLast_snoc_mem hgo
      have stop : ∀ (w : Writer) (k : Nat → Key4), ChatInv lines r s ⟨ls, rc, inp, w, k, [], ty, li, false, td, hd, lg, tk ++ [m]⟩ :=
        fun w k => { h with
          queue := fun h => by cases h
          order := ho
          goes := fun h => by cases h
          last := hd'
          left := fun h => by cases h
          userAll := fun h => by cases h
          peerAll := fun h => by cases h }
      have go : m.isClose = false → ∀ (w : Writer) (k : Nat → Key4),
          ChatInv lines r s ⟨ls, rc, inp, w, k, rest, ty, li, true, td, hd, lg, tk ++ [m]⟩ :=
        fun hc w k => { h with
          queue := fun _ => by simp only [hq]; simp
          order := ho
          goes := fun _ y hy => by
            simp only [List.mem_append, List.mem_singleton] at hy
            rcases hy with hy | rfl
            · exact hgo y hy
            · exact hc
          last := hd'
          left := fun _ b => by
            obtain ⟨y, hy, hyc⟩ := hleft b
            simp only [List.mem_cons] at hy
            rcases hy with rfl | hy
            · rw [hc] at hyc; cases hyc
            · exact ⟨y, hy, hyc⟩ }
      simp only [Chat.say]
      split
      · exact stop _ _
      · next hc =>
        simp only [Bool.not_eq_true] at hc
        cases hs : wr.send m.view (ks 0) with
        | mk x w =>
          cases x with
          | ok u => exact go hc _ _
          | err e => exact stop _ _
          | panic p => exact stop _ _

theorem inv_start (lines : List Bytes) {r : Receiver} (hr : Fit r) (s : Src) (w : Writer) (keys : Nat → Key4) :
    ChatInv lines r s (Chat.start lines r s w keys) where
  queue _ := rfl
  order := List.prefix_rfl
  goes _ _ h := by cases h
  last _ h := by cases h
  left _ h := by rcases h with h | h <;> cases h
  read := ⟨0, by simp [Chat.start], .inl rfl⟩
  leave _ h := by cases h
  stay _ _ h := by cases h
  user := List.prefix_rfl
  userAll _ := rfl
  hears := rfl
  peer := List.prefix_rfl
  peerAll _ := rfl
  fit _ := hr
  heardOpen _ _ h := by cases h
  heardLast _ h := by cases h
  heardEnd h := by cases h
  safe _ h := by cases h
  nosend _ h := by cases h

theorem inv_turn {lines : List Bytes} {r : Receiver} {s : Src} {c : Chat} (h : ChatInv lines r s c) (t : Thread) :
    ChatInv lines r s (c.turn t) := by
  cases t with
  | main => exact inv_main h
  | receive => exact inv_receive h
  | send => exact inv_send h

theorem inv_run {lines : List Bytes} {r : Receiver} {s : Src} (ts : List Thread) {c : Chat} (h : ChatInv lines r s c) :
    ChatInv lines r s (c.run ts) := by
  induction ts generalizing c with
  | nil => exact h
  | cons t ts ih => exact ih (inv_turn h t)

/-! ## A transport that takes everything -/

/-- What is on the wire, if the transport takes everything. -/
structure Spoken (lim : Nat) (w : Writer) (c : Chat) : Prop where
  willing : c.writer.stream.Willing
  low : 125 ≤ lim
  high : lim < 2 ^ 63
  sender : c.writer.sender = w.sender
  wire : ∃ bs, c.writer.stream.wire = w.stream.wire ++ bs ∧ Spec.Says w.sender.mask (c.taken.map OwnedMsg.spec) bs
  lines : ∀ l ∈ c.lines, (Spec.Message.text (trim l)).Sendable lim
  log : ∀ e ∈ c.log, e.2.spec.Sendable lim ∧ (e.2.isClose = true → e.2 = .close none)
  stopped : c.talking = false → ∃ a, c.taken = a ++ [.close none]

theorem sendable_line {lim : Nat} (h125 : 125 ≤ lim) {l : Bytes} {m : OwnedMsg} (hl : (Spec.Message.text l).Sendable lim) (h : lineMessage l = some m) :
    m.spec.Sendable lim := by
  unfold lineMessage at h
  split at h
  · cases h
  · split at h <;> cases h
    · exact ⟨by decide, Nat.le_trans (by decide) h125⟩
    · exact hl

theorem sendable_nothing {lim : Nat} : (Spec.Message.text []).Sendable lim := ⟨⟨[], (fun _ h => by cases h), rfl⟩, Nat.zero_le _⟩

theorem log_snoc {log : List (Thread × OwnedMsg)} {t : Thread} {m : OwnedMsg} {P : OwnedMsg → Prop} (h : ∀ e ∈ log, P e.2) (hm : P m) :
    ∀ e ∈ log ++ [(t, m)], P e.2 := by
  intro e he
  simp only [List.mem_append, List.mem_singleton] at he
  rcases he with he | rfl
  · exact h e he
  · exact hm

theorem spoken_main {lim : Nat} {w : Writer} {c : Chat} (h : Spoken lim w c) : Spoken lim w c.mainTurn := by
  unfold Chat.mainTurn
  split
  case isFalse => exact h
  case isTrue =>
    have hl : ∀ l ∈ c.lines.tail, (Spec.Message.text (trim l)).Sendable lim := fun l hl => h.lines l (List.mem_of_mem_tail hl)
    have hh : (Spec.Message.text (trim (c.lines.headD []))).Sendable lim := by
      cases hc : c.lines with
      | nil => rw [List.headD_nil, trim_nil]; exact sendable_nothing
      | cons l ls => exact h.lines l (by rw [hc]; exact List.mem_cons_self)
    obtain ⟨ls, rc, inp, wr, ks, ch, ty, li, ta, td, hd, lg, tk⟩ := c
    simp only [Chat.put]
    cases hm : lineMessage (trim (ls.headD [])) with
    | none =>
      cases ta with
      | true => exact { h with lines := hl, log := log_snoc (P := fun m => m.spec.Sendable lim ∧ (m.isClose = true → m = .close none)) h.log ⟨trivial, fun _ => rfl⟩ }
      | false => exact { h with lines := hl }
    | some m =>
      cases ta with
      | true =>
        exact { h with
          lines := hl
          log := log_snoc (P := fun m => m.spec.Sendable lim ∧ (m.isClose = true → m = .close none)) h.log ⟨sendable_line h.low hh hm, fun q => by rw [(lineMessage_some hm).2.2] at q; cases q⟩ }
      | false => exact { h with lines := hl }

theorem spoken_receive {lim : Nat} {lines : List Bytes} {r : Receiver} {s : Src} {w : Writer} {c : Chat} (hi : ChatInv lines r s c) (h : Spoken lim w c) :
    Spoken lim w c.receiveTurn := by
  unfold Chat.receiveTurn
  split
  case isFalse => exact h
  case isTrue ht =>
    have hst := fit_step (hi.fit ht) c.input
    obtain ⟨ls, rc, inp, wr, ks, ch, ty, li, ta, td, hd, lg, tk⟩ := c
    simp only at hst ⊢
    cases hx : rc.recvMessage inp with
    | mk x p =>
    rw [hx] at hst
    simp only [Chat.put] at hst ⊢
    have byebye : ∀ e ∈ lg ++ [(Thread.receive, OwnedMsg.close none)], e.2.spec.Sendable lim ∧ (e.2.isClose = true → e.2 = .close none) :=
      log_snoc (P := fun m => m.spec.Sendable lim ∧ (m.isClose = true → m = .close none)) h.log ⟨trivial, fun _ => rfl⟩
    cases x with
    | panic p => exact { h with }
    | err e =>
      cases ta with
      | true => exact { h with log := byebye }
      | false => exact { h with }
    | ok m =>
      have hsend := (hst.2 m rfl).2
      cases m with
      | close o =>
        cases ta with
        | true => exact { h with log := byebye }
        | false => exact { h with }
      | text t => exact { h with }
      | binary b => exact { h with }
      | pong d => exact { h with }
      | ping d =>
        cases ta with
        | true => exact { h with log := log_snoc (P := fun m => m.spec.Sendable lim ∧ (m.isClose = true → m = .close none)) h.log ⟨⟨hsend.1, Nat.le_trans hsend.1 h.low⟩, fun q => by cases q⟩ }
        | false => exact { h with }

theorem spoken_send {lim : Nat} {lines : List Bytes} {r : Receiver} {s : Src} {w : Writer} {c : Chat} (hi : ChatInv lines r s c) (h : Spoken lim w c) :
    Spoken lim w c.sendTurn := by
  unfold Chat.sendTurn
  split
  case isFalse => exact h
  case isTrue ht =>
    obtain ⟨ls, rc, inp, wr, ks, ch, ty, li, ta, td, hd, lg, tk⟩ := c
    simp only at ht
    subst ht
    have hq := hi.queue rfl
    have hleft := hi.left rfl
    simp only at hq hleft
    cases ch with
    | nil =>
      simp only
      split
      · exact h
      · next hn =>
        simp only [Bool.or_eq_true, not_or, Bool.not_eq_true] at hn
        obtain ⟨m, hm, -⟩ := hleft (.inl hn.1)
        cases hm
    | cons m rest =>
      have hlog : m.spec.Sendable lim ∧ (m.isClose = true → m = .close none) := by
        have : m ∈ lg.map Prod.snd := by rw [hq]; simp
        obtain ⟨e, he, rfl⟩ := List.mem_map.mp this
        exact h.log e he
      have hw := h.willing
      have hsd := h.sender
      obtain ⟨bs, hb, hsay⟩ := h.wire
      simp only at hw hsd hb hsay
      obtain ⟨b, w', g1, g2, g3, g4, g5⟩ := writer_send wr hw h.high hlog.1 (ks 0)
      have wire : ∃ bs, w'.stream.wire = w.stream.wire ++ bs ∧ Spec.Says w.sender.mask ((tk ++ [m]).map OwnedMsg.spec) bs := by
        refine ⟨bs ++ b, by rw [g4, hb, List.append_assoc], ?_⟩
        rw [List.map_append]
        rw [hsd] at g5
        exact Says.append hsay g5
      simp only [Chat.say, g1]
      split
      · next hc =>
        exact { h with
          willing := g3
          sender := by rw [← hsd]; exact g2
          wire := wire
          stopped := fun _ => ⟨tk, by rw [hlog.2 hc]⟩ }
      · exact { h with
          willing := g3
          sender := by rw [← hsd]; exact g2
          wire := wire
          stopped := fun q => by cases q }

theorem spoken_run {lim : Nat} {lines : List Bytes} {r : Receiver} {s : Src} {w : Writer} (ts : List Thread) {c : Chat} (hi : ChatInv lines r s c)
    (h : Spoken lim w c) : Spoken lim w (c.run ts) := by
  induction ts generalizing c with
  | nil => exact h
  | cons t ts ih =>
    refine ih (inv_turn hi t) ?_
    cases t with
    | main => exact spoken_main h
    | receive => exact spoken_receive hi h
    | send => exact spoken_send hi h

theorem spoken_start {lim : Nat} (h125 : 125 ≤ lim) (hlim : lim < 2 ^ 63) {lines : List Bytes} (hl : ∀ l ∈ lines, (Spec.Message.text (trim l)).Sendable lim) (r : Receiver) (s : Src)
    {w : Writer} (hw : w.stream.Willing) (keys : Nat → Key4) : Spoken lim w (Chat.start lines r s w keys) where
  willing := hw
  low := h125
  high := hlim
  sender := rfl
  wire := ⟨[], by simp [Chat.start], says_nil _⟩
  lines := hl
  log _ h := by cases h
  stopped h := by cases h

/-- A line that can be sent can be sent when trimmed. -/
theorem sendable_trim {lim : Nat} {l : Bytes} (h : (Spec.Message.text l).Sendable lim) : (Spec.Message.text (trim l)).Sendable lim := by
  refine ⟨padded_utf8 (padded_trim l) h.1, Nat.le_trans ?_ h.2⟩
  obtain ⟨a, b, hab, -⟩ := padded_trim l
  have := congrArg List.length hab
  simp only [List.length_append] at this
  omega

/-! ## Coming to an end -/

theorem Chat.run_append (c : Chat) (a b : List Thread) : c.run (a ++ b) = (c.run a).run b := by
  induction a generalizing c with
  | nil => rfl
  | cons t a ih => exact ih _

/-- The other threads only append to the queue, and do not stop the send thread. -/
theorem main_keeps (c : Chat) : c.mainTurn.talking = c.talking ∧ c.channel <+: c.mainTurn.channel ∧ c.mainTurn.writer = c.writer ∧
    c.mainTurn.taken = c.taken ∧ c.mainTurn.listening = c.listening ∧ c.mainTurn.input = c.input := by
  obtain ⟨ls, rc, inp, wr, ks, ch, ty, li, ta, td, hd, lg, tk⟩ := c
  cases ty with
  | false => exact ⟨rfl, List.prefix_rfl, rfl, rfl, rfl, rfl⟩
  | true =>
    simp only [Chat.mainTurn, Chat.put, if_true]
    cases lineMessage (trim (ls.headD [])) <;> cases ta <;>
      first
        | exact ⟨rfl, List.prefix_append _ _, rfl, rfl, rfl, rfl⟩
        | exact ⟨rfl, List.prefix_rfl, rfl, rfl, rfl, rfl⟩

theorem receive_keeps (c : Chat) : c.receiveTurn.talking = c.talking ∧ c.channel <+: c.receiveTurn.channel ∧ c.receiveTurn.writer = c.writer ∧
    c.receiveTurn.taken = c.taken ∧ c.receiveTurn.typing = c.typing := by
  unfold Chat.receiveTurn Chat.put
  split
  · generalize c.receiver.recvMessage c.input = q
    obtain ⟨x, r, s⟩ := q
    by_cases h : c.talking = true <;> simp only [h, if_true, if_false] <;> split <;>
      first
        | exact ⟨rfl, List.prefix_append _ _, rfl, rfl, rfl⟩
        | exact ⟨rfl, List.prefix_rfl, rfl, rfl, rfl⟩
        | exact ⟨h, List.prefix_append _ _, rfl, rfl, rfl⟩
        | exact ⟨by simpa using h, List.prefix_rfl, rfl, rfl, rfl⟩
  · exact ⟨rfl, List.prefix_rfl, rfl, rfl, rfl⟩

theorem send_keeps (c : Chat) : c.sendTurn.typing = c.typing ∧ c.sendTurn.listening = c.listening ∧ c.sendTurn.input = c.input := by
  unfold Chat.sendTurn Chat.say
  split
  · split
    · split <;> exact ⟨rfl, rfl, rfl⟩
    · simp only
      split
      · exact ⟨rfl, rfl, rfl⟩
      · split <;> (next h => simp only [Prod.mk.injEq] at h; obtain ⟨-, rfl⟩ := h; exact ⟨rfl, rfl, rfl⟩)
  · exact ⟨rfl, rfl, rfl⟩

/-- Nothing is said once the send thread is gone. -/
theorem talked (c : Chat) (h : c.talking = false) (ts : List Thread) :
    (c.run ts).talking = false ∧ (c.run ts).writer = c.writer ∧ (c.run ts).taken = c.taken := by
  induction ts generalizing c with
  | nil => exact ⟨h, rfl, rfl⟩
  | cons t ts ih =>
    have key : (c.turn t).talking = false ∧ (c.turn t).writer = c.writer ∧ (c.turn t).taken = c.taken := by
      cases t with
      | main => obtain ⟨a, -, b, d, -⟩ := main_keeps c; exact ⟨a.trans h, b, d⟩
      | receive => obtain ⟨a, -, b, d, -⟩ := receive_keeps c; exact ⟨a.trans h, b, d⟩
      | send => simp only [Chat.turn, Chat.sendTurn, h, Bool.false_eq_true, if_false]; exact ⟨trivial, trivial, trivial⟩
    obtain ⟨a, b, d⟩ := ih _ key.1
    exact ⟨a, b.trans key.2.1, d.trans key.2.2⟩

/-- One turn of the send thread uses up one message. -/
theorem send_progress (c : Chat) (m : OwnedMsg) (rest : List OwnedMsg) (h : c.channel = m :: rest) (ht : c.talking = true) :
    c.sendTurn.talking = false ∨ (m.isClose = false ∧ c.sendTurn.talking = true ∧ c.sendTurn.channel = rest) := by
  obtain ⟨ls, rc, inp, wr, ks, ch, ty, li, ta, td, hd, lg, tk⟩ := c
  simp only at h ht
  subst h ht
  simp only [Chat.sendTurn, Chat.say, if_true]
  by_cases hc : m.isClose = true
  · simp only [hc, if_true]; exact .inl trivial
  · simp only [hc, Bool.false_eq_true, if_false]
    generalize wr.send m.view (ks 0) = q
    obtain ⟨x, w⟩ := q
    cases x with
    | ok u => exact .inr ⟨trivial, rfl, rfl⟩
    | err e => exact .inl rfl
    | panic p => exact .inl rfl

/-- A close in the queue ends the send thread when its turn comes. -/
theorem closes (ts : List Thread) (c : Chat) (a : List OwnedMsg) (z : OwnedMsg) (hz : z.isClose = true)
    (hch : c.talking = true → a ++ [z] <+: c.channel) (hn : a.length < ts.count .send) : (c.run ts).talking = false := by
  induction ts generalizing c a with
  | nil => simp at hn
  | cons t ts ih =>
    by_cases ht : c.talking = true
    case neg => exact (talked c (by simpa using ht) _).1
    case pos =>
    have hp := hch ht
    cases t with
    | main =>
      obtain ⟨-, k2, -⟩ := main_keeps c
      exact ih _ a (fun _ => hp.trans k2) (by simpa [List.count_cons] using hn)
    | receive =>
      obtain ⟨-, k2, -⟩ := receive_keeps c
      exact ih _ a (fun _ => hp.trans k2) (by simpa [List.count_cons] using hn)
    | send =>
      simp only [List.count_cons_self] at hn
      cases a with
      | nil =>
        obtain ⟨rest, hr⟩ := hp
        simp only [List.nil_append, List.cons_append] at hr
        rcases send_progress c z rest hr.symm ht with h | ⟨h, -⟩
        · exact (talked _ h ts).1
        · rw [hz] at h; cases h
      | cons m a =>
        obtain ⟨rest, hr⟩ := hp
        simp only [List.cons_append] at hr
        rcases send_progress c m _ hr.symm ht with h | ⟨-, -, h⟩
        · exact (talked _ h ts).1
        · refine ih _ a (fun _ => ?_) (by simp only [List.length_cons] at hn; omega)
          show a ++ [z] <+: c.sendTurn.channel
          rw [h]
          exact ⟨rest, rfl⟩

/-- Threads that are gone stay gone. -/
theorem gone (ts : List Thread) (c : Chat) :
    (c.typing = false → (c.run ts).typing = false) ∧ (c.listening = false → (c.run ts).listening = false) := by
  induction ts generalizing c with
  | nil => exact ⟨id, id⟩
  | cons t ts ih =>
    obtain ⟨i1, i2⟩ := ih (c.turn t)
    refine ⟨fun h => i1 ?_, fun h => i2 ?_⟩
    · cases t with
      | main => simp only [Chat.turn, Chat.mainTurn, h, Bool.false_eq_true, if_false]
      | receive => exact ((receive_keeps c).2.2.2.2).trans h
      | send => exact (send_keeps c).1.trans h
    · cases t with
      | main => exact (main_keeps c).2.2.2.2.1.trans h
      | receive => simp only [Chat.turn, Chat.receiveTurn, h, Bool.false_eq_true, if_false]
      | send => exact (send_keeps c).2.1.trans h

theorem receive_progress (c : Chat) : c.receiveTurn.listening = false ∨ c.receiveTurn.input.measure < c.input.measure := by
  by_cases hl : c.listening = true
  case neg => left; simp only [Chat.receiveTurn, hl, Bool.false_eq_true, if_false]
  case pos =>
  obtain ⟨ls, rc, inp, wr, ks, ch, ty, li, ta, td, hd, lg, tk⟩ := c
  simp only at hl
  subst hl
  simp only [Chat.receiveTurn, Chat.put, if_true]
  cases hx : rc.recvMessage inp with
  | mk x p =>
  obtain ⟨r', s'⟩ := p
  cases x with
  | err e => exact .inl rfl
  | panic e => exact .inl rfl
  | ok m =>
    have := recvMessage_measure hx
    cases m with
    | close o => exact .inl rfl
    | ping d =>
      cases ta with
      | true => exact .inr this
      | false => exact .inl rfl
    | text t => exact .inr this
    | binary t => exact .inr this
    | pong t => exact .inr this

/-- The input comes to an end, so the receive thread does. -/
theorem listened (ts : List Thread) (c : Chat) (h : c.input.measure < ts.count .receive) : (c.run ts).listening = false := by
  induction ts generalizing c with
  | nil => simp at h
  | cons t ts ih =>
    cases t with
    | main =>
      refine ih _ ?_
      have : (c.turn .main).input = c.input := (main_keeps c).2.2.2.2.2
      rw [this]
      simpa [List.count_cons] using h
    | send =>
      refine ih _ ?_
      have : (c.turn .send).input = c.input := (send_keeps c).2.2
      rw [this]
      simpa [List.count_cons] using h
    | receive =>
      simp only [List.count_cons_self] at h
      rcases receive_progress c with hp | hp
      · exact (gone ts _).2 hp
      · exact ih _ (by show c.receiveTurn.input.measure < _; omega)

/-- Without the send thread, the next line ends the main thread. -/
theorem typed_last (c : Chat) (h : c.talking = false) : c.mainTurn.typing = false := by
  by_cases ht : c.typing = true
  case neg => simp only [Chat.mainTurn, ht, Bool.false_eq_true, if_false]
  case pos =>
  simp only [Chat.mainTurn, Chat.put, ht, h, if_true, Bool.false_eq_true, if_false]
  split <;> rfl

theorem main_left (ts : List Thread) (c : Chat) (h : c.talking = false) (hm : .main ∈ ts) : (c.run ts).typing = false := by
  induction ts generalizing c with
  | nil => cases hm
  | cons t ts ih =>
    by_cases ht : t = .main
    · subst ht
      exact (gone ts _).1 (typed_last c h)
    · refine ih _ (talked c h [t]).1 ?_
      simp only [List.mem_cons] at hm
      rcases hm with rfl | hm
      · exact absurd rfl ht
      · exact hm

/-- A receive thread that has come to its end has heard everything up to the close. -/
theorem heard_all {r r' : Receiver} {s s' : Src} {heard : List (Res OwnedMsg)} {init : List OwnedMsg} {z : OwnedMsg} (hz : z.isClose = true)
    (hq : ∀ m ∈ init, m.spec.answer = none) (hi : (r.recvMany (init.length + 1) s).1 = (init ++ [z]).map Res.ok)
    (hh : r.recvMany heard.length s = (heard, r', s')) (hlast : ∀ x ∈ heard.dropLast, ∃ m, x = .ok m ∧ m.isClose = false)
    (hend : ∃ a x, heard = a ++ [x] ∧ (resAnswer x).isSome = true) : heard = (init ++ [z]).map Res.ok := by
  rcases Nat.lt_or_ge heard.length (init.length + 1) with hlt | hge
  · exfalso
    obtain ⟨d, hd⟩ : ∃ d, init.length + 1 = heard.length + d := ⟨init.length + 1 - heard.length, by omega⟩
    rw [hd, recvMany_add, hh] at hi
    simp only at hi
    obtain ⟨a, x, rfl, hx⟩ := hend
    have hp : a ++ [x] <+: init.map Res.ok := by
      have h1 : a ++ [x] <+: (init ++ [z]).map Res.ok := ⟨_, hi⟩
      rw [List.map_append] at h1
      exact List.prefix_of_prefix_length_le h1 (List.prefix_append _ _) (by simp only [List.length_map]; omega)
    have : x ∈ init.map Res.ok := hp.mem (by simp)
    obtain ⟨m, hm, rfl⟩ := List.mem_map.mp this
    simp only [resAnswer, hq m hm] at hx
    cases hx
  · obtain ⟨d, hd⟩ : ∃ d, heard.length = init.length + 1 + d := ⟨heard.length - (init.length + 1), by omega⟩
    have h1 : heard = (init ++ [z]).map Res.ok ++ ((r.recvMany (init.length + 1) s).2.1.recvMany d (r.recvMany (init.length + 1) s).2.2).1 := by
      have : (r.recvMany heard.length s).1 = heard := by rw [hh]
      rw [hd, recvMany_add, hi] at this
      exact this.symm
    cases d with
    | zero => rw [h1]; simp [Receiver.recvMany]
    | succ d =>
      exfalso
      have hz' : .ok z ∈ heard.dropLast := by
        have hne : ((r.recvMany (init.length + 1) s).2.1.recvMany (d + 1) (r.recvMany (init.length + 1) s).2.2).1 ≠ [] := by
          simp [Receiver.recvMany]
        rw [h1, List.dropLast_append_of_ne_nil hne]
        simp
      obtain ⟨m, hm, hc⟩ := hlast _ hz'
      cases hm
      rw [hz] at hc
      cases hc

/-! ## Getting there -/

theorem chatOps_text : ∀ op ∈ chatOps, GivesText op := givesText_of rfl

/-- Whether it connects or not, the client has written its request, and nothing else. -/
theorem connect_output [B64] (p : ResParser) (fresh : WsKey) (url : Url) (ops : List BOp) (d : Duplex) (htx : ∀ op ∈ ops, GivesText op)
    (hw : d.output.Willing) :
    ∃ w : Sink, w.Willing ∧ w.wire = d.output.wire ++ Spec.Head (requestStart url) (requestLines url ops fresh) ∧
      ((∃ d' e, (((Builder.init url).run ops).connectOn p fresh d).1 = .err (some d') e ∧ d'.output = w) ∨
        ∃ c, (((Builder.init url).run ops).connectOn p fresh d).1 = .client c ∧ c.stream.inner.output = w) := by
  have hwa := writeAll_willing (Spec.Head (requestStart url) (requestLines url ops fresh)) d.output hw
  cases hx : Sink.writeAll (Spec.Head (requestStart url) (requestLines url ops fresh)) d.output with
  | mk r w =>
    rw [hx] at hwa
    simp only at hwa
    obtain ⟨rfl, hwill⟩ := hwa
    refine ⟨w, hwill, writeAll_ok hx, ?_⟩
    have key : ∀ r, (((Builder.init url).run ops).connectOn p fresh d).1 = r →
        (∃ d' e, r = .err (some d') e ∧ d'.output = w) ∨ ∃ c, r = .client c ∧ c.stream.inner.output = w := by
      intro r hr
      have hin := parseHead_inner p (BufReader.new ({ d with output := w } : Duplex))
      have hd := request_data url ops fresh
      rw [connect_text p fresh d _ (writable_request url ops htx fresh)] at hr
      unfold Builder.connectText at hr
      simp only [hd, hx] at hr
      split at hr
      · cases hr
        next reader hp =>
        rw [hp] at hin
        obtain ⟨s, hs⟩ := hin
        exact .inl ⟨_, _, rfl, by simp only at hs; rw [hs]; rfl⟩
      · next reader hp =>
        rw [hp] at hin
        obtain ⟨s, hs⟩ := hin
        simp only at hs
        split at hr
        · cases hr; exact .inl ⟨_, _, rfl, by rw [hs]; rfl⟩
        · cases hr
          refine .inr ⟨_, rfl, ?_⟩
          show reader.inner.output = w
          rw [hs]; rfl
    exact key _ rfl

/-- The loops begin with what follows the response. -/
theorem chat_reaches [B64] (p : ResParser) (key fresh : WsKey) (url : Url) (rlines : List (Bytes × Bytes)) (d : Duplex) (y : Bytes)
    (ha : Answers key rlines) (hs : Sendable rlines)
    (hk : (((Builder.init url).run chatOps).buildRequest fresh).2.headers.getKey = some key)
    (hl : (head101 .http11 rlines).length ≤ maxBufferSize) (hc : d.input.Chunks) (hf : d.input.flat = head101 .http11 rlines ++ y)
    (hw : d.output.Willing) :
    ∃ (s : Src) (w : Writer), s.Clean ∧ s.flat = y ∧ w.stream.Willing ∧ w.sender.mask = true ∧
      w.stream.wire = d.output.wire ++ Spec.Head (requestStart url) (requestLines url chatOps fresh) ∧
      ∀ lines keys ts, chatClient p fresh url (.ok ()) lines keys ts d =
        .ok ((Chat.start lines (Receiver.newWithLimits false (100 * 2 ^ 20) (100 * 2 ^ 20)) s w keys).run ts) := by
  have hp := parse_lines p .http11 ⟨101, ascii "Switching Protocols"⟩ okRes101 hs
  rw [← resStart] at hp
  have hwa := writeAll_willing (Spec.Head (requestStart url) (requestLines url chatOps fresh)) d.output hw
  rcases C35_client_takes p key fresh url chatOps rlines d y chatOps_text ha hs hk hl hc hf with ⟨k, hk', _⟩ | ⟨c, g1, g2, g3, g4, g5, g6⟩
  · rw [hwa.1] at hk'; cases hk'
  · have hlm := C39_client_limits_partial p fresh d url chatOps c g1
    have hin := connectOn_chunks p fresh _ d _ y _ hp hl hc hf c g1
    refine ⟨c.stream.src, ⟨c.stream.inner.output, c.sender⟩, src_clean hin.1, by rw [C41_pending_read, g4], hw.suffix hin.2, g6, g2, ?_⟩
    intro lines keys ts
    unfold chatClient
    rw [g1]
    simp only
    rcases C30_split_state c (.ok ()) with ⟨k, hk, -⟩ | ⟨r, w, q1, q2, q3, q4, q5, q6⟩
    · cases hk
    · have : w = ⟨c.stream.inner.output, c.sender⟩ := by cases w; simp only at q5 q6; subst q5 q6; rfl
      subst this
      rw [q1]
      simp only [q2, q4, receiver_eq hlm.1 g5]
      rfl

/-- It offers the protocol the server wants. -/
theorem chat_offers (url : Url) (fresh : WsKey) :
    rustWebsocket ∈ (Headers.fromRaw (requestLines url chatOps fresh)).getProtocol.getD [] := by
  have h := C35_protocols url [] chatOps fresh (.inl rfl)
    (by intro op ho; simp only [chatOps, List.mem_singleton] at ho; subst ho; exact ⟨(by rintro (h | ⟨n, h, _⟩) <;> cases h), trivial⟩)
    (by
      intro x hx
      have : x = ascii "rust-websocket" := by simpa [chatOps, addedProtocols] using hx
      subst this
      exact ⟨⟨by decide, by decide, (trimmed_iff _).mpr (by decide), isUtf8_ascii (by decide)⟩, by decide⟩)
    (⟨[], ⟨[], ⟨[], []⟩⟩, ⟨.http11, ⟨.get, []⟩, .fromRaw (requestLines url chatOps fresh)⟩, ()⟩ : Upgrade Unit) rfl
  unfold Upgrade.protocols at h
  simp only at h
  rw [h]
  decide

end WS
