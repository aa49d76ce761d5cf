import Verif.Lemmas.Head
import Verif.Lemmas.Talk
/-!
# Reading a result off a computation

Used in the examples beside the theorems only: the kernel computes whether a concrete run succeeds, and these lemmas give
the value it succeeded with.
-/

namespace WS

theorem ok_of_isOk {ε α : Type} {x : Except ε α} (h : x.isOk = true) : ∃ a, x = .ok a := by
  cases x with
  | ok a => exact ⟨a, rfl⟩
  | error e => cases h

theorem error_of_isOk {ε α : Type} {x : Except ε α} (h : x.isOk = false) : ∃ e, x = .error e := by
  cases x with
  | ok a => cases h
  | error e => exact ⟨e, rfl⟩

theorem some_of_isSome {α : Type} {x : Option α} (h : x.isSome = true) : ∃ a, x = some a := by
  cases x with
  | some a => exact ⟨a, rfl⟩
  | none => cases h

/-- The client a blocking `connect` returned, if it returned one. -/
def ConnectRes.client? : ConnectRes → Option Client
  | .client c => some c
  | .err _ _ => none
  | .panic _ => none

theorem ConnectRes.exists_client {x : ConnectRes} (h : x.client?.isSome = true) : ∃ c, x = .client c := by
  cases x with
  | client c => exact ⟨c, rfl⟩
  | err s e => cases h
  | panic w => cases h

/-- The client an async `connect` resolved to, if it did. -/
def AsyncConnectRes.client? : AsyncConnectRes → Option AsyncClient
  | .client c => some c
  | .err _ _ => none
  | .panic _ => none

theorem AsyncConnectRes.exists_client {x : AsyncConnectRes} (h : x.client?.isSome = true) : ∃ c, x = .client c := by
  cases x with
  | client c => exact ⟨c, rfl⟩
  | err s e => cases h
  | panic w => cases h

/-- The client a blocking `accept` returned, if it returned one. -/
def AcceptRes.client? : AcceptRes → Option Client
  | .client c => some c
  | .err _ _ => none
  | .panic _ => none

theorem AcceptRes.exists_client {x : AcceptRes} (h : x.client?.isSome = true) : ∃ c, x = .client c := by
  cases x with
  | client c => exact ⟨c, rfl⟩
  | err s e => cases h
  | panic w => cases h

/-- The client an async `accept` resolved to, if it did. -/
def AsyncRes.client? : AsyncRes → Option AsyncClient
  | .client c => some c
  | .err _ _ => none
  | .panic _ => none

theorem AsyncRes.exists_client {x : AsyncRes} (h : x.client?.isSome = true) : ∃ c, x = .client c := by
  cases x with
  | client c => exact ⟨c, rfl⟩
  | err s e => cases h
  | panic w => cases h

/-- A piece of input that is there. -/
def Ev.here : Ev → Bool
  | .chunk b => !b.isEmpty
  | .error _ => false

/-- A piece of input that is there, or a transport that has none yet. -/
def Ev.hereOrLater : Ev → Bool
  | .chunk b => !b.isEmpty
  | .error k => decide (k = .wouldBlock)

theorem Src.chunks_of {s : Src} (h : s.all Ev.here = true) : s.Chunks := by
  intro e he
  have := List.all_eq_true.mp h e he
  cases e with
  | chunk b => exact ⟨b, rfl, by rintro rfl; cases this⟩
  | error k => cases this

theorem Src.ready_of {s : Src} (h : s.all Ev.hereOrLater = true) : s.Ready := by
  induction s with
  | nil => trivial
  | cons e s ih =>
    rw [List.all_cons, Bool.and_eq_true] at h
    cases e with
    | chunk b => exact ⟨(by rintro rfl; have := h.1; cases this), ih h.2⟩
    | error k => exact ⟨of_decide_eq_true h.1, ih h.2⟩

theorem Src.not_fails_of {s : Src} (h : s.all Ev.hereOrLater = true) : ∀ e ∈ s, ¬ e.fails := by
  intro e he
  have := List.all_eq_true.mp h e he
  cases e with
  | chunk b => intro hb; rw [show b = [] from hb] at this; cases this
  | error k => exact fun hk => hk (of_decide_eq_true this)

/-- A transport that takes something, or nothing yet. -/
def WEv.someOrLater : WEv → Bool
  | .accept n => decide (0 < n)
  | .error k => decide (k = .wouldBlock)

theorem Sink.patient_of {w : Sink} (h : w.script.all WEv.someOrLater = true) : w.Patient := by
  intro e he
  have := List.all_eq_true.mp h e he
  cases e with
  | accept n => exact .inr ⟨n, of_decide_eq_true this, rfl⟩
  | error k => exact .inl (congrArg _ (of_decide_eq_true this))

theorem Sink.willing_of {w : Sink} (h : w.script.all (fun e => match e with | .accept n => decide (0 < n) | .error k => decide (k = .interrupted)) = true) :
    w.Willing := by
  intro e he
  have := List.all_eq_true.mp h e he
  cases e with
  | accept n => exact .inr ⟨n, of_decide_eq_true this, rfl⟩
  | error k => exact .inl (congrArg _ (of_decide_eq_true this))

end WS
