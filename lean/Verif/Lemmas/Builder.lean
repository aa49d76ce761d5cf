import Verif.Lemmas.Response
import Verif.Lemmas.Headers
import Verif.Model.Builder
import Verif.Props.Response
/-!
# What a builder call does to one header
-/

namespace WS

open Spec

/-- The call can change the header called `name`. -/
def BOp.touches (name : Bytes) : BOp → Bool
  | .addProtocol _ | .addProtocols _ | .clearProtocols => eqIgnoreCase nProtocol name
  | .addExtension _ | .addExtensions _ | .clearExtensions => eqIgnoreCase nExtensions name
  | .maxDataframeSize _ | .maxMessageSize _ => false
  | .key _ | .clearKey => eqIgnoreCase nKey name
  | .version _ | .clearVersion => eqIgnoreCase nVersion name
  | .origin _ | .clearOrigin => eqIgnoreCase nOrigin name
  | .customHeaders h => h.any fun e => eqIgnoreCase e.1 name
  | .clearHeader n => eqIgnoreCase n name

theorem run_append (b : Builder) (x y : List BOp) : b.run (x ++ y) = (b.run x).run y := by
  simp [Builder.run]

theorem run_cons (b : Builder) (op : BOp) (y : List BOp) : b.run (op :: y) = (b.step op).run y := rfl

theorem unique_step {b : Builder} (hu : b.headers.Unique) (op : BOp) : (b.step op).headers.Unique := by
  cases op with
  | addProtocol p => exact unique_upsertProtocol hu _
  | addProtocols p => exact unique_upsertProtocol hu _
  | clearProtocols => exact unique_remove hu _
  | addExtension p => exact unique_upsertExtensions hu _
  | addExtensions p => exact unique_upsertExtensions hu _
  | clearExtensions => exact unique_remove hu _
  | maxDataframeSize n => exact hu
  | maxMessageSize n => exact hu
  | key k => exact unique_insert hu _ _
  | clearKey => exact unique_remove hu _
  | version v => exact unique_insert hu _ _
  | clearVersion => exact unique_remove hu _
  | origin o => exact unique_insert hu _ _
  | clearOrigin => exact unique_remove hu _
  | customHeaders h => exact unique_extend hu _
  | clearHeader n => exact unique_remove hu _

theorem unique_run {b : Builder} (hu : b.headers.Unique) (ops : List BOp) : (b.run ops).headers.Unique := by
  induction ops generalizing b with
  | nil => exact hu
  | cons op ops ih => rw [run_cons]; exact ih (unique_step hu op)

theorem unique_init (url : Url) (ops : List BOp) : ((Builder.init url).run ops).headers.Unique :=
  unique_run (by simp [Builder.init, Headers.Unique]) ops

theorem item_remove_other {h : Headers} (hu : h.Unique) {n m : Bytes} (hn : eqIgnoreCase n m = false) :
    (Headers.remove n h).item m = h.item m := by
  rw [item_remove hu, hn]; rfl

theorem item_extend_other {h c : Headers} {n : Bytes} (hn : (c.any fun e => eqIgnoreCase e.1 n) = false) :
    (h.extend c).item n = h.item n := by
  rw [item_extend]
  have : Headers.item n c.reverse = none := by
    rw [item_none_iff]
    intro e he
    rw [List.any_eq_false] at hn
    have := hn e (by simpa using he)
    simpa using this
  rw [this]; rfl

theorem step_item {b : Builder} (hu : b.headers.Unique) {op : BOp} {n : Bytes} (h : op.touches n = false) :
    (b.step op).headers.item n = b.headers.item n := by
  cases op with
  | addProtocol p => exact other_upsertProtocol _ h
  | addProtocols p => exact other_upsertProtocol _ h
  | clearProtocols => exact item_remove_other hu h
  | addExtension p => exact other_upsertExtensions _ h
  | addExtensions p => exact other_upsertExtensions _ h
  | clearExtensions => exact item_remove_other hu h
  | maxDataframeSize n => rfl
  | maxMessageSize n => rfl
  | key k => exact item_insert_other h _ _
  | clearKey => exact item_remove_other hu h
  | version v => exact item_insert_other h _ _
  | clearVersion => exact item_remove_other hu h
  | origin o => exact item_insert_other h _ _
  | clearOrigin => exact item_remove_other hu h
  | customHeaders h' => exact item_extend_other h
  | clearHeader n => exact item_remove_other hu h

theorem run_item {b : Builder} (hu : b.headers.Unique) {ops : List BOp} {n : Bytes} (h : ∀ op ∈ ops, op.touches n = false) :
    (b.run ops).headers.item n = b.headers.item n := by
  induction ops generalizing b with
  | nil => rfl
  | cons op ops ih =>
    rw [run_cons, ih (unique_step hu op) (fun o ho => h o (by simp [ho])), step_item hu (h op (by simp))]

/-- The names `build_request` sets. -/
def builtNames : List Bytes := [nHost, nAuthorization, nConnection, nUpgrade, nVersion, nKey]

theorem unique_build {b : Builder} (hu : b.headers.Unique) (fresh : WsKey) : (b.buildRequest fresh).2.headers.Unique := by
  unfold Builder.buildRequest
  simp only [Headers.setConnection, Headers.setUpgrade, Headers.setVersion, Headers.setKey]
  cases b.url.host <;> by_cases hn : b.url.username = [] <;> cases b.versionSet <;> cases b.keySet <;>
    simp only [hn, ne_eq, not_true, not_false_iff, if_true, if_false, Bool.not_true, Bool.not_false, Bool.false_eq_true] <;>
    (repeat (first | exact hu | apply unique_insert))

theorem build_item {b : Builder} {n : Bytes} (h : ∀ m ∈ builtNames, eqIgnoreCase m n = false) (fresh : WsKey) :
    (b.buildRequest fresh).2.headers.item n = b.headers.item n := by
  have h1 := h nHost (by decide)
  have h2 := h nAuthorization (by decide)
  have h3 := h nConnection (by decide)
  have h4 := h nUpgrade (by decide)
  have h5 := h nVersion (by decide)
  have h6 := h nKey (by decide)
  unfold Builder.buildRequest
  simp only [Headers.setConnection, Headers.setUpgrade, Headers.setVersion, Headers.setKey]
  cases b.url.host <;> by_cases hn : b.url.username = [] <;> cases b.versionSet <;> cases b.keySet <;>
    simp only [hn, ne_eq, not_true, not_false_iff, if_true, if_false, Bool.not_true, Bool.not_false, Bool.false_eq_true,
      item_insert_other h1, item_insert_other h2, item_insert_other h3, item_insert_other h4, item_insert_other h5, item_insert_other h6]

theorem build_key (b : Builder) (fresh : WsKey) : (b.buildRequest fresh).2.headers.item nKey =
    if b.keySet then b.headers.item nKey else some (.typed (.key fresh)) := by
  have h1 : eqIgnoreCase nHost nKey = false := by decide +kernel
  have h2 : eqIgnoreCase nAuthorization nKey = false := by decide +kernel
  have h3 : eqIgnoreCase nConnection nKey = false := by decide +kernel
  have h4 : eqIgnoreCase nUpgrade nKey = false := by decide +kernel
  have h5 : eqIgnoreCase nVersion nKey = false := by decide +kernel
  unfold Builder.buildRequest
  simp only [Headers.setConnection, Headers.setUpgrade, Headers.setVersion, Headers.setKey]
  cases b.url.host <;> by_cases hn : b.url.username = [] <;> cases b.versionSet <;> cases b.keySet <;>
    simp only [hn, ne_eq, not_true, not_false_iff, if_true, if_false, Bool.not_true, Bool.not_false, Bool.false_eq_true, item_insert_same,
      item_insert_other h1, item_insert_other h2, item_insert_other h3, item_insert_other h4, item_insert_other h5]

theorem build_version (b : Builder) (fresh : WsKey) : (b.buildRequest fresh).2.headers.item nVersion =
    if b.versionSet then b.headers.item nVersion else some (.typed (.version .ws13)) := by
  have h1 : eqIgnoreCase nHost nVersion = false := by decide +kernel
  have h2 : eqIgnoreCase nAuthorization nVersion = false := by decide +kernel
  have h3 : eqIgnoreCase nConnection nVersion = false := by decide +kernel
  have h4 : eqIgnoreCase nUpgrade nVersion = false := by decide +kernel
  have h5 : eqIgnoreCase nKey nVersion = false := by decide +kernel
  unfold Builder.buildRequest
  simp only [Headers.setConnection, Headers.setUpgrade, Headers.setVersion, Headers.setKey]
  cases b.url.host <;> by_cases hn : b.url.username = [] <;> cases b.versionSet <;> cases b.keySet <;>
    simp only [hn, ne_eq, not_true, not_false_iff, if_true, if_false, Bool.not_true, Bool.not_false, Bool.false_eq_true, item_insert_same,
      item_insert_other h1, item_insert_other h2, item_insert_other h3, item_insert_other h4, item_insert_other h5]

theorem build_upgrade (b : Builder) (fresh : WsKey) : (b.buildRequest fresh).2.headers.item nUpgrade =
    some (.typed (.upgrade [⟨.websocket, none⟩])) := by
  have h3 : eqIgnoreCase nKey nUpgrade = false := by decide +kernel
  have h4 : eqIgnoreCase nVersion nUpgrade = false := by decide +kernel
  unfold Builder.buildRequest
  simp only [Headers.setConnection, Headers.setUpgrade, Headers.setVersion, Headers.setKey]
  cases b.versionSet <;> cases b.keySet <;>
    simp only [if_true, if_false, Bool.not_true, Bool.not_false, Bool.false_eq_true, item_insert_same,
      item_insert_other h3, item_insert_other h4]

theorem build_conn (b : Builder) (fresh : WsKey) : (b.buildRequest fresh).2.headers.item nConnection =
    some (.typed (.connection [.header (ascii "Upgrade")])) := by
  have h3 : eqIgnoreCase nKey nConnection = false := by decide +kernel
  have h4 : eqIgnoreCase nVersion nConnection = false := by decide +kernel
  have h5 : eqIgnoreCase nUpgrade nConnection = false := by decide +kernel
  unfold Builder.buildRequest
  simp only [Headers.setConnection, Headers.setUpgrade, Headers.setVersion, Headers.setKey]
  cases b.versionSet <;> cases b.keySet <;>
    simp only [if_true, if_false, Bool.not_true, Bool.not_false, Bool.false_eq_true, item_insert_same,
      item_insert_other h3, item_insert_other h4, item_insert_other h5]

theorem build_host (b : Builder) (fresh : WsKey) (h : b.url.host ≠ none) : (b.buildRequest fresh).2.headers.item nHost =
    some (.typed (.other b.url.hostHeader)) := by
  have h1 : eqIgnoreCase nKey nHost = false := by decide +kernel
  have h2 : eqIgnoreCase nAuthorization nHost = false := by decide +kernel
  have h3 : eqIgnoreCase nConnection nHost = false := by decide +kernel
  have h4 : eqIgnoreCase nUpgrade nHost = false := by decide +kernel
  have h5 : eqIgnoreCase nVersion nHost = false := by decide +kernel
  unfold Builder.buildRequest
  simp only [Headers.setConnection, Headers.setUpgrade, Headers.setVersion, Headers.setKey]
  cases hh : b.url.host with
  | none => exact absurd hh h
  | some x =>
    by_cases hn : b.url.username = [] <;> cases b.versionSet <;> cases b.keySet <;>
    simp only [hn, ne_eq, not_true, not_false_iff, if_true, if_false, Bool.not_true, Bool.not_false, Bool.false_eq_true, item_insert_same,
      item_insert_other h1, item_insert_other h2, item_insert_other h3, item_insert_other h4, item_insert_other h5]

theorem values_of_item {h : Headers} (hu : h.Unique) {n : Bytes} {it : HItem} (hi : h.item n = some it) :
    Values n h.wire (it.lines.map trimSpacesEnd) := by
  rw [values_iff, valuesOf_wire hu, hi]

theorem values_of_none {h : Headers} (hu : h.Unique) {n : Bytes} (hi : h.item n = none) : Values n h.wire [] := by
  rw [values_iff, valuesOf_wire hu, hi]

/-- Only `key`, `clear_key` change whether a key is set. -/
theorem step_keySet (b : Builder) {op : BOp} (h1 : ∀ k, op ≠ .key k) (h2 : op ≠ .clearKey) : (b.step op).keySet = b.keySet := by
  cases op <;> first | rfl | exact absurd rfl (h1 _) | exact absurd rfl h2

theorem step_versionSet (b : Builder) {op : BOp} (h1 : ∀ k, op ≠ .version k) (h2 : op ≠ .clearVersion) :
    (b.step op).versionSet = b.versionSet := by
  cases op <;> first | rfl | exact absurd rfl (h1 _) | exact absurd rfl h2

theorem run_keySet (b : Builder) {ops : List BOp} (h1 : ∀ op ∈ ops, ∀ k, op ≠ .key k) (h2 : ∀ op ∈ ops, op ≠ .clearKey) :
    (b.run ops).keySet = b.keySet := by
  induction ops generalizing b with
  | nil => rfl
  | cons op ops ih =>
    rw [run_cons, ih _ (fun o ho => h1 o (by simp [ho])) (fun o ho => h2 o (by simp [ho])),
      step_keySet b (h1 op (by simp)) (h2 op (by simp))]

theorem run_versionSet (b : Builder) {ops : List BOp} (h1 : ∀ op ∈ ops, ∀ k, op ≠ .version k) (h2 : ∀ op ∈ ops, op ≠ .clearVersion) :
    (b.run ops).versionSet = b.versionSet := by
  induction ops generalizing b with
  | nil => rfl
  | cons op ops ih =>
    rw [run_cons, ih _ (fun o ho => h1 o (by simp [ho])) (fun o ho => h2 o (by simp [ho])),
      step_versionSet b (h1 op (by simp)) (h2 op (by simp))]

/-- Without `key` calls a builder with no key set stays so. -/
theorem run_keySet_false {b : Builder} (hb : b.keySet = false) {ops : List BOp} (h1 : ∀ op ∈ ops, ∀ k, op ≠ .key k) :
    (b.run ops).keySet = false := by
  induction ops generalizing b with
  | nil => exact hb
  | cons op ops ih =>
    rw [run_cons]
    refine ih ?_ (fun o ho => h1 o (by simp [ho]))
    by_cases h2 : op = .clearKey
    · subst h2; rfl
    · rw [step_keySet b (h1 op (by simp)) h2, hb]

theorem run_versionSet_false {b : Builder} (hb : b.versionSet = false) {ops : List BOp} (h1 : ∀ op ∈ ops, ∀ k, op ≠ .version k) :
    (b.run ops).versionSet = false := by
  induction ops generalizing b with
  | nil => exact hb
  | cons op ops ih =>
    rw [run_cons]
    refine ih ?_ (fun o ho => h1 o (by simp [ho]))
    by_cases h2 : op = .clearVersion
    · subst h2; rfl
    · rw [step_versionSet b (h1 op (by simp)) h2, hb]

end WS
