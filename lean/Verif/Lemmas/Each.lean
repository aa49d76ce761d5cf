import Verif.Lemmas.HeaderMap
import Verif.Model.Builder
/-!
# Invariants of header maps under everything builders and upgrades do to them
-/

namespace WS

/-! ## Invariants entry by entry -/

theorem all_insert {P : Bytes × HItem → Prop} {h : Headers} (hh : ∀ e ∈ h, P e) {n : Bytes} {it : HItem} (hn : P (n, it)) :
    ∀ e ∈ Headers.insert n it h, P e := by
  intro e he
  rcases mem_insert he with rfl | he
  · exact hn
  · exact hh e he

theorem all_remove {P : Bytes × HItem → Prop} {h : Headers} (hh : ∀ e ∈ h, P e) (n : Bytes) : ∀ e ∈ Headers.remove n h, P e :=
  fun e he => hh e (mem_remove he)

theorem all_extend {P : Bytes × HItem → Prop} {h : Headers} (hh : ∀ e ∈ h, P e) {c : Headers} (hc : ∀ e ∈ c, P e) :
    ∀ e ∈ h.extend c, P e := by
  unfold Headers.extend
  induction c generalizing h with
  | nil => exact hh
  | cons a c ih => exact ih (all_insert hh (hc a List.mem_cons_self)) fun e he => hc e (List.mem_cons_of_mem _ he)

theorem item_entry {h : Headers} {n : Bytes} {it : HItem} (hi : h.item n = some it) : ∃ m, (m, it) ∈ h ∧ eqIgnoreCase m n = true := by
  induction h with
  | nil => cases hi
  | cons e h ih =>
    rw [item_cons] at hi
    split at hi
    · rename_i hc
      cases hi
      exact ⟨e.1, List.mem_cons_self, hc⟩
    · obtain ⟨m, h1, h2⟩ := ih hi
      exact ⟨m, List.mem_cons_of_mem _ h1, h2⟩

theorem all_upsertProtocol {P : Bytes × HItem → Prop} {h : Headers} (hh : ∀ e ∈ h, P e) {xs : List Bytes}
    (hx : P (nProtocol, .typed (.protocol xs))) (hg : ∀ l, h.getProtocol = some l → P (nProtocol, .typed (.protocol (l ++ xs)))) :
    ∀ e ∈ h.upsertProtocol xs, P e := by
  unfold Headers.upsertProtocol
  split
  · split
    · rename_i l hl
      exact all_insert hh (hg l hl)
    · exact hh
  · exact all_insert hh hx

theorem all_upsertExtensions {P : Bytes × HItem → Prop} {h : Headers} (hh : ∀ e ∈ h, P e) {xs : List Ext}
    (hx : P (nExtensions, .typed (.extensions xs))) (hg : ∀ l, h.getExtensions = some l → P (nExtensions, .typed (.extensions (l ++ xs)))) :
    ∀ e ∈ h.upsertExtensions xs, P e := by
  unfold Headers.upsertExtensions
  split
  · split
    · rename_i l hl
      exact all_insert hh (hg l hl)
    · exact hh
  · exact all_insert hh hx

theorem ite_keeps {α} {K : α → Prop} (c : Prop) [Decidable c] {x y : α} (hx : K x) (hy : K y) : K (if c then x else y) := by
  split
  · exact hx
  · exact hy

/-- Whatever survives the six steps of `build_request` holds of the result. -/
theorem build_induct {K : Headers → Prop} {b : Builder} (hh : K b.headers) (fresh : WsKey)
    (h1 : b.url.host ≠ none → ∀ h, K h → K (Headers.insert nHost (.typed (.other b.url.hostHeader)) h))
    (h2 : ∀ h, K h → K (Headers.insert nAuthorization (.typed (.other b.url.basicHeader)) h))
    (h3 : ∀ h, K h → K (Headers.insert nConnection (.typed (.connection [ConnOpt.header (ascii "Upgrade")])) h))
    (h4 : ∀ h, K h → K (Headers.insert nUpgrade (.typed (.upgrade [⟨ProtoName.websocket, none⟩])) h))
    (h5 : ∀ h, K h → K (Headers.insert nVersion (.typed (.version .ws13)) h))
    (h6 : ∀ h, K h → K (Headers.insert nKey (.typed (.key fresh)) h)) : K (b.buildRequest fresh).2.headers := by
  have a1 : K (match b.url.host with
      | some _ => Headers.insert nHost (.typed (.other b.url.hostHeader)) b.headers
      | none => b.headers) := by
    cases hx : b.url.host with
    | none => exact hh
    | some x => exact h1 (by rw [hx]; simp) _ hh
  have a2 := ite_keeps (b.url.username ≠ []) (h2 _ a1) a1
  have a3 := h4 _ (h3 _ a2)
  have a4 := ite_keeps ((!b.versionSet) = true) (h5 _ a3) a3
  exact ite_keeps ((!b.keySet) = true) (h6 _ a4) a4

end WS
