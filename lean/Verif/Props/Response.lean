import Verif.Model.Httparse
import Verif.Lemmas.Sample
import Verif.Lemmas.Response
import Verif.Lemmas.Format
import Verif.Props.Server
/-!
# C36, C45: what the server answers
-/

namespace WS

open Spec

/-! ## Histories of calls on an upgrade -/

/-- A call of one of the `use_*` methods. -/
inductive UpgradeOp
  | useProtocol (p : Bytes)
  | useExtension (e : Ext)
  | useExtensions (es : List Ext)

/-- One call. -/
def Upgrade.step {B} (u : Upgrade B) : UpgradeOp → Upgrade B
  | .useProtocol p => u.useProtocol p
  | .useExtension e => u.useExtension e
  | .useExtensions es => u.useExtensions es

/-- A history of calls. -/
def Upgrade.run {B} (u : Upgrade B) (ops : List UpgradeOp) : Upgrade B := ops.foldl Upgrade.step u

theorem unique_upsertProtocol {h : Headers} (hu : h.Unique) (xs : List Bytes) : (h.upsertProtocol xs).Unique := by
  unfold Headers.upsertProtocol
  split
  · split
    · exact unique_insert hu _ _
    · exact hu
  · exact unique_insert hu _ _

theorem unique_upsertExtensions {h : Headers} (hu : h.Unique) (xs : List Ext) : (h.upsertExtensions xs).Unique := by
  unfold Headers.upsertExtensions
  split
  · split
    · exact unique_insert hu _ _
    · exact hu
  · exact unique_insert hu _ _

theorem run_text {B} (ops : List UpgradeOp) {u : Upgrade B} (hu : TextHeaders u.headers) : TextHeaders (u.run ops).headers := by
  unfold Upgrade.run
  induction ops generalizing u with
  | nil => exact hu
  | cons op ops ih =>
    refine ih ?_
    cases op with
    | useProtocol p => exact text_protocol hu _
    | useExtension e => exact text_extensions hu _
    | useExtensions es => exact text_extensions hu _

theorem run_facts {B} (u : Upgrade B) (ops : List UpgradeOp) (hu : u.headers.Unique) :
    (u.run ops).headers.Unique ∧ (u.run ops).request = u.request ∧ (u.run ops).stream = u.stream ∧
      (u.run ops).buffer = u.buffer := by
  unfold Upgrade.run
  induction ops generalizing u with
  | nil => exact ⟨hu, rfl, rfl, rfl⟩
  | cons op ops ih =>
    rw [List.foldl_cons]
    cases op with
    | useProtocol p => exact ih (u.useProtocol p) (unique_upsertProtocol hu [p])
    | useExtension e => exact ih (u.useExtension e) (unique_upsertExtensions hu [e])
    | useExtensions es => exact ih (u.useExtensions es) (unique_upsertExtensions hu es)

theorem addCustom_facts {B} (u : Upgrade B) (custom : Option Headers) (hu : u.headers.Unique) :
    (u.addCustom custom).headers.Unique ∧ (u.addCustom custom).request = u.request ∧
      (u.addCustom custom).stream = u.stream ∧ (u.addCustom custom).buffer = u.buffer := by
  cases custom with
  | none => exact ⟨hu, rfl, rfl, rfl⟩
  | some c => exact ⟨unique_extend hu c, rfl, rfl, rfl⟩

/-- The response to an accepted request, computed. -/
def Upgrade.accepted {B} (u : Upgrade B) (custom : Option Headers) (key : WsKey) : Upgrade B :=
  { u.addCustom custom with
    headers := (((u.addCustom custom).headers.setAccept (WsAccept.new key)).setConnection
      [ConnOpt.header (ascii "Upgrade")]).setUpgrade [⟨.websocket, none⟩] }

theorem prepare_some [B64] {B} (u : Upgrade B) (custom : Option Headers) {key : WsKey}
    (hk : u.request.headers.getKey = some key) :
    u.prepareHeaders custom = .ok (switchingProtocols, u.accepted custom key) := by
  unfold Upgrade.prepareHeaders
  have : (u.addCustom custom).request = u.request := by cases custom <;> rfl
  simp only [Upgrade.accepted]
  rw [this]
  simp only [hk]

theorem unique_accepted {B} (u : Upgrade B) (custom : Option Headers) (key : WsKey) (hu : u.headers.Unique) :
    (u.accepted custom key).headers.Unique :=
  unique_insert (unique_insert (unique_insert (addCustom_facts u custom hu).1 _ _) _ _) _ _

theorem item_accepted {B} (u : Upgrade B) (custom : Option Headers) (key : WsKey) (n : Bytes) :
    (u.accepted custom key).headers.item n =
      if eqIgnoreCase nUpgrade n then some (.typed (.upgrade [⟨.websocket, none⟩]))
      else if eqIgnoreCase nConnection n then some (.typed (.connection [.header (ascii "Upgrade")]))
      else if eqIgnoreCase nAccept n then some (.typed (.accept (WsAccept.new key)))
      else (u.addCustom custom).headers.item n := by
  simp only [Upgrade.accepted, Headers.setUpgrade, Headers.setConnection, Headers.setAccept, item_insert]

/-! ## C36 -/

/-- Whatever was configured, whatever custom headers are given: the response is a 101 head with
exactly one line each of Sec-WebSocket-Accept (for the key of the request), Connection: Upgrade and
Upgrade: websocket. `Unique` holds for every hyper header map. -/
theorem C36_required_headers [B64] {B} (u : Upgrade B) (ops : List UpgradeOp) (custom : Option Headers)
    (hu : u.headers.Unique) (key : WsKey) (hk : u.request.headers.getKey = some key) :
    ∃ u' accept, (u.run ops).prepareHeaders custom = .ok (switchingProtocols, u') ∧
      u'.request = u.request ∧ u'.stream = u.stream ∧ u'.buffer = u.buffer ∧
      (u'.response switchingProtocols).fmt resLine =
        Head (u.request.version.fmt ++ ascii " 101 Switching Protocols") u'.headers.wire ∧
      Values (ascii "Sec-WebSocket-Accept") u'.headers.wire [accept] ∧
      chars accept = acceptText (key.bytes.map UInt8.toNat) ∧
      Values (ascii "Connection") u'.headers.wire [ascii "Upgrade"] ∧
      Values (ascii "Upgrade") u'.headers.wire [ascii "websocket"] := by
  obtain ⟨h1, h2, h3, h4⟩ := run_facts u ops hu
  have hk' : (u.run ops).request.headers.getKey = some key := by rw [h2]; exact hk
  have hq := unique_accepted (u.run ops) custom key h1
  have ha := addCustom_facts (u.run ops) custom h1
  refine ⟨_, (WsAccept.new key).serialize, prepare_some _ custom hk', ha.2.1.trans h2, ha.2.2.1.trans h3,
    ha.2.2.2.trans h4, ?_, ?_, (C32_accept_value key).1, ?_, ?_⟩
  · rw [head_fmt]
    congr 1
    simp only [Upgrade.response, Upgrade.accepted, ha.2.1, h2]
    unfold resLine switchingProtocols
    have : ascii " 101 Switching Protocols" = [32] ++ decimal 101 ++ [32] ++ ascii "Switching Protocols" := by decide +kernel
    rw [this]
    simp only [List.append_assoc]
  · rw [values_iff, valuesOf_wire hq, item_accepted]
    have e1 : eqIgnoreCase nUpgrade (ascii "Sec-WebSocket-Accept") = false := by decide +kernel
    have e2 : eqIgnoreCase nConnection (ascii "Sec-WebSocket-Accept") = false := by decide +kernel
    have e3 : eqIgnoreCase nAccept (ascii "Sec-WebSocket-Accept") = true := by decide +kernel
    simp only [e1, e2, e3, if_true, Bool.false_eq_true, if_false, HItem.lines, HVal.fmt, List.map_cons, List.map_nil]
    exact congrArg (fun x => [x]) ((congrArg trimSpacesEnd (b64_one _)).trans (trimSpacesEnd_id (b64_last _))).symm
  · rw [values_iff, valuesOf_wire hq, item_accepted]
    have e1 : eqIgnoreCase nUpgrade (ascii "Connection") = false := by decide +kernel
    have e2 : eqIgnoreCase nConnection (ascii "Connection") = true := by decide +kernel
    simp only [e1, e2, if_true, Bool.false_eq_true, if_false]
    decide +kernel
  · rw [values_iff, valuesOf_wire hq, item_accepted]
    have e1 : eqIgnoreCase nUpgrade (ascii "Upgrade") = true := by decide +kernel
    simp only [e1, if_true]
    decide +kernel

/-- All other headers are kept: under every other name stand the custom lines if the custom headers
have that name, and otherwise what was there before. -/
theorem C36_custom_kept [B64] {B} (u : Upgrade B) (ops : List UpgradeOp) (custom : Headers)
    (hu : u.headers.Unique) (hc : custom.Unique) (key : WsKey) (hk : u.request.headers.getKey = some key) (u' : Upgrade B)
    (hp : (u.run ops).prepareHeaders (some custom) = .ok (switchingProtocols, u')) (n : Bytes)
    (hn : ¬ SameText n (ascii "Sec-WebSocket-Accept") ∧ ¬ SameText n (ascii "Connection") ∧ ¬ SameText n (ascii "Upgrade"))
    (vs : List Bytes) :
    Values n u'.headers.wire vs ↔
      if custom.has n then Values n custom.wire vs else Values n (u.run ops).headers.wire vs := by
  obtain ⟨h1, h2, -, -⟩ := run_facts u ops hu
  have hk' : (u.run ops).request.headers.getKey = some key := by rw [h2]; exact hk
  rw [prepare_some _ _ hk'] at hp
  cases hp
  simp only [sameText_iff, Bool.not_eq_true] at hn
  have e1 : eqIgnoreCase nUpgrade n = false := by rw [eqIgnoreCase_comm]; exact hn.2.2
  have e2 : eqIgnoreCase nConnection n = false := by rw [eqIgnoreCase_comm]; exact hn.2.1
  have e3 : eqIgnoreCase nAccept n = false := by rw [eqIgnoreCase_comm]; exact hn.1
  have hi : ((u.run ops).accepted (some custom) key).headers.item n = (custom.item n).or ((u.run ops).headers.item n) := by
    rw [item_accepted]
    simp only [e1, e2, e3, Bool.false_eq_true, if_false]
    show ((u.run ops).headers.extend custom).item n = _
    rw [item_extend, item_reverse hc]
  rw [values_iff, valuesOf_wire (unique_accepted _ _ _ h1), hi]
  unfold Headers.has
  cases hx : custom.item n with
  | some it =>
    simp only [Option.some_or, Option.isSome_some, if_true]
    rw [values_iff, valuesOf_wire hc, hx]
  | none =>
    simp only [Option.none_or, Option.isSome_none, Bool.false_eq_true, if_false]
    rw [values_iff, valuesOf_wire h1]

/-- Without custom headers everything that was there before is kept. -/
theorem C36_plain_kept [B64] {B} (u : Upgrade B) (ops : List UpgradeOp) (hu : u.headers.Unique)
    (key : WsKey) (hk : u.request.headers.getKey = some key) (u' : Upgrade B)
    (hp : (u.run ops).prepareHeaders none = .ok (switchingProtocols, u')) (n : Bytes)
    (hn : ¬ SameText n (ascii "Sec-WebSocket-Accept") ∧ ¬ SameText n (ascii "Connection") ∧ ¬ SameText n (ascii "Upgrade"))
    (vs : List Bytes) :
    Values n u'.headers.wire vs ↔ Values n (u.run ops).headers.wire vs := by
  obtain ⟨h1, h2, -, -⟩ := run_facts u ops hu
  have hk' : (u.run ops).request.headers.getKey = some key := by rw [h2]; exact hk
  rw [prepare_some _ _ hk'] at hp
  cases hp
  simp only [sameText_iff, Bool.not_eq_true] at hn
  have e1 : eqIgnoreCase nUpgrade n = false := by rw [eqIgnoreCase_comm]; exact hn.2.2
  have e2 : eqIgnoreCase nConnection n = false := by rw [eqIgnoreCase_comm]; exact hn.2.1
  have e3 : eqIgnoreCase nAccept n = false := by rw [eqIgnoreCase_comm]; exact hn.1
  rw [values_iff, values_iff, valuesOf_wire (unique_accepted _ _ _ h1), valuesOf_wire h1, item_accepted]
  simp only [e1, e2, e3, Bool.false_eq_true, if_false]
  rfl

/-- The protocols named in a history. -/
def protocolsOf : List UpgradeOp → List Bytes
  | [] => []
  | .useProtocol p :: ops => p :: protocolsOf ops
  | _ :: ops => protocolsOf ops

/-- The extensions named in a history. -/
def extensionsOf : List UpgradeOp → List Ext
  | [] => []
  | .useExtension e :: ops => e :: extensionsOf ops
  | .useExtensions es :: ops => es ++ extensionsOf ops
  | _ :: ops => extensionsOf ops

theorem other_upsertExtensions {h : Headers} (xs : List Ext) {n : Bytes} (hn : eqIgnoreCase nExtensions n = false) :
    (h.upsertExtensions xs).item n = h.item n := by
  unfold Headers.upsertExtensions
  split
  · split
    · rw [item_insert_other hn]
    · rfl
  · rw [item_insert_other hn]

theorem other_upsertProtocol {h : Headers} (xs : List Bytes) {n : Bytes} (hn : eqIgnoreCase nProtocol n = false) :
    (h.upsertProtocol xs).item n = h.item n := by
  unfold Headers.upsertProtocol
  split
  · split
    · rw [item_insert_other hn]
    · rfl
  · rw [item_insert_other hn]

theorem item_upsertProtocol_none {h : Headers} (xs : List Bytes) (hi : h.item nProtocol = none) :
    (h.upsertProtocol xs).item nProtocol = some (.typed (.protocol xs)) := by
  unfold Headers.upsertProtocol Headers.has
  rw [hi]
  simp [item_insert_same]

theorem item_upsertProtocol_some {h : Headers} (xs l : List Bytes) (hi : h.item nProtocol = some (.typed (.protocol l))) :
    (h.upsertProtocol xs).item nProtocol = some (.typed (.protocol (l ++ xs))) := by
  unfold Headers.upsertProtocol Headers.has Headers.getProtocol
  rw [hi]
  simp [item_insert_same]

theorem item_upsertExtensions_none {h : Headers} (xs : List Ext) (hi : h.item nExtensions = none) :
    (h.upsertExtensions xs).item nExtensions = some (.typed (.extensions xs)) := by
  unfold Headers.upsertExtensions Headers.has
  rw [hi]
  simp [item_insert_same]

theorem item_upsertExtensions_some {h : Headers} (xs l : List Ext) (hi : h.item nExtensions = some (.typed (.extensions l))) :
    (h.upsertExtensions xs).item nExtensions = some (.typed (.extensions (l ++ xs))) := by
  unfold Headers.upsertExtensions Headers.has Headers.getExtensions
  rw [hi]
  simp [item_insert_same]

theorem run_protocols_some {B} (u : Upgrade B) (ops : List UpgradeOp) (l : List Bytes)
    (hi : u.headers.item nProtocol = some (.typed (.protocol l))) :
    (u.run ops).headers.item nProtocol = some (.typed (.protocol (l ++ protocolsOf ops))) := by
  unfold Upgrade.run
  induction ops generalizing u l with
  | nil => simpa [protocolsOf] using hi
  | cons op ops ih =>
    rw [List.foldl_cons]
    cases op with
    | useProtocol p =>
      have := ih (u.useProtocol p) (l ++ [p]) (item_upsertProtocol_some [p] l hi)
      simpa [protocolsOf, Upgrade.step] using this
    | useExtension e =>
      exact ih (u.useExtension e) l ((other_upsertExtensions _ (by decide +kernel)).trans hi)
    | useExtensions es =>
      exact ih (u.useExtensions es) l ((other_upsertExtensions _ (by decide +kernel)).trans hi)

theorem run_extensions_some {B} (u : Upgrade B) (ops : List UpgradeOp) (l : List Ext)
    (hi : u.headers.item nExtensions = some (.typed (.extensions l))) :
    (u.run ops).headers.item nExtensions = some (.typed (.extensions (l ++ extensionsOf ops))) := by
  unfold Upgrade.run
  induction ops generalizing u l with
  | nil => simpa [extensionsOf] using hi
  | cons op ops ih =>
    rw [List.foldl_cons]
    cases op with
    | useProtocol p =>
      exact ih (u.useProtocol p) l ((other_upsertProtocol _ (by decide +kernel)).trans hi)
    | useExtension e =>
      have := ih (u.useExtension e) (l ++ [e]) (item_upsertExtensions_some [e] l hi)
      simpa [extensionsOf, Upgrade.step] using this
    | useExtensions es =>
      have := ih (u.useExtensions es) (l ++ es) (item_upsertExtensions_some es l hi)
      simpa [extensionsOf, Upgrade.step] using this

/-- The protocols and extensions used on a fresh upgrade are in the response in call order. -/
theorem C36_used_in_order {B} (u : Upgrade B) (ops : List UpgradeOp)
    (hp : u.headers.item nProtocol = none) (he : u.headers.item nExtensions = none) :
    (u.run ops).headers.getProtocol.getD [] = protocolsOf ops ∧
      (u.run ops).headers.getExtensions.getD [] = extensionsOf ops := by
  have h1 : ∀ h : Headers, ∀ l, h.item nProtocol = some (.typed (.protocol l)) → h.getProtocol.getD [] = l := by
    intro h l hi; simp [Headers.getProtocol, hi]
  have h2 : ∀ h : Headers, ∀ l, h.item nExtensions = some (.typed (.extensions l)) → h.getExtensions.getD [] = l := by
    intro h l hi; simp [Headers.getExtensions, hi]
  constructor
  · clear he
    induction ops generalizing u with
    | nil => simp [Upgrade.run, Headers.getProtocol, hp, protocolsOf]
    | cons op ops ih =>
      cases op with
      | useProtocol p =>
        exact h1 _ _ (run_protocols_some (u.useProtocol p) ops [p] (item_upsertProtocol_none [p] hp))
      | useExtension e =>
        exact ih (u.useExtension e) ((other_upsertExtensions _ (by decide +kernel)).trans hp)
      | useExtensions es =>
        exact ih (u.useExtensions es) ((other_upsertExtensions _ (by decide +kernel)).trans hp)
  · clear hp
    induction ops generalizing u with
    | nil => simp [Upgrade.run, Headers.getExtensions, he, extensionsOf]
    | cons op ops ih =>
      cases op with
      | useProtocol p =>
        exact ih (u.useProtocol p) ((other_upsertProtocol _ (by decide +kernel)).trans he)
      | useExtension e =>
        exact h2 _ _ (run_extensions_some (u.useExtension e) ops [e] (item_upsertExtensions_none [e] he))
      | useExtensions es =>
        exact h2 _ _ (run_extensions_some (u.useExtensions es) ops es (item_upsertExtensions_none es he))

/-! ## C45 -/

/-- The heads a server may answer with. -/
def head101 (v : HttpVersion) (lines : List (Bytes × Bytes)) : Bytes := Head (v.fmt ++ ascii " 101 Switching Protocols") lines
/-- See `head101`. -/
def head400 (v : HttpVersion) (lines : List (Bytes × Bytes)) : Bytes := Head (v.fmt ++ ascii " 400 Bad Request") lines

/-- What a peer that can read a status line sees: these bytes begin a 101 response. -/
def Begins101 (bs : Bytes) : Prop := ∃ v : HttpVersion, (v.fmt ++ ascii " 101") <+: bs

theorem fmt_response_101 {B} (u : Upgrade B) :
    (u.response switchingProtocols).fmt resLine = head101 u.request.version u.headers.wire := by
  rw [head_fmt]
  unfold head101
  congr 1
  unfold Upgrade.response resLine switchingProtocols
  have : ascii " 101 Switching Protocols" = [32] ++ decimal 101 ++ [32] ++ ascii "Switching Protocols" := by decide +kernel
  rw [this]
  simp only [List.append_assoc]

theorem fmt_response_400 {B} (u : Upgrade B) :
    (u.response badRequest).fmt resLine = head400 u.request.version u.headers.wire := by
  rw [head_fmt]
  unfold head400
  congr 1
  unfold Upgrade.response resLine badRequest
  have : ascii " 400 Bad Request" = [32] ++ decimal 400 ++ [32] ++ ascii "Bad Request" := by decide +kernel
  rw [this]
  simp only [List.append_assoc]

theorem not_begins101 {v : HttpVersion} {lines : List (Bytes × Bytes)} {pre : Bytes} (h : pre <+: head400 v lines) :
    ¬ Begins101 pre := by
  rintro ⟨v', hv⟩
  obtain ⟨t, ht⟩ := hv.trans h
  have := congrArg (List.take 12) ht
  unfold head400 Head at this
  cases v <;> cases v' <;> revert this <;> simp [HttpVersion.fmt, ascii]

/-- Blocking `reject`, whatever was configured and however the writes go: the stream comes back with
its input untouched, and either exactly one 400 response was written, or an error is returned and a
part of it was, or the call panicked, which takes a raw header that is not text, and then nothing was written. -/
theorem C45_reject (u : SyncUpgrade) (ops : List UpgradeOp) (hu : u.headers.Unique) (custom : Option Headers)
    (r : Sent) (d : Duplex) (h : SyncUpgrade.internalReject (u.run ops) custom = (r, d)) :
    d.input = u.stream.input ∧
    ∃ out, d.output.wire = u.stream.output.wire ++ out ∧ ¬ Begins101 out ∧
      out <+: head400 u.request.version ((u.run ops).addCustom custom).headers.wire ∧
      ((∃ x, r = .ok x) → out = head400 u.request.version ((u.run ops).addCustom custom).headers.wire) ∧
      ((∃ why, r = .panic why) → out = [] ∧ ¬ TextHeaders ((u.run ops).addCustom custom).headers) := by
  obtain ⟨h1, h2, h3, -⟩ := run_facts u ops hu
  obtain ⟨-, g2, g3, -⟩ := addCustom_facts (u.run ops) custom h1
  unfold SyncUpgrade.internalReject at h
  cases hwr : ((u.run ops).addCustom custom).headers.writable with
  | false =>
    rw [send_panics _ _ hwr] at h
    cases h
    exact ⟨by rw [g3, h3], [], by rw [g3, h3, List.append_nil], not_begins101 (v := u.request.version) (lines := []) List.nil_prefix,
      List.nil_prefix, fun ⟨_, hx⟩ => (by cases hx), fun _ => ⟨rfl, not_writable_iff.mp hwr⟩⟩
  | true =>
  rw [send_text _ _ hwr] at h
  unfold Upgrade.sendText at h
  rw [fmt_response_400, g2, h2, g3, h3] at h
  obtain ⟨pre, hp, hw⟩ := writeAll_prefix (head400 u.request.version ((u.run ops).addCustom custom).headers.wire) u.stream.output
  cases hx : Sink.writeAll (head400 u.request.version ((u.run ops).addCustom custom).headers.wire) u.stream.output with
  | mk r' w =>
    rw [hx] at h hw
    simp only [Prod.mk.injEq] at h
    obtain ⟨rfl, rfl⟩ := h
    refine ⟨rfl, pre, hw, not_begins101 hp, hp, ?_, ?_⟩
    · rintro ⟨x, hxr⟩
      cases r' with
      | error k => cases hxr
      | ok y =>
        have := writeAll_ok hx
        exact List.append_cancel_left (hw.symm.trans this)
    · rintro ⟨why, hxr⟩
      cases r' <;> cases hxr

/-- Blocking `accept`: it panics only on a raw header that is not text; when a client comes out the whole 101 response was
written, with the header lines of C36, and nothing else; an error comes with the stream and part of the response. -/
theorem C45_accept [B64] (u : SyncUpgrade) (ops : List UpgradeOp) (hu : u.headers.Unique) (custom : Option Headers)
    (maxDf maxMsg : Nat) (key : WsKey) (hk : u.request.headers.getKey = some key) :
    ∃ u', (u.run ops).prepareHeaders custom = .ok (switchingProtocols, u') ∧ match SyncUpgrade.internalAcceptWithLimits (u.run ops) custom maxDf maxMsg with
      | .client c => c.stream.inner.output.wire = u.stream.output.wire ++ head101 u.request.version u'.headers.wire ∧
          c.stream.inner.input = u.stream.input
      | .err d _ => d.input = u.stream.input ∧
          ∃ pre, pre <+: head101 u.request.version u'.headers.wire ∧ d.output.wire = u.stream.output.wire ++ pre
      | .panic _ => ¬ TextHeaders u'.headers := by
  obtain ⟨h1, h2, h3, h4⟩ := run_facts u ops hu
  have hk' : (u.run ops).request.headers.getKey = some key := by rw [h2]; exact hk
  obtain ⟨-, g2, g3, g4⟩ := addCustom_facts (u.run ops) custom h1
  have hq : ((u.run ops).accepted custom key).request = u.request := g2.trans h2
  have hs : ((u.run ops).accepted custom key).stream = u.stream := g3.trans h3
  refine ⟨(u.run ops).accepted custom key, prepare_some _ custom hk', ?_⟩
  unfold SyncUpgrade.internalAcceptWithLimits
  rw [prepare_some _ custom hk']
  simp only
  cases hwr : ((u.run ops).accepted custom key).headers.writable with
  | false => rw [send_panics _ _ hwr]; exact not_writable_iff.mp hwr
  | true =>
  rw [send_text _ _ hwr]
  unfold Upgrade.sendText
  rw [fmt_response_101, hs, hq]
  obtain ⟨pre, hp, hw⟩ := writeAll_prefix (head101 u.request.version ((u.run ops).accepted custom key).headers.wire) u.stream.output
  cases hx : Sink.writeAll (head101 u.request.version ((u.run ops).accepted custom key).headers.wire) u.stream.output with
  | mk r' w =>
    rw [hx] at hw
    cases r' with
    | error k => exact ⟨rfl, pre, hp, hw⟩
    | ok x =>
      have := writeAll_ok hx
      simp only [Sent.of]
      cases ((u.run ops).accepted custom key).buffer <;> exact ⟨this, rfl⟩

/-- Async `reject`. -/
theorem C45_async_reject (u : AsyncUpgrade) (ops : List UpgradeOp) (hu : u.headers.Unique) (custom : Option Headers)
    (extra : Nat) (r : SendRes) (d : Duplex) (fr : Framed Unit)
    (h : AsyncUpgrade.internalReject (u.run ops) custom extra = (r, d, fr)) :
    d.input = u.stream.input ∧ fr.buf = u.buffer ∧
    ∃ out, d.output.wire = u.stream.output.wire ++ out ∧ ¬ Begins101 out ∧
      out <+: head400 u.request.version ((u.run ops).addCustom custom).headers.wire ∧
      ((r = .ready ∧ out = head400 u.request.version ((u.run ops).addCustom custom).headers.wire) ∨ (∃ e, r = .err e) ∨
        ∃ why, r = .panic why ∧ out = [] ∧ ¬ TextHeaders ((u.run ops).addCustom custom).headers) := by
  obtain ⟨h1, h2, h3, h4⟩ := run_facts u ops hu
  obtain ⟨-, g2, g3, g4⟩ := addCustom_facts (u.run ops) custom h1
  cases hwr : ((u.run ops).addCustom custom).headers.writable with
  | false =>
    unfold AsyncUpgrade.internalReject at h
    simp only [hwr, if_pos] at h
    cases h
    exact ⟨by rw [g3, h3], by rw [g4, h4]; rfl, [], by rw [g3, h3, List.append_nil],
      not_begins101 (v := u.request.version) (lines := []) List.nil_prefix, List.nil_prefix, .inr (.inr ⟨_, rfl, rfl, not_writable_iff.mp hwr⟩)⟩
  | true =>
  unfold AsyncUpgrade.internalReject at h
  simp only [hwr, Bool.true_eq_false, if_false] at h
  rw [fmt_response_400, g2, h2, g3, h3, g4, h4] at h
  have hs := httpSend_spec (head400 u.request.version ((u.run ops).addCustom custom).headers.wire) extra u.stream.output
  cases hx : httpSend (head400 u.request.version ((u.run ops).addCustom custom).headers.wire) extra u.stream.output with
  | mk r' x =>
    obtain ⟨fw, w⟩ := x
    rw [hx] at h hs
    simp only [Prod.mk.injEq] at h
    obtain ⟨rfl, rfl, rfl⟩ := h
    refine ⟨rfl, rfl, ?_⟩
    rcases hs with ⟨a, b, -⟩ | ⟨e, pre, a, b, c⟩
    · exact ⟨_, b, not_begins101 (List.prefix_refl _), List.prefix_refl _, .inl ⟨a, rfl⟩⟩
    · exact ⟨pre, c, not_begins101 b, b, .inr (.inl ⟨e, a⟩)⟩

/-- Async `accept`; the write buffer of the client is empty, so nothing of the handshake is left to
be sent later. -/
theorem C45_async_accept [B64] (u : AsyncUpgrade) (ops : List UpgradeOp) (hu : u.headers.Unique) (custom : Option Headers)
    (maxDf maxMsg extra : Nat) (key : WsKey) (hk : u.request.headers.getKey = some key) :
    ∃ u', (u.run ops).prepareHeaders custom = .ok (switchingProtocols, u') ∧ match AsyncUpgrade.internalAcceptWithLimits (u.run ops) custom maxDf maxMsg extra with
      | .client c => c.stream.output.wire = u.stream.output.wire ++ head101 u.request.version u'.headers.wire ∧
          c.stream.input = u.stream.input ∧ c.write.buf.data = []
      | .err d _ => d.input = u.stream.input ∧
          ∃ pre, pre <+: head101 u.request.version u'.headers.wire ∧ d.output.wire = u.stream.output.wire ++ pre
      | .panic _ => ¬ TextHeaders u'.headers := by
  obtain ⟨h1, h2, h3, h4⟩ := run_facts u ops hu
  have hk' : (u.run ops).request.headers.getKey = some key := by rw [h2]; exact hk
  obtain ⟨-, g2, g3, g4⟩ := addCustom_facts (u.run ops) custom h1
  have hq : ((u.run ops).accepted custom key).request = u.request := g2.trans h2
  have hs : ((u.run ops).accepted custom key).stream = u.stream := g3.trans h3
  refine ⟨(u.run ops).accepted custom key, prepare_some _ custom hk', ?_⟩
  unfold AsyncUpgrade.internalAcceptWithLimits
  rw [prepare_some _ custom hk']
  cases hwr : ((u.run ops).accepted custom key).headers.writable with
  | false => simp only [hwr, if_pos]; exact not_writable_iff.mp hwr
  | true =>
  simp only [hwr, Bool.true_eq_false, if_false]
  rw [fmt_response_101, hs, hq]
  have hsp := httpSend_spec (head101 u.request.version ((u.run ops).accepted custom key).headers.wire) extra u.stream.output
  cases hx : httpSend (head101 u.request.version ((u.run ops).accepted custom key).headers.wire) extra u.stream.output with
  | mk r' x =>
    obtain ⟨fw, w⟩ := x
    rw [hx] at hsp
    rcases hsp with ⟨a, b, c⟩ | ⟨e, pre, a, b, c⟩
    · simp only at a; subst a
      exact ⟨b, rfl, c⟩
    · simp only at a; subst a
      exact ⟨rfl, pre, b, c⟩

theorem parseHead_inner {R} [HasSrc R] {σ line ok} (p : HeadParser σ line ok) (b : BufReader R) :
    ∃ s, (parseHead p b).2.inner = HasSrc.set b.inner s := by
  have hri : ∀ b : BufReader R, ∃ s, b.readIntoBuf.2.inner = HasSrc.set b.inner s := by
    intro b
    unfold BufReader.readIntoBuf
    simp only [maybeReserve_inner]
    split
    · split <;> exact ⟨_, rfl⟩
    · exact ⟨HasSrc.get b.inner, by rw [HasSrc.set_get, maybeReserve_inner]⟩
  have hc : ∀ (b : BufReader R) n, (b.consume n).inner = b.inner := by
    intro b n; unfold BufReader.consume; split <;> rfl
  fun_induction parseHead p b with
  | case1 b m n h => exact ⟨HasSrc.get b.inner, by rw [HasSrc.set_get]; exact hc b n⟩
  | case2 b h => exact ⟨HasSrc.get b.inner, by rw [HasSrc.set_get]⟩
  | case3 b h k b' h' => have := hri b; rw [h'] at this; exact this
  | case4 b h b' _ h' => have := hri b; rw [h'] at this; exact this
  | case5 b h b' _ h' => have := hri b; rw [h'] at this; exact this
  | case6 b h n b' h' _ ih =>
    obtain ⟨s, hs⟩ := ih
    have := hri b; rw [h'] at this
    obtain ⟨s', hs'⟩ := this
    exact ⟨s, by rw [hs, hs', HasSrc.set_set]⟩

/-- Reading and checking the request writes nothing: a connection that fails validation has been
sent no byte, and one that passes is answered only by `accept` or `reject`. -/
theorem C45_into_ws_silent [B64] (p : ReqParser) (d : Duplex) :
    match intoWs p d with
    | .ok u => u.stream.output = d.output
    | .error f => f.stream.output = d.output := by
  obtain ⟨s, hs⟩ := parseHead_inner p (BufReader.new d)
  unfold intoWs
  cases hx : parseHead p (BufReader.new d) with
  | mk request reader =>
    rw [hx] at hs
    have ho : reader.inner.output = d.output := by rw [hs]; rfl
    simp only [BufReader.intoParts]
    cases request with
    | error e => exact ho
    | ok m =>
      simp only
      split <;> (next hv => split at hv <;> cases hv <;> exact ho)

/-- The same for the async server. -/
theorem C45_async_into_ws_silent [B64] (p : ReqParser) (d : Duplex) :
    match asyncIntoWs p d with
    | .ok u => u.stream.output = d.output
    | .error f => f.stream.output = d.output := by
  unfold asyncIntoWs
  cases (Framed.new ()).next (httpDecoder p) d.input with
  | mk x y =>
    obtain ⟨fr, s⟩ := y
    cases x with
    | item msg => simp only; split <;> (next hv => split at hv <;> cases hv <;> rfl)
    | done => rfl
    | err e => rfl
    | panic w => rfl

theorem validate_key [B64] {m : Method} {v : HttpVersion} {h : Headers} (hv : validate m v h = .ok ()) :
    ∃ key, h.getKey = some key := by
  cases hk : h.getKey with
  | some key => exact ⟨key, rfl⟩
  | none =>
    unfold validate at hv
    rw [hk] at hv
    simp only [if_true] at hv
    repeat (first | (split at hv; cases hv) | (cases hv))

/-- Every upgrade `into_ws` hands out has a key, so `accept` has no panic path, and no headers yet. -/
theorem C45_upgrade_has_key [B64] (p : ReqParser) (d : Duplex) (u : SyncUpgrade) (h : intoWs p d = .ok u) :
    (∃ key, u.request.headers.getKey = some key) ∧ u.headers = [] := by
  unfold intoWs at h
  cases hx : parseHead p (BufReader.new d) with
  | mk request reader =>
    rw [hx] at h
    simp only [BufReader.intoParts] at h
    cases request with
    | error e => cases h
    | ok m =>
      simp only at h
      split at h
      · next hv => cases h; exact ⟨validate_key hv, rfl⟩
      · cases h

/-- The same for the async server. -/
theorem C45_async_upgrade_has_key [B64] (p : ReqParser) (d : Duplex) (u : AsyncUpgrade) (h : asyncIntoWs p d = .ok u) :
    (∃ key, u.request.headers.getKey = some key) ∧ u.headers = [] := by
  unfold asyncIntoWs at h
  cases hx : (Framed.new ()).next (httpDecoder p) d.input with
  | mk x y =>
    obtain ⟨fr, s⟩ := y
    rw [hx] at h
    cases x with
    | item msg =>
      simp only at h
      split at h
      · next hv => cases h; exact ⟨validate_key hv, rfl⟩
      · cases h
    | done => cases h
    | err e => cases h
    | panic w => cases h

/-- And for requests parsed by hyper's own server. -/
theorem C45_parsed_upgrade_has_key [B64] (d : Duplex) (request : Request) (buffer : Option Buffer) (u : SyncUpgrade)
    (h : intoWsParsed d request buffer = .ok u) :
    (∃ key, u.request.headers.getKey = some key) ∧ u.headers = [] ∧ u.stream = d ∧ u.buffer = buffer := by
  unfold intoWsParsed at h
  split at h
  · next hv => cases h; exact ⟨validate_key hv, rfl, rfl, rfl⟩
  · cases h

/-! ## Cases -/

/-- An upgrade for a sample request, on a transport that takes three bytes and then fails. -/
def sampleUpgrade (script : List WEv) : SyncUpgrade :=
  ⟨[], ⟨[], ⟨[], script⟩⟩, ⟨.http11, ⟨.get, ascii "/chat"⟩, Headers.fromRaw sampleLines⟩, none⟩

/-- The hypotheses of C36 and C45 are met: a key, no headers yet, and custom headers. -/
example : (∃ key, @Headers.getKey B64.strict (sampleUpgrade []).request.headers = some key) ∧
    Headers.Unique (sampleUpgrade []).headers ∧ Headers.Unique (Headers.fromRaw [(ascii "Server", ascii "x"), (ascii "connection", ascii "close")]) := by
  refine ⟨?_, by simp [sampleUpgrade, Headers.Unique], unique_fromRaw _⟩
  have : (@Headers.getKey B64.strict (sampleUpgrade []).request.headers).isSome = true := by decide +kernel
  cases h : @Headers.getKey B64.strict (sampleUpgrade []).request.headers with
  | some k => exact ⟨k, rfl⟩
  | none => rw [h] at this; cases this

/-- A history with protocols and extensions. -/
example : protocolsOf [.useProtocol (ascii "chat"), .useExtension ⟨ascii "x", []⟩, .useProtocol (ascii "echo")] =
    [ascii "chat", ascii "echo"] := by decide
/-- A reject on a transport that fails after three bytes. -/
example : (SyncUpgrade.reject (sampleUpgrade [.accept 3, .error .connectionReset])).2.output.wire = ascii "HTT" := by decide +kernel
example : (SyncUpgrade.reject (sampleUpgrade [])).2.output.wire = ascii "HTTP/1.1 400 Bad Request\r\n\r\n" := by decide +kernel
/-- A 101 head does begin with 101. -/
example : Begins101 (ascii "HTTP/1.1 101 Switching Protocols\r\n\r\n") := ⟨.http11, by decide⟩

/-! The theorems above for this upgrade. -/

/-- The key of the sample request. -/
def sampleNonce : WsKey := ⟨ascii "the sample nonce", by decide⟩
theorem sampleUpgrade_key (script : List WEv) :
    @Headers.getKey B64.strict (sampleUpgrade script).request.headers = some sampleNonce := by
  show @Headers.getKey B64.strict (sampleUpgrade []).request.headers = some sampleNonce
  decide +kernel

/-- What the program does before it accepts. -/
def sampleUses : List UpgradeOp := [.useProtocol (ascii "chat"), .useExtension ⟨ascii "x", []⟩, .useProtocol (ascii "echo")]

example :=
  @C36_required_headers B64.strict _ (sampleUpgrade []) sampleUses
    (some (Headers.fromRaw [(ascii "Server", ascii "x"), (ascii "connection", ascii "close")]))
    (by simp [sampleUpgrade, Headers.Unique]) sampleNonce (sampleUpgrade_key _)
/-- `C36_custom_kept`, `C36_plain_kept`: the headers are prepared, with and without custom ones. -/
example : (∃ u', @Upgrade.prepareHeaders _ B64.strict none ((sampleUpgrade []).run sampleUses) = .ok (switchingProtocols, u')) ∧
    (∃ u', @Upgrade.prepareHeaders _ B64.strict (some (Headers.fromRaw [(ascii "Server", ascii "x")]))
      ((sampleUpgrade []).run sampleUses) = .ok (switchingProtocols, u')) ∧
    ¬ SameText (ascii "Server") (ascii "Sec-WebSocket-Accept") := by
  have h := fun c => @C36_required_headers B64.strict _ (sampleUpgrade []) sampleUses c (by simp [sampleUpgrade, Headers.Unique]) sampleNonce (sampleUpgrade_key _)
  obtain ⟨u, -, h1, -⟩ := h none
  obtain ⟨v, -, h2, -⟩ := h (some (Headers.fromRaw [(ascii "Server", ascii "x")]))
  exact ⟨⟨u, h1⟩, ⟨v, h2⟩, by rw [sameText_iff]; decide +kernel⟩
example := C36_used_in_order (sampleUpgrade []) sampleUses rfl rfl
example := C45_reject (sampleUpgrade [.accept 3, .error .connectionReset]) sampleUses (by simp [sampleUpgrade, Headers.Unique])
  (some (Headers.fromRaw [(ascii "Server", ascii "x")])) _ _ rfl
example :=
  @C45_accept B64.strict (sampleUpgrade [.accept 3, .error .connectionReset]) sampleUses (by simp [sampleUpgrade, Headers.Unique]) none 100 100 sampleNonce (sampleUpgrade_key _)

/-- The same request at an async server that has read two bytes ahead. -/
def sampleAsyncUpgrade (script : List WEv) : AsyncUpgrade :=
  ⟨[], ⟨[], ⟨[], script⟩⟩, ⟨.http11, ⟨.get, ascii "/chat"⟩, Headers.fromRaw sampleLines⟩, [0x81, 1]⟩
example := C45_async_reject (sampleAsyncUpgrade [.accept 3, .error .connectionReset]) sampleUses
  (by simp [sampleAsyncUpgrade, Headers.Unique]) none 0 _ _ _ rfl
example :=
  @C45_async_accept B64.strict (sampleAsyncUpgrade [.accept 3, .error .wouldBlock]) sampleUses (by simp [sampleAsyncUpgrade, Headers.Unique])
    none 100 100 0 sampleNonce (sampleUpgrade_key [])

/-- `C45_upgrade_has_key`, `C45_async_upgrade_has_key`, `C45_parsed_upgrade_has_key`: the request is taken by all three. -/
example : (∃ u, @intoWs B64.strict reqParser ⟨[.chunk (Head (ascii "GET /chat HTTP/1.1") sampleLines)], ⟨[], []⟩⟩ = .ok u) ∧
    (∃ u, @asyncIntoWs B64.strict reqParser ⟨[.chunk (Head (ascii "GET /chat HTTP/1.1") sampleLines)], ⟨[], []⟩⟩ = .ok u) ∧
    ∃ u, @intoWsParsed B64.strict ⟨[], ⟨[], []⟩⟩ (sampleUpgrade []).request none = .ok u :=
  ⟨ok_of_isOk (by decide +kernel), ok_of_isOk (by decide +kernel), ok_of_isOk (by decide +kernel)⟩

end WS
