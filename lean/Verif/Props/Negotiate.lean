import Verif.Lemmas.Sample
import Verif.Props.Handshake
/-!
# C59: both ends agree on what was negotiated

The lists `protocolsOf`, `extensionsOf` (what a server program chose), `addedProtocols`, `addedExtensions` (what a client program asked
for) are read off the calls of the programs.
-/

namespace WS

open Spec

/-! ## Printing headers and reading them again -/

theorem reread_absent {h : Headers} (hu : h.Unique) {n : Bytes} (hi : h.item n = none) : (Headers.fromRaw h.wire).item n = none := by
  rw [item_fromRaw, valuesOf_wire hu, hi]; rfl

theorem reread_one {h : Headers} (hu : h.Unique) {n : Bytes} {v : HVal} (hi : h.item n = some (.typed v)) (hl : v.fmt.getLast? ≠ some 32) (hn : Inline v.fmt) :
    (Headers.fromRaw h.wire).item n = some (.raw [v.fmt]) := by
  rw [item_fromRaw, valuesOf_wire hu, hi]
  simp [HItem.lines, oneLine_inline hn, trimSpacesEnd_id hl]

/-- A list of protocols in a header map: absent, or set by the typed methods. -/
def HoldsProtocols (h : Headers) (l : List Bytes) : Prop := (h.item nProtocol = none ∧ l = []) ∨ h.item nProtocol = some (.typed (.protocol l))
/-- The same for extensions. -/
def HoldsExtensions (h : Headers) (l : List Ext) : Prop := (h.item nExtensions = none ∧ l = []) ∨ h.item nExtensions = some (.typed (.extensions l))

theorem holds_protocols {h : Headers} {l : List Bytes} (hh : HoldsProtocols h l) : h.getProtocol.getD [] = l := by
  unfold Headers.getProtocol
  rcases hh with ⟨h1, rfl⟩ | h1 <;> rw [h1] <;> rfl

theorem holds_extensions {h : Headers} {l : List Ext} (hh : HoldsExtensions h l) : h.getExtensions.getD [] = l := by
  unfold Headers.getExtensions
  rcases hh with ⟨h1, rfl⟩ | h1 <;> rw [h1] <;> rfl

theorem reread_protocols {h : Headers} (hu : h.Unique) {l : List Bytes} (hh : HoldsProtocols h l) (hl : ∀ x ∈ l, ListItem x ∧ Inline x) :
    (Headers.fromRaw h.wire).getProtocol.getD [] = l := by
  unfold Headers.getProtocol
  rcases hh with ⟨h1, rfl⟩ | h1
  · rw [reread_absent hu h1]; rfl
  · rw [reread_one hu h1 (joinWith_last l fun x hx => (hl x hx).1) (inline_join fun x hx => (hl x hx).2)]
    simp only [C44_round_trip l fun x hx => (hl x hx).1, Option.getD_some]

theorem ext_items {l : List Ext} (hl : ∀ e ∈ l, LegalExt e) : ∀ x ∈ l.map Ext.fmt, ListItem x := by
  intro x hx
  rw [List.mem_map] at hx
  obtain ⟨e, he, rfl⟩ := hx
  rw [extFmt_eq]
  refine joinWith_tok ?_
  intro y hy
  rcases List.mem_cons.mp hy with rfl | hy
  · exact (hl e he).tok.1
  · rw [List.mem_map] at hy
    obtain ⟨p, hp, rfl⟩ := hy
    exact (hl e he).tok.2 p hp

/-- What becomes of an extension on the way: a parameter value is glued to its name (C43). -/
def glued (e : Ext) : Ext := ⟨e.name, e.params.map fun p => ⟨p.fmt, none⟩⟩

theorem reread_extensions {h : Headers} (hu : h.Unique) {l : List Ext} (hh : HoldsExtensions h l) (hl : ∀ e ∈ l, LegalExt e ∧ Inline e.fmt) :
    (Headers.fromRaw h.wire).getExtensions.getD [] = l.map glued := by
  unfold Headers.getExtensions
  rcases hh with ⟨h1, rfl⟩ | h1
  · rw [reread_absent hu h1]; rfl
  · rw [reread_one hu h1 (joinWith_last _ (ext_items fun x hx => (hl x hx).1)) (inline_fmts fun x hx => (hl x hx).2)]
    simp only [C43_round_trip_partial l fun x hx => (hl x hx).1, Option.getD_some]
    rfl

theorem glued_id {l : List Ext} (hv : ∀ e ∈ l, ∀ p ∈ e.params, p.value = none) : l.map glued = l := by
  conv => rhs; rw [← List.map_id l]
  apply List.map_congr_left
  intro e he
  have : (e.params.map fun p => (⟨p.fmt, none⟩ : Param)) = e.params := by
    conv => rhs; rw [← List.map_id e.params]
    apply List.map_congr_left
    intro p hp
    have := hv e he p hp
    cases p
    simp_all [Param.fmt]
  simp [glued, this]

/-! ## What the server chose -/

theorem run_holds {B} (u : Upgrade B) (ops : List UpgradeOp) (hu : u.headers = []) :
    HoldsProtocols (u.run ops).headers (protocolsOf ops) ∧ HoldsExtensions (u.run ops).headers (extensionsOf ops) := by
  have hp : u.headers.item nProtocol = none := by rw [hu]; rfl
  have he : u.headers.item nExtensions = none := by rw [hu]; rfl
  clear hu
  constructor
  · clear he
    induction ops generalizing u with
    | nil => exact .inl ⟨hp, rfl⟩
    | cons op ops ih =>
      cases op with
      | useProtocol p => exact .inr (run_protocols_some (u.useProtocol p) ops [p] (item_upsertProtocol_none [p] hp))
      | useExtension e => exact ih (u.useExtension e) ((other_upsertExtensions _ (by decide +kernel)).trans hp)
      | useExtensions es => exact ih (u.useExtensions es) ((other_upsertExtensions _ (by decide +kernel)).trans hp)
  · clear hp
    induction ops generalizing u with
    | nil => exact .inl ⟨he, rfl⟩
    | cons op ops ih =>
      cases op with
      | useProtocol p => exact ih (u.useProtocol p) ((other_upsertProtocol _ (by decide +kernel)).trans he)
      | useExtension e => exact .inr (run_extensions_some (u.useExtension e) ops [e] (item_upsertExtensions_none [e] he))
      | useExtensions es => exact .inr (run_extensions_some (u.useExtensions es) ops es (item_upsertExtensions_none es he))

/-- The custom headers of an accept call do not replace the list. -/
def CustomKeepsOff (name : Bytes) (custom : Option Headers) : Prop := ∀ c, custom = some c → ∀ e ∈ c, ¬ SameText e.1 name

theorem item_kept {B} (u : Upgrade B) (custom : Option Headers) (key : WsKey) {n : Bytes}
    (hn : eqIgnoreCase nUpgrade n = false ∧ eqIgnoreCase nConnection n = false ∧ eqIgnoreCase nAccept n = false) (hc : CustomKeepsOff n custom) :
    (u.accepted custom key).headers.item n = u.headers.item n := by
  rw [item_accepted]
  simp only [hn.1, hn.2.1, hn.2.2, Bool.false_eq_true, if_false]
  cases custom with
  | none => rfl
  | some c =>
    show (u.headers.extend c).item n = _
    rw [item_extend]
    have : Headers.item n c.reverse = none := by
      unfold Headers.item
      rw [List.find?_eq_none.mpr]
      · rfl
      · intro e he
        have := hc c rfl e (List.mem_reverse.mp he)
        rwa [sameText_iff] at this
    rw [this, Option.none_or]

theorem accepted_holds {B} (u : Upgrade B) (ops : List UpgradeOp) (hu : u.headers = []) (custom : Option Headers) (key : WsKey) :
    (CustomKeepsOff (ascii "Sec-WebSocket-Protocol") custom → HoldsProtocols ((u.run ops).accepted custom key).headers (protocolsOf ops)) ∧
    (CustomKeepsOff (ascii "Sec-WebSocket-Extensions") custom → HoldsExtensions ((u.run ops).accepted custom key).headers (extensionsOf ops)) := by
  obtain ⟨h1, h2⟩ := run_holds u ops hu
  constructor
  · intro hc
    have := item_kept (u.run ops) custom key (n := nProtocol) ⟨by decide +kernel, by decide +kernel, by decide +kernel⟩ hc
    unfold HoldsProtocols
    rw [this]
    exact h1
  · intro hc
    have := item_kept (u.run ops) custom key (n := nExtensions) ⟨by decide +kernel, by decide +kernel, by decide +kernel⟩ hc
    unfold HoldsExtensions
    rw [this]
    exact h2

theorem accepted_unique {B} (u : Upgrade B) (ops : List UpgradeOp) (hu : u.headers = []) (custom : Option Headers) (key : WsKey) :
    ((u.run ops).accepted custom key).headers.Unique :=
  unique_accepted _ _ _ (run_facts u ops (by rw [hu]; simp [Headers.Unique])).1

theorem accept_headers [B64] (u : SyncUpgrade) (key : WsKey) (custom : Option Headers) (maxDf maxMsg : Nat)
    (hk : u.request.headers.getKey = some key) (c : Client) (h : u.internalAcceptWithLimits custom maxDf maxMsg = .client c) :
    c.headers = (u.accepted custom key).headers := by
  replace h := accept_client h
  unfold SyncUpgrade.acceptText at h
  rw [prepare_some u custom hk] at h
  simp only [Upgrade.sendText] at h
  split at h
  · cases h
  · next hs =>
    simp only [Prod.mk.injEq] at hs
    obtain ⟨_, rfl⟩ := hs
    simp only [AcceptRes.client.injEq] at h
    subst h
    rfl

theorem async_accept_headers [B64] (u : AsyncUpgrade) (key : WsKey) (custom : Option Headers) (maxDf maxMsg extra : Nat)
    (hk : u.request.headers.getKey = some key) (c : AsyncClient) (h : u.internalAcceptWithLimits custom maxDf maxMsg extra = .client c) :
    c.headers = (u.accepted custom key).headers := by
  replace h := asyncAccept_client h
  unfold AsyncUpgrade.acceptText at h
  rw [prepare_some u custom hk] at h
  simp only at h
  split at h <;> cases h
  rfl

/-! ## C59 -/

/-- The headers a blocking server's client object shows are exactly the lines of the response it wrote. -/
theorem C59_server_shows_what_it_sent [B64] (u : SyncUpgrade) (key : WsKey) (ops : List UpgradeOp) (custom : Option Headers) (maxDf maxMsg : Nat)
    (hu : u.headers = []) (hk : u.request.headers.getKey = some key) (c : Client)
    (h : SyncUpgrade.internalAcceptWithLimits (u.run ops) custom maxDf maxMsg = .client c) :
    c.stream.inner.output.wire = u.stream.output.wire ++ head101 u.request.version c.headers.wire := by
  obtain ⟨r0, r1, -, -⟩ := run_facts u ops (by rw [hu]; simp [Headers.Unique])
  have e := accept_headers (u.run ops) key custom maxDf maxMsg (by rw [r1]; exact hk) c h
  rcases (server_answers u key ops custom maxDf maxMsg hu hk (accept_writes h)).2 with ⟨k, _, d, hd⟩ | ⟨c', h1, h2, _⟩
  · rw [h] at hd; cases hd
  · rw [h] at h1
    cases h1
    rw [h2, e, responseLines_eq u hu]

/-- The same for an async server. -/
theorem C59_async_server_shows_what_it_sent [B64] (u : AsyncUpgrade) (key : WsKey) (ops : List UpgradeOp) (custom : Option Headers)
    (maxDf maxMsg extra : Nat) (hu : u.headers = []) (hk : u.request.headers.getKey = some key) (c : AsyncClient)
    (h : AsyncUpgrade.internalAcceptWithLimits (u.run ops) custom maxDf maxMsg extra = .client c) :
    c.stream.output.wire = u.stream.output.wire ++ head101 u.request.version c.headers.wire := by
  obtain ⟨r0, r1, -, -⟩ := run_facts u ops (by rw [hu]; simp [Headers.Unique])
  have e := async_accept_headers (u.run ops) key custom maxDf maxMsg extra (by rw [r1]; exact hk) c h
  rcases (async_server_answers u key ops custom maxDf maxMsg extra hu hk (asyncAccept_writes h)).2 with ⟨k, _, d, hd⟩ | ⟨c', h1, h2, _⟩
  · rw [h] at hd; cases hd
  · rw [h] at h1
    cases h1
    rw [h2, e, responseLines_eq u hu]

/-- The lists a server's client object shows are those the server program chose, in order. -/
theorem C59_server_lists [B64] (u : SyncUpgrade) (key : WsKey) (ops : List UpgradeOp) (custom : Option Headers) (maxDf maxMsg : Nat)
    (hu : u.headers = []) (hk : u.request.headers.getKey = some key) (c : Client)
    (h : SyncUpgrade.internalAcceptWithLimits (u.run ops) custom maxDf maxMsg = .client c) :
    (CustomKeepsOff (ascii "Sec-WebSocket-Protocol") custom → c.protocols = protocolsOf ops) ∧
    (CustomKeepsOff (ascii "Sec-WebSocket-Extensions") custom → c.extensions = extensionsOf ops) := by
  obtain ⟨r0, r1, -, -⟩ := run_facts u ops (by rw [hu]; simp [Headers.Unique])
  have e := accept_headers (u.run ops) key custom maxDf maxMsg (by rw [r1]; exact hk) c h
  obtain ⟨h1, h2⟩ := accepted_holds u ops hu custom key
  unfold Client.protocols Client.extensions
  rw [e]
  exact ⟨fun hc => holds_protocols (h1 hc), fun hc => holds_extensions (h2 hc)⟩

/-- The same for an async server. -/
theorem C59_async_server_lists [B64] (u : AsyncUpgrade) (key : WsKey) (ops : List UpgradeOp) (custom : Option Headers) (maxDf maxMsg extra : Nat)
    (hu : u.headers = []) (hk : u.request.headers.getKey = some key) (c : AsyncClient)
    (h : AsyncUpgrade.internalAcceptWithLimits (u.run ops) custom maxDf maxMsg extra = .client c) :
    (CustomKeepsOff (ascii "Sec-WebSocket-Protocol") custom → c.headers.getProtocol.getD [] = protocolsOf ops) ∧
    (CustomKeepsOff (ascii "Sec-WebSocket-Extensions") custom → c.headers.getExtensions.getD [] = extensionsOf ops) := by
  obtain ⟨r0, r1, -, -⟩ := run_facts u ops (by rw [hu]; simp [Headers.Unique])
  have e := async_accept_headers (u.run ops) key custom maxDf maxMsg extra (by rw [r1]; exact hk) c h
  obtain ⟨h1, h2⟩ := accepted_holds u ops hu custom key
  rw [e]
  exact ⟨fun hc => holds_protocols (h1 hc), fun hc => holds_extensions (h2 hc)⟩

theorem response_lists (ops : List UpgradeOp) (custom : Option Headers) (key : WsKey) :
    (CustomKeepsOff (ascii "Sec-WebSocket-Protocol") custom → (∀ x ∈ protocolsOf ops, ListItem x ∧ Inline x) →
      (Headers.fromRaw (responseLines ops custom key)).getProtocol.getD [] = protocolsOf ops) ∧
    (CustomKeepsOff (ascii "Sec-WebSocket-Extensions") custom → (∀ e ∈ extensionsOf ops, LegalExt e ∧ Inline e.fmt) →
      (Headers.fromRaw (responseLines ops custom key)).getExtensions.getD [] = (extensionsOf ops).map glued) := by
  let u : Upgrade Unit := ⟨[], ⟨[], ⟨[], []⟩⟩, ⟨.http11, ⟨.get, []⟩, []⟩, ()⟩
  obtain ⟨h1, h2⟩ := accepted_holds u ops rfl custom key
  have hq := accepted_unique u ops rfl custom key
  exact ⟨fun hc hl => reread_protocols hq (h1 hc) hl, fun hc hl => reread_extensions hq (h2 hc) hl⟩

/-- A blocking client that got the response of a server told these things shows the protocols that server chose, and its extensions up to the
loss described in C43; none is lost if no parameter has a value. -/
theorem C59_client_lists_partial [B64] (p : ResParser) (key fresh : WsKey) (url : Url) (ops : List BOp) (sops : List UpgradeOp) (custom : Option Headers)
    (d : Duplex) (y : Bytes) (ha : Answers key (responseLines sops custom key)) (hs : Sendable (responseLines sops custom key))
    (hk : (((Builder.init url).run ops).buildRequest fresh).2.headers.getKey = some key)
    (hl : (head101 .http11 (responseLines sops custom key)).length ≤ maxBufferSize) (hc : d.input.Chunks)
    (hf : d.input.flat = head101 .http11 (responseLines sops custom key) ++ y) (c : Client)
    (h : (((Builder.init url).run ops).connectOn p fresh d).1 = .client c) :
    (CustomKeepsOff (ascii "Sec-WebSocket-Protocol") custom → (∀ x ∈ protocolsOf sops, ListItem x ∧ Inline x) → c.protocols = protocolsOf sops) ∧
    (CustomKeepsOff (ascii "Sec-WebSocket-Extensions") custom → (∀ e ∈ extensionsOf sops, LegalExt e ∧ Inline e.fmt) → (∀ e ∈ extensionsOf sops, ∀ p ∈ e.params, p.value = none) →
      c.extensions = extensionsOf sops) := by
  obtain ⟨h1, h2⟩ := response_lists sops custom key
  rcases client_takes p key fresh url ops _ d y (connect_writes h) ha hs hk hl hc hf with ⟨k, _, d', hd⟩ | ⟨c', g1, _, g2, _⟩
  · rw [h] at hd; cases hd
  · rw [h] at g1
    cases g1
    unfold Client.protocols Client.extensions
    rw [g2]
    exact ⟨h1, fun hc hl hv => by rw [h2 hc hl, glued_id hv]⟩

/-- The same for an async client. -/
theorem C59_async_client_lists_partial [B64] (p : ResParser) (key fresh : WsKey) (url : Url) (ops : List BOp) (sops : List UpgradeOp) (custom : Option Headers)
    (extra : Nat) (d : Duplex) (y : Bytes) (ha : Answers key (responseLines sops custom key)) (hs : Sendable (responseLines sops custom key))
    (hk : (((Builder.init url).run ops).buildRequest fresh).2.headers.getKey = some key)
    (hc : ∀ e ∈ d.input, ¬ e.fails) (hf : d.input.flat = head101 .http11 (responseLines sops custom key) ++ y) (c : AsyncClient)
    (h : ((Builder.init url).run ops).asyncConnectOn p fresh extra d = .client c) :
    (CustomKeepsOff (ascii "Sec-WebSocket-Protocol") custom → (∀ x ∈ protocolsOf sops, ListItem x ∧ Inline x) → c.headers.getProtocol.getD [] = protocolsOf sops) ∧
    (CustomKeepsOff (ascii "Sec-WebSocket-Extensions") custom → (∀ e ∈ extensionsOf sops, LegalExt e ∧ Inline e.fmt) → (∀ e ∈ extensionsOf sops, ∀ p ∈ e.params, p.value = none) →
      c.headers.getExtensions.getD [] = extensionsOf sops) := by
  obtain ⟨h1, h2⟩ := response_lists sops custom key
  rcases async_client_takes p key fresh url ops _ extra d y (asyncConnect_writes h) ha hs hk hc hf with ⟨k, _, d', hd⟩ | ⟨c', g1, _, _, g2, _⟩
  · rw [h] at hd; cases hd
  · rw [h] at g1
    cases g1
    rw [g2]
    exact ⟨h1, fun hc hl hv => by rw [h2 hc hl, glued_id hv]⟩

/-- The loss: both ends of one connection disagree on an extension whose parameter has a value. -/
theorem C59_refuted_values [B64] (u : SyncUpgrade) (key : WsKey) (hu : u.headers = []) (hk : u.request.headers.getKey = some key) (sc : Client) (e : Ext)
    (he : e = ⟨ascii "permessage-deflate", [⟨ascii "client_max_window_bits", some (ascii "15")⟩]⟩)
    (h : SyncUpgrade.accept (u.run [.useExtension e]) = .client sc) (c : Client)
    (hc : c.headers = .fromRaw (responseLines [.useExtension e] none key)) : c.extensions ≠ sc.extensions := by
  have h1 := (C59_server_lists u key [.useExtension e] none _ _ hu hk sc h).2 (by intro c hc; cases hc)
  have h2 := (response_lists [.useExtension e] none key).2 (by intro c hc; cases hc) (by
    intro x hx
    simp only [extensionsOf, List.mem_cons, List.not_mem_nil, or_false] at hx
    subst hx
    rw [he]
    exact ⟨C43_refuted.1, by decide +kernel⟩)
  rw [h1]
  unfold Client.extensions
  rw [hc, h2, he]
  decide +kernel

/-! ## What the client asked for -/

theorem request_extensions_held (url : Url) (pre post : List BOp) (fresh : WsKey)
    (hpre : pre = [] ∨ ∃ p op, pre = p ++ [op] ∧ ClearsExtensions op)
    (hpost : ∀ op ∈ post, ¬ ClearsExtensions op ∧ KeepsOff (ascii "Sec-WebSocket-Extensions") op) :
    HoldsExtensions (((Builder.init url).run (pre ++ post)).buildRequest fresh).2.headers (post.flatMap addedExtensions) := by
  have h0 := extensions_absent (unique_init url pre) post
    (fun op ho => ⟨(hpost op ho).2, fun e => (hpost op ho).1 (Or.inl e)⟩) (cleared_extensions url pre hpre)
  rw [← run_append] at h0
  have hb := build_item (b := (Builder.init url).run (pre ++ post)) built_extensions fresh
  unfold HoldsExtensions
  rw [hb]
  rcases h0 with ⟨h1, h2⟩ | ⟨h1, h2⟩
  · refine .inl ⟨h2, ?_⟩
    rw [List.flatMap_eq_nil_iff]
    intro op ho
    have := h1 op ho
    cases op <;> first | rfl | exact absurd (Or.inl ⟨_, rfl⟩) this | exact absurd (Or.inr ⟨_, rfl⟩) this
  · exact .inr h2

/-- The server sees the extensions the client added since it last cleared them, up to the loss described in C43. -/
theorem C59_requested_extensions_partial (url : Url) (pre post : List BOp) (fresh : WsKey)
    (hpre : pre = [] ∨ ∃ p op, pre = p ++ [op] ∧ ClearsExtensions op)
    (hpost : ∀ op ∈ post, ¬ ClearsExtensions op ∧ KeepsOff (ascii "Sec-WebSocket-Extensions") op)
    (hl : ∀ x ∈ post.flatMap addedExtensions, LegalExt x ∧ Inline x.fmt) (hv : ∀ e ∈ post.flatMap addedExtensions, ∀ p ∈ e.params, p.value = none) {B} (u : Upgrade B)
    (hu : u.request.headers = .fromRaw (requestLines url (pre ++ post) fresh)) :
    u.extensions = post.flatMap addedExtensions := by
  unfold Upgrade.extensions
  rw [hu]
  have := reread_extensions (unique_build (unique_init url (pre ++ post)) fresh) (request_extensions_held url pre post fresh hpre hpost) hl
  rw [glued_id hv] at this
  exact this

theorem one_line {l : List (Bytes × Bytes)} {n v : Bytes} (h : Values n l [v]) (hv : v ≠ []) (hu : IsUtf8 v) :
    (Headers.fromRaw l).item n = some (.raw [v]) ∧ fromOneRawStr [v] = some v := by
  have hi := item_fromRaw l n
  have hv' : valuesOf n l = [v] := (values_iff.mp h).symm
  rw [hv'] at hi
  simp only [List.cons_ne_self, if_false] at hi
  exact ⟨hi, fromOneRawStr_iff.mpr ⟨rfl, hv, hu⟩⟩

/-- The server sees the key, the version and the resource the client asked with. -/
theorem C59_requested_basics [B64] (key : WsKey) (lines : List (Bytes × Bytes)) (ha : Asks key lines) (url : Url) {B} (u : Upgrade B)
    (hu : u.request = ⟨.http11, ⟨.get, url.resource⟩, .fromRaw lines⟩) :
    u.key = some key.bytes ∧ u.version = some .ws13 ∧ u.uri = url.resource := by
  refine ⟨?_, ?_, ?_⟩
  · unfold Upgrade.key
    rw [hu]
    simp only [(asks_validate ha).2, Option.map_some]
  · unfold Upgrade.version Headers.getVersion
    rw [hu]
    obtain ⟨h1, h2⟩ := one_line (n := nVersion) ha.version (by decide) (isUtf8_ascii (by decide))
    simp only [h1, WsVersion.parse, h2, Option.map_some, if_true]
  · unfold Upgrade.uri
    rw [hu]

theorem built_origin : ∀ m ∈ builtNames, eqIgnoreCase m nOrigin = false := by decide +kernel

theorem origin_untouched {op : BOp} (g1 : ∀ k, op ≠ .origin k) (g2 : op ≠ .clearOrigin) (g3 : KeepsOff (ascii "Origin") op) :
    op.touches nOrigin = false := by
  cases op with
  | customHeaders h =>
    simp only [BOp.touches, List.any_eq_false]
    intro e he
    have := g3 e he
    rwa [sameText_iff] at this
  | clearHeader n =>
    have : ¬ SameText n nOrigin := g3
    rw [sameText_iff] at this
    simpa [BOp.touches] using this
  | origin k => exact absurd rfl (g1 k)
  | clearOrigin => exact absurd rfl g2
  | _ => simp only [BOp.touches] <;> decide +kernel

/-- The server sees the origin that was set last. -/
theorem C59_requested_origin (url : Url) (pre post : List BOp) (o : Bytes) (fresh : WsKey) (ho : o ≠ []) (hb : o.getLast? ≠ some 32) (hutf : IsUtf8 o) (hn : Inline o)
    (h1 : ∀ op ∈ post, (∀ k, op ≠ .origin k) ∧ op ≠ .clearOrigin ∧ KeepsOff (ascii "Origin") op) {B} (u : Upgrade B)
    (hu : u.request.headers = .fromRaw (requestLines url (pre ++ .origin o :: post) fresh)) :
    u.origin = some o := by
  have hi : ((Builder.init url).run (pre ++ .origin o :: post)).headers.item nOrigin = some (.typed (.origin o)) := by
    rw [run_append, run_cons, run_item (unique_step (unique_init url pre) _)]
    · exact item_insert_same _ _ _
    · intro op hop
      obtain ⟨g1, g2, g3⟩ := h1 op hop
      exact origin_untouched g1 g2 g3
  have hq := unique_build (unique_init url (pre ++ .origin o :: post)) fresh
  have hbi := build_item (b := (Builder.init url).run (pre ++ .origin o :: post)) built_origin fresh
  rw [hi] at hbi
  have := reread_one hq hbi hb hn
  unfold Upgrade.origin Headers.getOrigin
  rw [hu]
  have e : (Headers.fromRaw (requestLines url (pre ++ .origin o :: post) fresh)).item nOrigin = some (.raw [o]) := this
  rw [e]
  exact fromOneRawStr_iff.mpr ⟨rfl, ho, hutf⟩

/-- And none if none was set since the last clear. -/
theorem C59_no_origin (url : Url) (pre post : List BOp) (fresh : WsKey) (hpre : pre = [] ∨ ∃ p, pre = p ++ [.clearOrigin])
    (h1 : ∀ op ∈ post, (∀ k, op ≠ .origin k) ∧ KeepsOff (ascii "Origin") op) {B} (u : Upgrade B)
    (hu : u.request.headers = .fromRaw (requestLines url (pre ++ post) fresh)) : u.origin = none := by
  have hi : ((Builder.init url).run (pre ++ post)).headers.item nOrigin = none := by
    have h0 : ((Builder.init url).run pre).headers.item nOrigin = none := by
      rcases hpre with rfl | ⟨p, rfl⟩
      · rfl
      · rw [run_append, run_cons]
        show (Headers.remove nOrigin _).item nOrigin = none
        rw [item_remove (unique_init url p), if_pos (eqIgnoreCase_refl _)]
    rw [run_append]
    have hun := unique_init url pre
    generalize (Builder.init url).run pre = b at hun h0
    clear hpre hu
    induction post generalizing b with
    | nil => exact h0
    | cons op post ih =>
      rw [run_cons]
      refine ih (fun o ho => h1 o (by simp [ho])) (b.step op) (unique_step hun op) ?_
      obtain ⟨g1, g3⟩ := h1 op (by simp)
      by_cases hcl : op = .clearOrigin
      · subst hcl
        show (Headers.remove nOrigin _).item nOrigin = none
        rw [item_remove hun, if_pos (eqIgnoreCase_refl _)]
      · rw [step_item hun (origin_untouched g1 hcl g3), h0]
  have hq := unique_build (unique_init url (pre ++ post)) fresh
  have hbi := build_item (b := (Builder.init url).run (pre ++ post)) built_origin fresh
  rw [hi] at hbi
  unfold Upgrade.origin Headers.getOrigin
  rw [hu]
  have e : (Headers.fromRaw (requestLines url (pre ++ post) fresh)).item nOrigin = none := reread_absent hq hbi
  rw [e]

/-! ## Both ends -/

/-- Two blocking ends, whatever the programs ask and choose, over any segments: what each end shows as negotiated is what the other shows.
Missing for the full property: extension parameters with values, see `C59_refuted_values`. -/
theorem C59_both_ends_partial [B64] (preq : ReqParser) (pres : ResParser) (url : Url) (ops : List BOp) (fresh key : WsKey)
    (sops : List UpgradeOp) (custom : Option Headers) (maxDf maxMsg : Nat) (sd cd : Duplex) (x y : Bytes)
    (ha : Asks key (requestLines url ops fresh))
    (hk : (((Builder.init url).run ops).buildRequest fresh).2.headers.getKey = some key)
    (hu : Target url.resource) (hs : Sendable (requestLines url ops fresh))
    (hl : (Head (requestStart url) (requestLines url ops fresh)).length ≤ maxBufferSize)
    (hc : sd.input.Chunks) (hf : sd.input.flat = Head (requestStart url) (requestLines url ops fresh) ++ x) (u : SyncUpgrade) (h1 : intoWs preq sd = .ok u)
    (sc : Client) (h2 : SyncUpgrade.internalAcceptWithLimits (u.run sops) custom maxDf maxMsg = .client sc)
    (hs' : Sendable (responseLines sops custom key)) (hl' : (head101 .http11 sc.headers.wire).length ≤ maxBufferSize)
    (hc' : cd.input.Chunks) (hf' : cd.input.flat = head101 .http11 sc.headers.wire ++ y)
    (c : Client) (h3 : (((Builder.init url).run ops).connectOn pres fresh cd).1 = .client c)
    (hcu : CustomKeepsOff (ascii "Sec-WebSocket-Protocol") custom ∧ CustomKeepsOff (ascii "Sec-WebSocket-Extensions") custom)
    (hp : ∀ x ∈ protocolsOf sops, ListItem x ∧ Inline x) (he : ∀ e ∈ extensionsOf sops, LegalExt e ∧ Inline e.fmt) (hv : ∀ e ∈ extensionsOf sops, ∀ p ∈ e.params, p.value = none) :
    (u.key = some key.bytes ∧ u.version = some .ws13 ∧ u.uri = url.resource) ∧
    c.protocols = sc.protocols ∧ c.extensions = sc.extensions ∧ sc.protocols = protocolsOf sops ∧ sc.extensions = extensionsOf sops := by
  obtain ⟨u', g1, g2, g3, g4, g5, g6⟩ := C35_server_takes preq key url.resource (requestLines url ops fresh) sd x ha hu hs hl hc hf
  rw [h1] at g1
  cases g1
  obtain ⟨e1, e2⟩ := C59_server_lists u key sops custom maxDf maxMsg g4 g3 sc h2
  have r1 := (run_facts u sops (by rw [g4]; simp [Headers.Unique])).2.1
  have ew : sc.headers.wire = responseLines sops custom key := by
    rw [accept_headers (u.run sops) key custom maxDf maxMsg (by rw [r1]; exact g3) sc h2, responseLines_eq u g4]
  rw [ew] at hl' hf'
  obtain ⟨d1, d2⟩ := C59_client_lists_partial pres key fresh url ops sops custom cd y (response_answers sops custom key) hs' hk hl' hc' hf' c h3
  refine ⟨C59_requested_basics key _ ha url u g2, ?_⟩
  rw [e1 hcu.1, e2 hcu.2, d1 hcu.1 hp, d2 hcu.2 he hv]
  exact ⟨rfl, rfl, rfl, rfl⟩

/-! ## The hypotheses are met -/

/-- A server that chooses a protocol and an extension and adds a header of its own. -/
def sampleChoice : List UpgradeOp := [.useProtocol (ascii "chat"), .useExtension ⟨ascii "x-deflate", [⟨ascii "fast", none⟩]⟩]
def sampleCustom : Option Headers := some [(ascii "Server", .raw [ascii "demo"])]

example : CustomKeepsOff (ascii "Sec-WebSocket-Protocol") sampleCustom ∧ CustomKeepsOff (ascii "Sec-WebSocket-Extensions") sampleCustom := by
  constructor <;> intro c hc e he <;> cases hc <;> simp only [List.mem_cons, List.not_mem_nil, or_false] at he <;> subst he <;>
    rw [sameText_iff] <;> decide +kernel

example : (∀ x ∈ protocolsOf sampleChoice, ListItem x ∧ Inline x) ∧ (∀ e ∈ extensionsOf sampleChoice, ∀ p ∈ e.params, p.value = none) := by
  constructor
  · intro x hx
    simp only [sampleChoice, protocolsOf, List.mem_cons, List.not_mem_nil, or_false] at hx
    subst hx
    exact ⟨listItem_of (by decide +kernel), by decide⟩
  · decide

/-- One whole handshake: both ends show the same lists, the server saw the origin. -/
def sampleNegotiation : Option (List Bytes × List Bytes × List Ext × Option Bytes) :=
  let ops : List BOp := [.addProtocol (ascii "chat"), .origin (ascii "http://a")]
  let request := Head (requestStart sampleUrl) (requestLines sampleUrl ops sampleKey)
  match @intoWs B64.strict reqParser ⟨[.chunk request], ⟨[], []⟩⟩ with
  | .error _ => none
  | .ok u =>
    match @SyncUpgrade.internalAccept B64.strict (u.run sampleChoice) sampleCustom with
    | .client sc =>
      match (@Builder.connectOn B64.strict resParser sampleKey ⟨[.chunk sc.stream.inner.output.wire], ⟨[], []⟩⟩ ((Builder.init sampleUrl).run ops)).1 with
      | .client c => some (sc.protocols, c.protocols, c.extensions, u.origin)
      | _ => none
    | _ => none

example : sampleNegotiation = some ([ascii "chat"], [ascii "chat"], [⟨ascii "x-deflate", [⟨ascii "fast", none⟩]⟩], some (ascii "http://a")) := by
  decide +kernel

/-! The theorems above on concrete handshakes. -/

/-- `C59_server_shows_what_it_sent`, `C59_server_lists`: the request is accepted. -/
example : sampleTaken.headers = [] ∧ @Headers.getKey B64.strict sampleTaken.request.headers = some sampleKey ∧
    ∃ c, @SyncUpgrade.internalAcceptWithLimits B64.strict (sampleTaken.run sampleChoice) sampleCustom 10 20 = .client c :=
  ⟨rfl, by decide +kernel, AcceptRes.exists_client (by decide +kernel)⟩
/-- `C59_async_server_shows_what_it_sent`, `C59_async_server_lists`. -/
example : ∃ c, @AsyncUpgrade.internalAcceptWithLimits B64.strict
    (Upgrade.run (⟨[], sampleTaken.stream, sampleTaken.request, [0x89]⟩ : AsyncUpgrade) sampleChoice) sampleCustom 10 20 0 = .client c :=
  AsyncRes.exists_client (by decide +kernel)
/-- `C59_client_lists_partial`, `C59_async_client_lists_partial`: the client connects to the answer of `sampleAnswered`, whose lines are answers and
can be sent (`sampleAnswers`, `sampleAnswer_sendable`). -/
example : (∃ c, (@Builder.connectOn B64.strict resParser sampleKey sampleAnswered ((Builder.init sampleUrl).run sampleOps)).1 = .client c) ∧
    (∃ c, @Builder.asyncConnectOn B64.strict resParser sampleKey 0 sampleAnswered ((Builder.init sampleUrl).run sampleOps) = .client c) ∧
    sampleAnswered.input.Chunks ∧ sampleAnswered.input.flat = head101 .http11 (responseLines [.useProtocol (ascii "rust")] none sampleKey) ++ [0x8a, 0] :=
  ⟨ConnectRes.exists_client (by decide +kernel), AsyncConnectRes.exists_client (by decide +kernel), Src.chunks_of (by decide +kernel), by decide +kernel⟩
/-- `C59_refuted_values`: the server accepts with that extension. -/
example : ∃ c, @SyncUpgrade.accept B64.strict
    (sampleTaken.run [.useExtension ⟨ascii "permessage-deflate", [⟨ascii "client_max_window_bits", some (ascii "15")⟩]⟩]) = .client c :=
  AcceptRes.exists_client (by decide +kernel)

/-- Any upgrade with the request of this client. -/
def requested (ops : List BOp) : SyncUpgrade :=
  ⟨[], ⟨[], ⟨[], []⟩⟩, ⟨.http11, ⟨.get, sampleUrl.resource⟩, .fromRaw (requestLines sampleUrl ops sampleKey)⟩, none⟩
example := C59_requested_extensions_partial sampleUrl [] [.addExtension ⟨ascii "mux", [⟨ascii "fast", none⟩]⟩, .origin (ascii "x")] sampleKey (.inl rfl)
  (by
    intro op ho
    simp only [List.mem_cons, List.not_mem_nil, or_false] at ho
    rcases ho with rfl | rfl <;> exact ⟨(by rintro (h | ⟨n, h, _⟩) <;> cases h), trivial⟩)
  (by
    intro x hx
    have : x = ⟨ascii "mux", [⟨ascii "fast", none⟩]⟩ := by simpa [addedExtensions] using hx
    subst this
    refine ⟨⟨listItem_of (by decide +kernel), by decide, ?_⟩, by unfold Inline; decide⟩
    intro p hp
    rw [List.mem_singleton] at hp
    subst hp
    exact ⟨listItem_of (by decide +kernel), by decide, by decide, by simp⟩)
  (by decide) (requested [.addExtension ⟨ascii "mux", [⟨ascii "fast", none⟩]⟩, .origin (ascii "x")]) rfl
example := @C59_requested_basics B64.strict sampleKey _ sampleAsks sampleUrl _ (requested sampleOps) rfl
example := C59_requested_origin sampleUrl [] [.addProtocol (ascii "chat")] (ascii "http://a") sampleKey (by decide) (by decide)
  (isUtf8_ascii (by decide)) (by unfold Inline; decide)
  (by
    intro op ho
    rw [List.mem_singleton] at ho
    subst ho
    exact ⟨fun k h => (nomatch h), fun h => (nomatch h), trivial⟩)
  (requested [.origin (ascii "http://a"), .addProtocol (ascii "chat")]) rfl
example := C59_no_origin sampleUrl [.origin (ascii "http://a"), .clearOrigin] [.addProtocol (ascii "chat")] sampleKey (.inr ⟨[.origin (ascii "http://a")], rfl⟩)
  (by
    intro op ho
    rw [List.mem_singleton] at ho
    subst ho
    exact ⟨fun k h => (nomatch h), trivial⟩)
  (requested [.origin (ascii "http://a"), .clearOrigin, .addProtocol (ascii "chat")]) rfl

end WS
