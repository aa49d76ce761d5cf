import Verif.Props.Connect
import Verif.Props.Negotiate
/-!
# C36, C39, C45: every method of an upgrade that answers the request

`accept`, `accept_with`, `accept_with_limits`, `accept_with_headers_and_limits`, `reject` and
`reject_with`, blocking and async: which headers the answer has and which limits the client.
-/

namespace WS

open Spec

/-- Under every name but `taken` the lines hold what the custom headers have there, or else what was there before. -/
def Overlaid (taken : List Bytes) (before : Headers) (custom : Option Headers) (lines : List (Bytes × Bytes)) : Prop :=
  ∀ n, (∀ t ∈ taken, ¬ SameText n t) → ∀ vs, Values n lines vs ↔
    match custom with
    | some c => if c.has n then Values n c.wire vs else Values n before.wire vs
    | none => Values n before.wire vs

/-- `wire` is what was there plus one 101 response for this key with these headers. -/
def Switched {B} (u : Upgrade B) (key : WsKey) (before : Headers) (custom : Option Headers) (wire : Bytes) : Prop :=
  ∃ lines accept, wire = u.stream.output.wire ++ head101 u.request.version lines ∧
    Values (ascii "Sec-WebSocket-Accept") lines [accept] ∧ chars accept = acceptText (key.bytes.map UInt8.toNat) ∧
    Values (ascii "Connection") lines [ascii "Upgrade"] ∧ Values (ascii "Upgrade") lines [ascii "websocket"] ∧
    Overlaid [ascii "Sec-WebSocket-Accept", ascii "Connection", ascii "Upgrade"] before custom lines

/-- `wire` is what was there plus one 400 response with these headers. -/
def Refused {B} (u : Upgrade B) (before : Headers) (custom : Option Headers) (wire : Bytes) : Prop :=
  ∃ lines, wire = u.stream.output.wire ++ head400 u.request.version lines ∧ Overlaid [] before custom lines

/-- A hyper header map, if there is one. -/
def UniqueCustom (custom : Option Headers) : Prop := ∀ c, custom = some c → c.Unique

theorem switched_of [B64] {B} (u : Upgrade B) (ops : List UpgradeOp) (custom : Option Headers) (hu : u.headers.Unique)
    (hc : UniqueCustom custom) (key : WsKey) (hk : u.request.headers.getKey = some key) (u' : Upgrade B)
    (hp : (u.run ops).prepareHeaders custom = .ok (switchingProtocols, u')) (wire : Bytes)
    (hw : wire = u.stream.output.wire ++ head101 u.request.version u'.headers.wire) :
    Switched u key (u.run ops).headers custom wire := by
  obtain ⟨v, accept, e, -, -, -, -, h1, h2, h3, h4⟩ := C36_required_headers u ops custom hu key hk
  rw [hp] at e
  cases e
  refine ⟨_, accept, hw, h1, h2, h3, h4, fun n hn vs => ?_⟩
  have hn' : ¬ SameText n (ascii "Sec-WebSocket-Accept") ∧ ¬ SameText n (ascii "Connection") ∧ ¬ SameText n (ascii "Upgrade") :=
    ⟨hn _ (by simp), hn _ (by simp), hn _ (by simp)⟩
  cases custom with
  | none => exact C36_plain_kept u ops hu key hk _ hp n hn' vs
  | some c => exact C36_custom_kept u ops c hu (hc c rfl) key hk _ hp n hn' vs

theorem overlaid_addCustom {B} (u : Upgrade B) (custom : Option Headers) (hu : u.headers.Unique) (hc : UniqueCustom custom) :
    Overlaid [] u.headers custom (u.addCustom custom).headers.wire := by
  intro n _ vs
  cases custom with
  | none => exact Iff.rfl
  | some c =>
    have hcu := hc c rfl
    have hi : (u.addCustom (some c)).headers.item n = (c.item n).or (u.headers.item n) := by
      show (u.headers.extend c).item n = _
      rw [item_extend, item_reverse hcu]
    show Values n _ vs ↔ if c.has n then _ else _
    rw [values_iff, valuesOf_wire (addCustom_facts u (some c) hu).1, hi]
    unfold Headers.has
    cases hx : c.item n with
    | some it =>
      simp only [Option.some_or, Option.isSome_some, if_true]
      rw [values_iff, valuesOf_wire hcu, hx]
    | none =>
      simp only [Option.none_or, Option.isSome_none, Bool.false_eq_true, if_false]
      rw [values_iff, valuesOf_wire hu]

/-- What a blocking accept that succeeds has done. -/
def Took101 (u : SyncUpgrade) (key : WsKey) (ops : List UpgradeOp) (custom : Option Headers) (maxDf maxMsg : Nat) (c : Client) : Prop :=
  Switched u key (u.run ops).headers custom c.stream.inner.output.wire ∧ c.stream.inner.input = u.stream.input ∧
    HasLimits c.receiver maxDf maxMsg

/-- What an async accept that succeeds has done. -/
def AsyncTook101 (u : AsyncUpgrade) (key : WsKey) (ops : List UpgradeOp) (custom : Option Headers) (maxDf maxMsg : Nat) (c : AsyncClient) : Prop :=
  Switched u key (u.run ops).headers custom c.stream.output.wire ∧ c.stream.input = u.stream.input ∧
    HasAsyncLimits c.read.codec maxDf maxMsg

/-- The four ways of accepting at a blocking server: each writes one 101 response for the key of the
request, with the headers that were configured and, for the two methods that take them, the custom
headers on top; the client has the limits that were given, or 100 MiB and 200 MiB. -/
theorem C36_accept_methods [B64] (u : SyncUpgrade) (ops : List UpgradeOp) (custom : Headers) (maxDf maxMsg : Nat)
    (hu : u.headers.Unique) (hc : custom.Unique) (key : WsKey) (hk : u.request.headers.getKey = some key) (c : Client) :
    (SyncUpgrade.accept (u.run ops) = .client c → Took101 u key ops none (100 * 2 ^ 20) (200 * 2 ^ 20) c) ∧
    (SyncUpgrade.acceptWith (u.run ops) custom = .client c → Took101 u key ops (some custom) (100 * 2 ^ 20) (200 * 2 ^ 20) c) ∧
    (SyncUpgrade.acceptWithLimits (u.run ops) maxDf maxMsg = .client c → Took101 u key ops none maxDf maxMsg c) ∧
    (SyncUpgrade.acceptWithHeadersAndLimits (u.run ops) custom maxDf maxMsg = .client c →
      Took101 u key ops (some custom) maxDf maxMsg c) := by
  have main : ∀ (cu : Option Headers) (df msg : Nat), UniqueCustom cu →
      SyncUpgrade.internalAcceptWithLimits (u.run ops) cu df msg = .client c → Took101 u key ops cu df msg c := by
    intro cu df msg hcu h
    obtain ⟨u', hp, hm⟩ := C45_accept u ops hu cu df msg key hk
    rw [h] at hm
    exact ⟨switched_of u ops cu hu hcu key hk u' hp _ hm.1, hm.2, (C39_server_limits _ cu df msg c h).1⟩
  have h0 : UniqueCustom none := fun _ h => nomatch h
  have h1 : UniqueCustom (some custom) := fun _ h => by cases h; exact hc
  exact ⟨main none _ _ h0, main (some custom) _ _ h1, main none _ _ h0, main (some custom) _ _ h1⟩

/-- The same at an async server. -/
theorem C36_async_accept_methods [B64] (u : AsyncUpgrade) (ops : List UpgradeOp) (custom : Headers) (maxDf maxMsg extra : Nat)
    (hu : u.headers.Unique) (hc : custom.Unique) (key : WsKey) (hk : u.request.headers.getKey = some key) (c : AsyncClient) :
    (AsyncUpgrade.accept (u.run ops) extra = .client c → AsyncTook101 u key ops none (100 * 2 ^ 20) (200 * 2 ^ 20) c) ∧
    (AsyncUpgrade.acceptWith (u.run ops) custom extra = .client c →
      AsyncTook101 u key ops (some custom) (100 * 2 ^ 20) (200 * 2 ^ 20) c) ∧
    (AsyncUpgrade.acceptWithLimits (u.run ops) maxDf maxMsg extra = .client c → AsyncTook101 u key ops none maxDf maxMsg c) ∧
    (AsyncUpgrade.acceptWithHeadersAndLimits (u.run ops) custom maxDf maxMsg extra = .client c →
      AsyncTook101 u key ops (some custom) maxDf maxMsg c) := by
  have main : ∀ (cu : Option Headers) (df msg : Nat), UniqueCustom cu →
      AsyncUpgrade.internalAcceptWithLimits (u.run ops) cu df msg extra = .client c → AsyncTook101 u key ops cu df msg c := by
    intro cu df msg hcu h
    obtain ⟨u', hp, hm⟩ := C45_async_accept u ops hu cu df msg extra key hk
    rw [h] at hm
    exact ⟨switched_of u ops cu hu hcu key hk u' hp _ hm.1, hm.2.1, (C39_async_server_limits _ cu df msg extra c h).1⟩
  have h0 : UniqueCustom none := fun _ h => nomatch h
  have h1 : UniqueCustom (some custom) := fun _ h => by cases h; exact hc
  exact ⟨main none _ _ h0, main (some custom) _ _ h1, main none _ _ h0, main (some custom) _ _ h1⟩

/-- The two ways of rejecting at a blocking server: each that succeeds writes one 400 response, with the
headers that were configured and, for `reject_with`, the custom headers on top. -/
theorem C45_reject_methods (u : SyncUpgrade) (ops : List UpgradeOp) (custom : Headers) (hu : u.headers.Unique) (hc : custom.Unique)
    (d : Duplex) :
    (SyncUpgrade.reject (u.run ops) = (.ok (), d) → Refused u (u.run ops).headers none d.output.wire ∧ d.input = u.stream.input) ∧
    (SyncUpgrade.rejectWith (u.run ops) custom = (.ok (), d) →
      Refused u (u.run ops).headers (some custom) d.output.wire ∧ d.input = u.stream.input) := by
  have main : ∀ cu : Option Headers, UniqueCustom cu → SyncUpgrade.internalReject (u.run ops) cu = (.ok (), d) →
      Refused u (u.run ops).headers cu d.output.wire ∧ d.input = u.stream.input := by
    intro cu hcu h
    obtain ⟨h1, out, h2, -, -, h3, -⟩ := C45_reject u ops hu cu _ _ h
    rw [h3 ⟨_, rfl⟩] at h2
    exact ⟨⟨_, h2, overlaid_addCustom _ cu (run_facts u ops hu).1 hcu⟩, h1⟩
  exact ⟨main none (fun _ h => nomatch h), main (some custom) (fun _ h => by cases h; exact hc)⟩

/-- The same at an async server. -/
theorem C45_async_reject_methods (u : AsyncUpgrade) (ops : List UpgradeOp) (custom : Headers) (extra : Nat)
    (hu : u.headers.Unique) (hc : custom.Unique) (d : Duplex) (fr : Framed Unit) :
    (AsyncUpgrade.reject (u.run ops) extra = (.ready, d, fr) →
      Refused u (u.run ops).headers none d.output.wire ∧ d.input = u.stream.input ∧ fr.buf = u.buffer) ∧
    (AsyncUpgrade.rejectWith (u.run ops) custom extra = (.ready, d, fr) →
      Refused u (u.run ops).headers (some custom) d.output.wire ∧ d.input = u.stream.input ∧ fr.buf = u.buffer) := by
  have main : ∀ cu : Option Headers, UniqueCustom cu → AsyncUpgrade.internalReject (u.run ops) cu extra = (.ready, d, fr) →
      Refused u (u.run ops).headers cu d.output.wire ∧ d.input = u.stream.input ∧ fr.buf = u.buffer := by
    intro cu hcu h
    obtain ⟨h1, h0, out, h2, -, -, h3⟩ := C45_async_reject u ops hu cu extra _ _ _ h
    rcases h3 with ⟨-, h3⟩ | ⟨e, h3⟩ | ⟨w, h3, -⟩
    · rw [h3] at h2
      exact ⟨⟨_, h2, overlaid_addCustom _ cu (run_facts u ops hu).1 hcu⟩, h1, h0⟩
    · cases h3
    · cases h3
  exact ⟨main none (fun _ h => nomatch h), main (some custom) (fun _ h => by cases h; exact hc)⟩

/-! ## Cases -/

/-- Custom headers with a name that is configured as well. -/
def overCustom : Headers := Headers.fromRaw [(ascii "Server", ascii "x"), (ascii "sec-websocket-protocol", ascii "other")]

/-- `C36_accept_methods`: all four succeed for the sample request. -/
example : Headers.Unique sampleTaken.headers ∧ overCustom.Unique ∧ @Headers.getKey B64.strict sampleTaken.request.headers = some sampleKey ∧
    (∃ c, @SyncUpgrade.accept B64.strict (sampleTaken.run sampleChoice) = .client c) ∧
    (∃ c, @SyncUpgrade.acceptWith B64.strict (sampleTaken.run sampleChoice) overCustom = .client c) ∧
    (∃ c, @SyncUpgrade.acceptWithLimits B64.strict (sampleTaken.run sampleChoice) 10 20 = .client c) ∧
    ∃ c, @SyncUpgrade.acceptWithHeadersAndLimits B64.strict (sampleTaken.run sampleChoice) overCustom 10 20 = .client c :=
  ⟨by simp [sampleTaken, Headers.Unique], unique_fromRaw _, by decide +kernel, AcceptRes.exists_client (by decide +kernel),
    AcceptRes.exists_client (by decide +kernel), AcceptRes.exists_client (by decide +kernel), AcceptRes.exists_client (by decide +kernel)⟩

/-- The same upgrade at an async server. -/
def sampleAsyncTaken : AsyncUpgrade := ⟨[], sampleTaken.stream, sampleTaken.request, [0x89]⟩

/-- `C36_async_accept_methods`. -/
example : Headers.Unique sampleAsyncTaken.headers ∧ @Headers.getKey B64.strict sampleAsyncTaken.request.headers = some sampleKey ∧
    (∃ c, @AsyncUpgrade.accept B64.strict (sampleAsyncTaken.run sampleChoice) 0 = .client c) ∧
    (∃ c, @AsyncUpgrade.acceptWith B64.strict (sampleAsyncTaken.run sampleChoice) overCustom 0 = .client c) ∧
    (∃ c, @AsyncUpgrade.acceptWithLimits B64.strict (sampleAsyncTaken.run sampleChoice) 10 20 0 = .client c) ∧
    ∃ c, @AsyncUpgrade.acceptWithHeadersAndLimits B64.strict (sampleAsyncTaken.run sampleChoice) overCustom 10 20 0 = .client c :=
  ⟨by simp [sampleAsyncTaken, Headers.Unique], by decide +kernel, AsyncRes.exists_client (by decide +kernel),
    AsyncRes.exists_client (by decide +kernel), AsyncRes.exists_client (by decide +kernel), AsyncRes.exists_client (by decide +kernel)⟩

theorem exists_ready {p : SendRes × Duplex × Framed Unit} (h : (match p.1 with | .ready => true | _ => false) = true) :
    ∃ d fr, p = (.ready, d, fr) := by
  obtain ⟨r, d, fr⟩ := p
  cases r <;> simp_all

theorem exists_sent {p : Sent × Duplex} (h : (match p.1 with | .ok _ => true | _ => false) = true) : ∃ d, p = (.ok (), d) := by
  obtain ⟨r, d⟩ := p
  cases r <;> simp_all

/-- `C45_reject_methods`, `C45_async_reject_methods`: rejecting succeeds, and the custom header is on the wire. -/
example : (∃ d, SyncUpgrade.reject (sampleTaken.run sampleChoice) = (.ok (), d)) ∧
    (∃ d, SyncUpgrade.rejectWith (sampleTaken.run sampleChoice) overCustom = (.ok (), d)) ∧
    (∃ d fr, AsyncUpgrade.reject (sampleAsyncTaken.run sampleChoice) 0 = (.ready, d, fr)) ∧
    ∃ d fr, AsyncUpgrade.rejectWith (sampleAsyncTaken.run sampleChoice) overCustom 0 = (.ready, d, fr) :=
  ⟨exists_sent (by decide +kernel), exists_sent (by decide +kernel), exists_ready (by decide +kernel), exists_ready (by decide +kernel)⟩
example : (SyncUpgrade.rejectWith (sampleTaken.run []) overCustom).2.output.wire =
    ascii "HTTP/1.1 400 Bad Request\r\nServer: x\r\nsec-websocket-protocol: other\r\n\r\n" := by decide +kernel

end WS
