import Verif.Props.Inject
import Verif.Props.Negotiate
import Verif.Props.Meeting
/-!
# Properties that hold for one pair of ends, for the other pairs

C40 for the async client and for `connect_secure`, C42 for responses, C59 and C68 for the pairs with an async end.
-/

namespace WS
open Spec

/-! ## C40 -/

/-- No variant that is to use TLS, blocking or async, falls back to the plain stream: if TLS fails, the call reports an error and has no stream. -/
theorem C40_tls_or_nothing [B64] (p : ResParser) (net : Net) (v : Variant) (fresh : WsKey) (extra : Nat) (b : Builder)
    (hw : WantsTls v b.url.scheme) (htls : ∀ host d, net.tls host d = .error ()) :
    (∃ e calls, b.connect p net v fresh = (.err none e, b, calls)) ∧ ∃ e calls, b.asyncConnect p net v fresh extra = (.err none e, calls) := by
  constructor
  · unfold Builder.connect
    cases ho : b.openStream net v with
    | mk r calls =>
      cases r with
      | error e => exact ⟨e, calls, rfl⟩
      | ok d =>
        obtain ⟨host, port, tls, -, -, ht, ⟨_, _, _, tcp, -, -, -, -, -, h2⟩⟩ := C40_reached b net v d calls ho
        have := (h2 (ht.mpr hw)).1
        rw [htls] at this; cases this
  · unfold Builder.asyncConnect
    cases ho : b.asyncOpenStream net v with
    | mk r calls =>
      cases r with
      | error e => exact ⟨e, calls, rfl⟩
      | ok d =>
        obtain ⟨host, port, tls, -, -, ht, ⟨_, _, _, tcp, -, -, -, -, -, h2⟩⟩ := C40_async_reached b net v d calls ho
        have := (h2 (ht.mpr hw)).1
        rw [htls] at this; cases this

/-- A network where everything but TLS works, a secure URL, and a plain one with `connect_secure`. -/
example := @C40_tls_or_nothing B64.strict resParser { sampleNet with tls := fun _ _ => .error () } .auto sampleKey 0 (Builder.init sampleUrl)
  (by unfold WantsTls Secure; decide +kernel) (fun _ _ => rfl)
example := @C40_tls_or_nothing B64.strict resParser { sampleNet with tls := fun _ _ => .error () } .secure sampleKey 0
  (Builder.init { sampleUrl with scheme := ascii "ws" }) trivial (fun _ _ => rfl)

/-! ## C42 -/

/-- `C42_concrete_chunking` for responses, as the async client reads them. -/
theorem C42_concrete_chunking_response (s t : Src) {head rest : Bytes}
    (hst : s.flat = t.flat) (hs : ∀ e ∈ s, ¬ e.fails) (ht : ∀ e ∈ t, ¬ e.fails)
    (h : FirstBlank s.flat head rest) (hc : ∃ c ∈ head, c ≠ 13 ∧ c ≠ 10) :
    let r := (Framed.new ()).next (httpDecoder resParser) s
    let r' := (Framed.new ()).next (httpDecoder resParser) t
    r.1 = r'.1 ∧ r.2.1.buf ++ r.2.2.flat = rest ∧ r'.2.1.buf ++ r'.2.2.flat = rest :=
  C42_any_chunking_partial resParser s t hst hs ht h (parseWith_blank parseResLine h.2.1 hc)

/-- A response in three pieces with a frame behind it. -/
def exReply : Src := [.chunk (ascii "HTTP/1.1 10"), .error .wouldBlock, .chunk (ascii "1 OK\r\n\r"), .chunk [10, 0x81, 1, 65]]

example := C42_concrete_chunking_response exReply [.chunk exReply.flat] (by decide +kernel) (by decide) (by decide)
  (head := ascii "HTTP/1.1 101 OK\r\n\r\n") (rest := [0x81, 1, 65]) (splitOff_iff.mp (by decide +kernel)) (by decide +kernel)

/-! ## C59 -/

/-- What the server program sees of the request, and the lists the two client objects show: those the server program chose. -/
def Agreed [B64] {B} (url : Url) (key : WsKey) (sops : List UpgradeOp) (u : Upgrade B) (client server : Headers) : Prop :=
  (u.key = some key.bytes ∧ u.version = some .ws13 ∧ u.uri = url.resource) ∧
    client.getProtocol.getD [] = protocolsOf sops ∧ server.getProtocol.getD [] = protocolsOf sops ∧
    client.getExtensions.getD [] = extensionsOf sops ∧ server.getExtensions.getD [] = extensionsOf sops

/-- Two async ends, as `C59_both_ends_partial`. Missing for the full property: extension parameters with values. -/
theorem C59_async_async_partial [B64] (preq : ReqParser) (pres : ResParser) (url : Url) (ops : List BOp) (fresh key : WsKey)
    (sops : List UpgradeOp) (custom : Option Headers) (maxDf maxMsg cextra sextra : Nat) (sd cd : Duplex) (x y : Bytes)
    (ha : Asks key (requestLines url ops fresh))
    (hk : (((Builder.init url).run ops).buildRequest fresh).2.headers.getKey = some key)
    (hu : Target url.resource) (hs : Sendable (requestLines url ops fresh))
    (hc : ∀ e ∈ sd.input, ¬ e.fails) (hf : sd.input.flat = Head (requestStart url) (requestLines url ops fresh) ++ x)
    (u : AsyncUpgrade) (h1 : asyncIntoWs preq sd = .ok u)
    (sc : AsyncClient) (h2 : AsyncUpgrade.internalAcceptWithLimits (u.run sops) custom maxDf maxMsg sextra = .client sc)
    (hs' : Sendable (responseLines sops custom key))
    (hc' : ∀ e ∈ cd.input, ¬ e.fails) (hf' : cd.input.flat = head101 .http11 sc.headers.wire ++ y)
    (c : AsyncClient) (h3 : ((Builder.init url).run ops).asyncConnectOn pres fresh cextra cd = .client c)
    (hcu : CustomKeepsOff (ascii "Sec-WebSocket-Protocol") custom ∧ CustomKeepsOff (ascii "Sec-WebSocket-Extensions") custom)
    (hp : ∀ x ∈ protocolsOf sops, ListItem x ∧ Inline x) (he : ∀ e ∈ extensionsOf sops, LegalExt e ∧ Inline e.fmt)
    (hv : ∀ e ∈ extensionsOf sops, ∀ p ∈ e.params, p.value = none) :
    Agreed url key sops u c.headers sc.headers := by
  obtain ⟨u', g1, g2, g3, g4, g5, g6⟩ := C35_async_server_takes preq key url.resource (requestLines url ops fresh) sd x ha hu hs hc hf
  rw [h1] at g1
  cases g1
  obtain ⟨e1, e2⟩ := C59_async_server_lists u key sops custom maxDf maxMsg sextra g4 g3 sc h2
  have r1 := (run_facts u sops (by rw [g4]; simp [Headers.Unique])).2.1
  have ew : sc.headers.wire = responseLines sops custom key := by
    rw [async_accept_headers (u.run sops) key custom maxDf maxMsg sextra (by rw [r1]; exact g3) sc h2, responseLines_eq u g4]
  rw [ew] at hf'
  obtain ⟨d1, d2⟩ := C59_async_client_lists_partial pres key fresh url ops sops custom cextra cd y (response_answers sops custom key) hs' hk hc' hf' c h3
  exact ⟨C59_requested_basics key _ ha url u g2, d1 hcu.1 hp, e1 hcu.1, d2 hcu.2 he hv, e2 hcu.2⟩

/-- A blocking client and an async server. Missing for the full property: extension parameters with values. -/
theorem C59_blocking_async_partial [B64] (preq : ReqParser) (pres : ResParser) (url : Url) (ops : List BOp) (fresh key : WsKey)
    (sops : List UpgradeOp) (custom : Option Headers) (maxDf maxMsg sextra : Nat) (sd cd : Duplex) (x y : Bytes)
    (ha : Asks key (requestLines url ops fresh))
    (hk : (((Builder.init url).run ops).buildRequest fresh).2.headers.getKey = some key)
    (hu : Target url.resource) (hs : Sendable (requestLines url ops fresh))
    (hc : ∀ e ∈ sd.input, ¬ e.fails) (hf : sd.input.flat = Head (requestStart url) (requestLines url ops fresh) ++ x)
    (u : AsyncUpgrade) (h1 : asyncIntoWs preq sd = .ok u)
    (sc : AsyncClient) (h2 : AsyncUpgrade.internalAcceptWithLimits (u.run sops) custom maxDf maxMsg sextra = .client sc)
    (hs' : Sendable (responseLines sops custom key)) (hl' : (head101 .http11 sc.headers.wire).length ≤ maxBufferSize)
    (hc' : cd.input.Chunks) (hf' : cd.input.flat = head101 .http11 sc.headers.wire ++ y)
    (c : Client) (h3 : (((Builder.init url).run ops).connectOn pres fresh cd).1 = .client c)
    (hcu : CustomKeepsOff (ascii "Sec-WebSocket-Protocol") custom ∧ CustomKeepsOff (ascii "Sec-WebSocket-Extensions") custom)
    (hp : ∀ x ∈ protocolsOf sops, ListItem x ∧ Inline x) (he : ∀ e ∈ extensionsOf sops, LegalExt e ∧ Inline e.fmt)
    (hv : ∀ e ∈ extensionsOf sops, ∀ p ∈ e.params, p.value = none) :
    Agreed url key sops u c.headers sc.headers := by
  obtain ⟨u', g1, g2, g3, g4, g5, g6⟩ := C35_async_server_takes preq key url.resource (requestLines url ops fresh) sd x ha hu hs hc hf
  rw [h1] at g1
  cases g1
  obtain ⟨e1, e2⟩ := C59_async_server_lists u key sops custom maxDf maxMsg sextra g4 g3 sc h2
  have r1 := (run_facts u sops (by rw [g4]; simp [Headers.Unique])).2.1
  have ew : sc.headers.wire = responseLines sops custom key := by
    rw [async_accept_headers (u.run sops) key custom maxDf maxMsg sextra (by rw [r1]; exact g3) sc h2, responseLines_eq u g4]
  rw [ew] at hl' hf'
  obtain ⟨d1, d2⟩ := C59_client_lists_partial pres key fresh url ops sops custom cd y (response_answers sops custom key) hs' hk hl' hc' hf' c h3
  exact ⟨C59_requested_basics key _ ha url u g2, d1 hcu.1 hp, e1 hcu.1, d2 hcu.2 he hv, e2 hcu.2⟩

/-- An async client and a blocking server. Missing for the full property: extension parameters with values. -/
theorem C59_async_blocking_partial [B64] (preq : ReqParser) (pres : ResParser) (url : Url) (ops : List BOp) (fresh key : WsKey)
    (sops : List UpgradeOp) (custom : Option Headers) (maxDf maxMsg cextra : Nat) (sd cd : Duplex) (x y : Bytes)
    (ha : Asks key (requestLines url ops fresh))
    (hk : (((Builder.init url).run ops).buildRequest fresh).2.headers.getKey = some key)
    (hu : Target url.resource) (hs : Sendable (requestLines url ops fresh))
    (hl : (Head (requestStart url) (requestLines url ops fresh)).length ≤ maxBufferSize)
    (hc : sd.input.Chunks) (hf : sd.input.flat = Head (requestStart url) (requestLines url ops fresh) ++ x) (u : SyncUpgrade) (h1 : intoWs preq sd = .ok u)
    (sc : Client) (h2 : SyncUpgrade.internalAcceptWithLimits (u.run sops) custom maxDf maxMsg = .client sc)
    (hs' : Sendable (responseLines sops custom key))
    (hc' : ∀ e ∈ cd.input, ¬ e.fails) (hf' : cd.input.flat = head101 .http11 sc.headers.wire ++ y)
    (c : AsyncClient) (h3 : ((Builder.init url).run ops).asyncConnectOn pres fresh cextra cd = .client c)
    (hcu : CustomKeepsOff (ascii "Sec-WebSocket-Protocol") custom ∧ CustomKeepsOff (ascii "Sec-WebSocket-Extensions") custom)
    (hp : ∀ x ∈ protocolsOf sops, ListItem x ∧ Inline x) (he : ∀ e ∈ extensionsOf sops, LegalExt e ∧ Inline e.fmt)
    (hv : ∀ e ∈ extensionsOf sops, ∀ p ∈ e.params, p.value = none) :
    Agreed url key sops u c.headers sc.headers := by
  obtain ⟨u', g1, g2, g3, g4, g5, g6⟩ := C35_server_takes preq key url.resource (requestLines url ops fresh) sd x ha hu hs hl hc hf
  rw [h1] at g1
  cases g1
  obtain ⟨e1, e2⟩ := C59_server_lists u key sops custom maxDf maxMsg g4 g3 sc h2
  have r1 := (run_facts u sops (by rw [g4]; simp [Headers.Unique])).2.1
  have ew : sc.headers.wire = responseLines sops custom key := by
    rw [accept_headers (u.run sops) key custom maxDf maxMsg (by rw [r1]; exact g3) sc h2, responseLines_eq u g4]
  rw [ew] at hf'
  obtain ⟨d1, d2⟩ := C59_async_client_lists_partial pres key fresh url ops sops custom cextra cd y (response_answers sops custom key) hs' hk hc' hf' c h3
  exact ⟨C59_requested_basics key _ ha url u g2, d1 hcu.1 hp, e1 hcu.1, d2 hcu.2 he hv, e2 hcu.2⟩

/-- Which lists the two ends show after one handshake with each pair: blocking client and async server, async client and blocking server, two async. -/
def samplePairs : List (Option (List (List Bytes))) :=
  let ops : List BOp := [.addProtocol (ascii "chat"), .origin (ascii "http://a")]
  let b := (Builder.init sampleUrl).run ops
  let sd : Duplex := ⟨[.chunk (Head (requestStart sampleUrl) (requestLines sampleUrl ops sampleKey))], ⟨[], []⟩⟩
  let shown (c s : Headers) := some [c.getProtocol.getD [], s.getProtocol.getD [], (c.getExtensions.getD []).map Ext.fmt, (s.getExtensions.getD []).map Ext.fmt]
  let cd (w : Bytes) : Duplex := ⟨[.chunk w], ⟨[], []⟩⟩
  let sync := (@intoWs B64.strict reqParser sd).toOption.bind fun u => (@SyncUpgrade.internalAccept B64.strict (u.run sampleChoice) sampleCustom).client?
  let async := (@asyncIntoWs B64.strict reqParser sd).toOption.bind fun u =>
    (@AsyncUpgrade.internalAcceptWithLimits B64.strict (u.run sampleChoice) sampleCustom 10 20 0).client?
  [async.bind fun sc => match (@Builder.connectOn B64.strict resParser sampleKey (cd sc.stream.output.wire) b).1 with
      | .client c => shown c.headers sc.headers
      | _ => none,
   sync.bind fun sc => match @Builder.asyncConnectOn B64.strict resParser sampleKey 0 (cd sc.stream.inner.output.wire) b with
      | .client c => shown c.headers sc.headers
      | _ => none,
   async.bind fun sc => match @Builder.asyncConnectOn B64.strict resParser sampleKey 0 (cd sc.stream.output.wire) b with
      | .client c => shown c.headers sc.headers
      | _ => none]

/-- `C59_blocking_async_partial`, `C59_async_blocking_partial`, `C59_async_async_partial`: all three handshakes succeed, with lists. -/
example : samplePairs = List.replicate 3 (some [[ascii "chat"], [ascii "chat"], [ascii "x-deflate; fast"], [ascii "x-deflate; fast"]]) := by decide +kernel

/-! ## C68 -/

/-- C68 with C47 for a blocking client and an async server. -/
theorem C68_plain_blocking_async [B64] (preq : ReqParser) (pres : ResParser) (url : Url) (ops : List BOp) (fresh : WsKey)
    (sops : List UpgradeOp) (custom : Option Headers) (maxDf maxMsg sextra : Nat) (cts sts : List Talk) (cd sd : Duplex)
    (hkv : ∀ op ∈ ops, (∀ k, op ≠ .key k) ∧ ∀ v, op ≠ .version v) (hu : Target url.resource)
    (hh : ∀ host, url.host = some host → PlainValue host) (ho : ∀ op ∈ ops, PlainOp op) (hn : (ops.map givenLines).sum ≤ 91)
    (hso : ∀ op ∈ sops, PlainChoice op) (hsh : ∀ c, custom = some c → (∀ e ∈ c, PlainEntry e) ∧ c.wire.length ≤ 95)
    (hl' : (head101 .http11 (responseLines sops custom fresh)).length ≤ maxBufferSize)
    (hc : ∀ p ∈ said cts, p.1.spec.Sendable (min maxDf u32Max))
    (hsm : ∀ p ∈ said sts, p.1.spec.Sendable (min (lastSet setsDf (100 * 2 ^ 20) ops) u32Max))
    (hcw : cd.output.Willing) (hsw : sd.output.Patient) (hc0 : cd.output.wire = []) (hs0 : sd.output.wire = [])
    (hci : cd.input.Chunks) (hsi : sd.input.Ready)
    (hcs : sd.input.flat = (clientProgram pres fresh ((Builder.init url).run ops) cts cd).wire)
    (hsc : cd.input.flat = (asyncServerProgram preq (Upgrade.run · sops) custom maxDf maxMsg sextra sts sd).wire) :
    Converse cts sts (clientProgram pres fresh ((Builder.init url).run ops) cts cd)
      (asyncServerProgram preq (Upgrade.run · sops) custom maxDf maxMsg sextra sts sd) :=
  C47_blocking_async preq pres url ops fresh fresh sops custom maxDf maxMsg sextra cts sts cd sd (C35_request_asks url ops fresh hkv).1
    (C35_request_asks url ops fresh hkv).2 hu (C68_plain_request url ops fresh hh ho hn) (C68_plain_response sops custom fresh hso hsh) hl'
    hc hsm hcw hsw hc0 hs0 hci hsi hcs hsc

/-- C68 with C47 for an async client and a blocking server. -/
theorem C68_plain_async_blocking [B64] (preq : ReqParser) (pres : ResParser) (url : Url) (ops : List BOp) (fresh : WsKey)
    (sops : List UpgradeOp) (custom : Option Headers) (maxDf maxMsg cextra : Nat) (cts sts : List Talk) (cd sd : Duplex)
    (hkv : ∀ op ∈ ops, (∀ k, op ≠ .key k) ∧ ∀ v, op ≠ .version v) (hu : Target url.resource)
    (hh : ∀ host, url.host = some host → PlainValue host) (ho : ∀ op ∈ ops, PlainOp op) (hn : (ops.map givenLines).sum ≤ 91)
    (hso : ∀ op ∈ sops, PlainChoice op) (hsh : ∀ c, custom = some c → (∀ e ∈ c, PlainEntry e) ∧ c.wire.length ≤ 95)
    (hl : (Head (requestStart url) (requestLines url ops fresh)).length ≤ maxBufferSize)
    (hc : ∀ p ∈ said cts, p.1.spec.Sendable (min maxDf u32Max))
    (hsm : ∀ p ∈ said sts, p.1.spec.Sendable (min (lastSet setsDf (100 * 2 ^ 20) ops) u32Max))
    (hcw : cd.output.Patient) (hsw : sd.output.Willing) (hc0 : cd.output.wire = []) (hs0 : sd.output.wire = [])
    (hci : cd.input.Ready) (hsi : sd.input.Chunks)
    (hcs : sd.input.flat = (asyncClientProgram pres fresh cextra ((Builder.init url).run ops) cts cd).wire)
    (hsc : cd.input.flat = (serverProgram preq (Upgrade.run · sops) custom maxDf maxMsg sts sd).wire) :
    Converse cts sts (asyncClientProgram pres fresh cextra ((Builder.init url).run ops) cts cd)
      (serverProgram preq (Upgrade.run · sops) custom maxDf maxMsg sts sd) :=
  C47_async_blocking preq pres url ops fresh fresh sops custom maxDf maxMsg cextra cts sts cd sd (C35_request_asks url ops fresh hkv).1
    (C35_request_asks url ops fresh hkv).2 hu (C68_plain_request url ops fresh hh ho hn) hl (C68_plain_response sops custom fresh hso hsh)
    hc hsm hcw hsw hc0 hs0 hci hsi hcs hsc

/-- C68 with C47 for two async ends: here the heads may even be of any length. -/
theorem C68_plain_async_async [B64] (preq : ReqParser) (pres : ResParser) (url : Url) (ops : List BOp) (fresh : WsKey)
    (sops : List UpgradeOp) (custom : Option Headers) (maxDf maxMsg cextra sextra : Nat) (cts sts : List Talk) (cd sd : Duplex)
    (hkv : ∀ op ∈ ops, (∀ k, op ≠ .key k) ∧ ∀ v, op ≠ .version v) (hu : Target url.resource)
    (hh : ∀ host, url.host = some host → PlainValue host) (ho : ∀ op ∈ ops, PlainOp op) (hn : (ops.map givenLines).sum ≤ 91)
    (hso : ∀ op ∈ sops, PlainChoice op) (hsh : ∀ c, custom = some c → (∀ e ∈ c, PlainEntry e) ∧ c.wire.length ≤ 95)
    (hc : ∀ p ∈ said cts, p.1.spec.Sendable (min maxDf u32Max))
    (hsm : ∀ p ∈ said sts, p.1.spec.Sendable (min (lastSet setsDf (100 * 2 ^ 20) ops) u32Max))
    (hcw : cd.output.Patient) (hsw : sd.output.Patient) (hc0 : cd.output.wire = []) (hs0 : sd.output.wire = [])
    (hci : cd.input.Ready) (hsi : sd.input.Ready)
    (hcs : sd.input.flat = (asyncClientProgram pres fresh cextra ((Builder.init url).run ops) cts cd).wire)
    (hsc : cd.input.flat = (asyncServerProgram preq (Upgrade.run · sops) custom maxDf maxMsg sextra sts sd).wire) :
    Converse cts sts (asyncClientProgram pres fresh cextra ((Builder.init url).run ops) cts cd)
      (asyncServerProgram preq (Upgrade.run · sops) custom maxDf maxMsg sextra sts sd) :=
  C47_async_async preq pres url ops fresh fresh sops custom maxDf maxMsg cextra sextra cts sts cd sd (C35_request_asks url ops fresh hkv).1
    (C35_request_asks url ops fresh hkv).2 hu (C68_plain_request url ops fresh hh ho hn) (C68_plain_response sops custom fresh hso hsh)
    hc hsm hcw hsw hc0 hs0 hci hsi hcs hsc

/-- C68 with C67: two plain programs, each blocking or async, the client leaving key and version alone, both connect and come to their ends under every
fair schedule, if their lists of calls can be carried out at all. -/
theorem C68_plain_no_deadlock [B64] (preq : ReqParser) (pres : ResParser) (url : Url) (ops : List BOp) (fresh : WsKey)
    (sops : List UpgradeOp) (custom : Option Headers) (maxDf : Nat) (cts sts : List Talk) (ch sh : Opening) (cw sw : Sink)
    (hkv : ∀ op ∈ ops, (∀ k, op ≠ .key k) ∧ ∀ v, op ≠ .version v) (hu : Target url.resource)
    (hh : ∀ host, url.host = some host → PlainValue host) (ho : ∀ op ∈ ops, PlainOp op) (hn : (ops.map givenLines).sum ≤ 91)
    (hso : ∀ op ∈ sops, PlainChoice op) (hsh : ∀ c, custom = some c → (∀ e ∈ c, PlainEntry e) ∧ c.wire.length ≤ 95)
    (hch : Connects url ops fresh (head101 .http11 (responseLines sops custom fresh)) ch cw)
    (hsv : Accepts sops custom maxDf (Head (requestStart url) (requestLines url ops fresh)) sh sw)
    (hc : ∀ p ∈ said cts, p.1.spec.Sendable (min maxDf u32Max))
    (hsm : ∀ p ∈ said sts, p.1.spec.Sendable (min (lastSet setsDf (100 * 2 ^ 20) ops) u32Max))
    (hm : Matched cts sts) (f : Nat → Happens) (hf : FairNet f) :
    ∃ n, ∀ k, n ≤ k →
      let m := Meeting.run preq pres ⟨.start ch cts cw, .start sh sts sw⟩ ((List.range k).map f)
      m.client.Connected ∧ m.server.Connected ∧ m.client.Did cts sts cts.length ∧ m.server.Did sts cts sts.length :=
  C67_no_deadlock preq pres ⟨(C35_request_asks url ops fresh hkv).1, (C35_request_asks url ops fresh hkv).2, hu,
    C68_plain_request url ops fresh hh ho hn, C68_plain_response sops custom fresh hso hsh, hch, hsv, hc, hsm⟩ hm f hf

theorem sampleOps_leave : ∀ op ∈ sampleOps, (∀ k, op ≠ .key k) ∧ ∀ v, op ≠ .version v := by
  intro op h
  simp only [sampleOps, List.mem_cons, List.not_mem_nil, or_false] at h
  rcases h with rfl | rfl | rfl <;> simp

theorem sampleChat_plain : ∀ op ∈ [UpgradeOp.useProtocol (ascii "chat")], PlainChoice op := by
  intro op h
  simp only [List.mem_cons, List.not_mem_nil, or_false] at h
  subst h
  show PlainItem _
  decide +kernel

/-- The conversation of C47 is between plain programs, with every pair. -/
example := @C68_plain_blocking_async B64.strict reqParser resParser sampleUrl sampleOps sampleKey [.useProtocol (ascii "chat")] none 125 1000 0
  sampleClientTalk sampleServerTalk sampleClientSide sampleServerSide' sampleOps_leave sampleTarget samplePlain.1 samplePlain.2.1 samplePlain.2.2
  sampleChat_plain (by simp) (by decide +kernel) sampleClientTalk_sendable sampleServerTalk_sendable (Sink.willing_of rfl) (Sink.patient_of rfl) rfl rfl
  (Src.chunks_of (by decide +kernel)) (Src.ready_of (by decide +kernel)) (by decide +kernel) (by decide +kernel)
example := @C68_plain_async_blocking B64.strict reqParser resParser sampleUrl sampleOps sampleKey [.useProtocol (ascii "chat")] none 125 1000 0
  sampleClientTalk sampleServerTalk sampleClientSide' sampleServerSide sampleOps_leave sampleTarget samplePlain.1 samplePlain.2.1 samplePlain.2.2
  sampleChat_plain (by simp) (by decide +kernel) sampleClientTalk_sendable sampleServerTalk_sendable (Sink.patient_of rfl) (Sink.willing_of rfl) rfl rfl
  (Src.ready_of (by decide +kernel)) (Src.chunks_of (by decide +kernel)) (by decide +kernel) (by decide +kernel)
example := @C68_plain_async_async B64.strict reqParser resParser sampleUrl sampleOps sampleKey [.useProtocol (ascii "chat")] none 125 1000 0 0
  sampleClientTalk sampleServerTalk sampleClientSide' sampleServerSide' sampleOps_leave sampleTarget samplePlain.1 samplePlain.2.1 samplePlain.2.2
  sampleChat_plain (by simp) sampleClientTalk_sendable sampleServerTalk_sendable (Sink.patient_of rfl) (Sink.patient_of rfl) rfl rfl
  (Src.ready_of (by decide +kernel)) (Src.ready_of (by decide +kernel)) (by decide +kernel) (by decide +kernel)

example := @C68_plain_no_deadlock B64.strict reqParser resParser sampleUrl sampleOps sampleKey [.useProtocol (ascii "chat")] none 100 _ _ _ _ _ _
  sampleOps_leave sampleTarget samplePlain.1 samplePlain.2.1 samplePlain.2.2 sampleChat_plain (by simp)
  (@Appointment.client B64.strict _ _ _ _ _ _ _ _ _ _ _ _ _ shortAppointment) (@Appointment.server B64.strict _ _ _ _ _ _ _ _ _ _ _ _ _ shortAppointment) (@Appointment.client_says B64.strict _ _ _ _ _ _ _ _ _ _ _ _ _ shortAppointment) (@Appointment.server_says B64.strict _ _ _ _ _ _ _ _ _ _ _ _ _ shortAppointment) (questions_answers _ _ _ _ 1) _ sampleFair

end WS
