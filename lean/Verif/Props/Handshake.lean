import Verif.Lemmas.Sample
import Verif.Lemmas.Wire
import Verif.Props.Builder
import Verif.Props.Validate
import Verif.Props.Head
/-!
# C35: the two ends of the handshake fit together

`Asks` and `Answers` say on header lines what a request and a response have to contain; the theorems
show that the builder's requests ask, that a server accepts whatever asks and answers it, and that the
client accepts whatever answers. Lines are assumed to be legal HTTP (`Sendable`), which is the
user's business for custom headers.
-/

namespace WS
open Spec

/-- These lines ask for an upgrade with this key. -/
structure Asks (key : WsKey) (lines : List (Bytes × Bytes)) : Prop where
  key : ∃ k, Values (ascii "Sec-WebSocket-Key") lines [k] ∧ chars k = base64 (key.bytes.map UInt8.toNat)
  version : Values (ascii "Sec-WebSocket-Version") lines [ascii "13"]
  upgrade : Values (ascii "Upgrade") lines [ascii "websocket"]
  connection : Values (ascii "Connection") lines [ascii "Upgrade"]

/-- These lines answer a request with this key. -/
structure Answers (key : WsKey) (lines : List (Bytes × Bytes)) : Prop where
  accept : ∃ a, Values (ascii "Sec-WebSocket-Accept") lines [a] ∧ chars a = acceptText (key.bytes.map UInt8.toNat)
  upgrade : Values (ascii "Upgrade") lines [ascii "websocket"]
  connection : Values (ascii "Connection") lines [ascii "Upgrade"]

theorem b64_oneLine {b : Bytes} (h : b ≠ []) : OneLine [b64Encode b] (b64Encode b) := by
  refine ⟨rfl, ?_, isUtf8_ascii fun c hc => ?_⟩
  · intro h0
    have := b64Encode_length b
    rw [h0] at this
    have hl : 0 < b.length := List.length_pos_iff.mpr h
    simp at this
    omega
  · have := (b64Encode_visible hc).2.1
    have h2 : c.toNat ≤ 122 := this
    omega

/-! ## The request -/

/-- The builder asks with a fresh key if the caller did not choose key or version. -/
theorem C35_request_asks (url : Url) (ops : List BOp) (fresh : WsKey) (h : ∀ op ∈ ops, (∀ k, op ≠ .key k) ∧ ∀ v, op ≠ .version v) :
    Asks fresh (requestLines url ops fresh) ∧
      ∀ [B64], (((Builder.init url).run ops).buildRequest fresh).2.headers.getKey = some fresh := by
  obtain ⟨h1, h2⟩ := C37_upgrade_lines url ops fresh
  obtain ⟨v, h3, h4⟩ := C37_fresh_key url [] ops fresh (Or.inl rfl) (fun op ho => (h op ho).1)
  refine ⟨⟨⟨v, h3, h4⟩, C37_default_version url [] ops fresh (Or.inl rfl) (fun op ho => (h op ho).2), h2, h1⟩, ?_⟩
  intro _
  have hf : ((Builder.init url).run ops).keySet = false := run_keySet_false rfl (fun op ho => (h op ho).1)
  have hk := build_key ((Builder.init url).run ops) fresh
  rw [hf] at hk
  simp only [Bool.false_eq_true, if_false] at hk
  unfold Headers.getKey
  rw [hk]

/-- It asks with the caller's key if that was not taken back. -/
theorem C35_request_asks_user_key (url : Url) (pre post : List BOp) (k fresh : WsKey)
    (h1 : ∀ op ∈ post, (∀ k, op ≠ .key k) ∧ op ≠ .clearKey ∧ KeepsOff (ascii "Sec-WebSocket-Key") op)
    (h2 : ∀ op ∈ pre ++ post, ∀ v, op ≠ .version v) :
    Asks k (requestLines url (pre ++ .key k :: post) fresh) ∧
      ∀ [B64], (((Builder.init url).run (pre ++ .key k :: post)).buildRequest fresh).2.headers.getKey = some k := by
  obtain ⟨g1, g2⟩ := C37_upgrade_lines url (pre ++ .key k :: post) fresh
  obtain ⟨v, h3, h4⟩ := C37_user_key_partial url pre post k fresh (fun op ho => (h1 op ho).1) (fun op ho => (h1 op ho).2.1)
    (fun op ho => (h1 op ho).2.2)
  refine ⟨⟨⟨v, h3, h4⟩, C37_default_version url [] (pre ++ .key k :: post) fresh (Or.inl rfl) ?_, g2, g1⟩, ?_⟩
  · intro op ho v
    simp only [List.mem_append, List.mem_cons] at ho
    rcases ho with ho | rfl | ho
    · exact h2 op (by simp [ho]) v
    · intro hc; cases hc
    · exact h2 op (by simp [ho]) v
  · intro _
    have hk := build_key ((Builder.init url).run (pre ++ .key k :: post)) fresh
    have hf : ((Builder.init url).run (pre ++ .key k :: post)).keySet = true := by
      rw [run_append, run_cons, run_keySet _ (fun op ho => (h1 op ho).1) (fun op ho => (h1 op ho).2.1)]; rfl
    have hi : ((Builder.init url).run (pre ++ .key k :: post)).headers.item nKey = some (.typed (.key k)) := by
      rw [run_append, run_cons, run_item (unique_step (unique_init url pre) _)
        (fun op ho => touches_key (h1 op ho).2.2 (h1 op ho).1 (h1 op ho).2.1)]
      exact item_insert_same _ _ _
    rw [hf, if_pos rfl, hi] at hk
    unfold Headers.getKey
    rw [hk]

/-! ## The server -/

theorem asks_validate [B64] {key : WsKey} {lines : List (Bytes × Bytes)} (h : Asks key lines) :
    validate .get .http11 (.fromRaw lines) = .ok () ∧ (Headers.fromRaw lines).getKey = some key := by
  obtain ⟨⟨k, h1, h2⟩, h3, h4, h5⟩ := h
  have hk : k = b64Encode key.bytes := chars_inj (by rw [h2, b64Encode_spec])
  have hne : key.bytes ≠ [] := by intro h0; have := key.len; rw [h0] at this; simp at this
  have ho : OneLine [k] k := by rw [hk]; exact b64_oneLine hne
  have hd : B64.decode k = some key.bytes := by rw [hk]; exact B64.decode_encode _
  constructor
  · rw [C33_accepts_iff_partial .get .http11 lines _ h3
      (Or.inr ⟨ascii "13", rfl, by decide, isUtf8_ascii (by decide)⟩)]
    refine ⟨rfl, Or.inl rfl, Or.inr rfl, ⟨[k], h1, k, key.bytes, ho, hd, key.len⟩, ⟨_, h4, ?_, ?_⟩, ⟨_, h5, ?_, ?_⟩⟩
    · exact ⟨by simp, by intro x hx; simp at hx; subst hx; exact isUtf8_ascii (by decide)⟩
    · exact ⟨ascii "websocket", by simp, [ascii "websocket"], commaList_iff.mpr (by decide +kernel),
        ascii "websocket", by simp, ascii "websocket", by rw [sameText_iff]; decide +kernel, Or.inl rfl⟩
    · exact ⟨by simp, by intro x hx; simp at hx; subst hx; exact isUtf8_ascii (by decide)⟩
    · exact ⟨ascii "Upgrade", by simp, [ascii "Upgrade"], commaList_iff.mpr (by decide +kernel),
        ascii "Upgrade", by simp, (by show SameText _ _; rw [sameText_iff]; decide +kernel)⟩
  · have hi := item_fromRaw lines nKey
    have hv : valuesOf nKey lines = [k] := (values_iff.mp h1).symm
    rw [hv] at hi
    simp only [List.cons_ne_self, if_false] at hi
    unfold Headers.getKey
    rw [hi]
    have hf : fromOneRawStr [k] = some k := by
      show (if k ≠ [] ∧ utf8Valid k = true then some k else none) = some k
      rw [if_pos ⟨ho.2.1, (utf8Valid_iff _).mpr ho.2.2⟩]
    simp only [hf, (C31_key_accepts_iff k key).mpr hd]

theorem new_buf {d : Duplex} : 0 < (BufReader.new d).buf.length := by
  show 0 < (List.replicate initBufferSize (0 : UInt8)).length
  rw [List.length_replicate]; decide

/-- The request line of a request for this target. -/
def getLine (uri : Bytes) : Bytes := ascii "GET " ++ uri ++ ascii " HTTP/1.1"

/-- A target that can stand in a request line. -/
def Target (uri : Bytes) : Prop := uri ≠ [] ∧ ∀ c ∈ uri, 33 ≤ c ∧ c ≤ 126

theorem getLine_eq (uri : Bytes) : getLine uri = reqLine .http11 ⟨.get, uri⟩ := by
  unfold getLine reqLine
  have h1 : ascii "GET " = (Method.get).fmt ++ [32] := by decide +kernel
  have h2 : ascii " HTTP/1.1" = [32] ++ HttpVersion.http11.fmt := by decide +kernel
  rw [h1, h2]; simp

/-- A blocking server takes any request that asks, however it arrives, and keeps what follows it. -/
theorem C35_server_takes [B64] (p : ReqParser) (key : WsKey) (uri : Bytes) (lines : List (Bytes × Bytes)) (d : Duplex) (x : Bytes)
    (ha : Asks key lines) (hu : Target uri) (hs : Sendable lines) (hl : (Head (getLine uri) lines).length ≤ maxBufferSize)
    (hc : d.input.Chunks) (hf : d.input.flat = Head (getLine uri) lines ++ x) :
    ∃ u, intoWs p d = .ok u ∧ u.request = ⟨.http11, ⟨.get, uri⟩, .fromRaw lines⟩ ∧ u.request.headers.getKey = some key ∧
      u.headers = [] ∧ u.stream.output = d.output ∧ unread u.buffer ++ u.stream.input.flat = x := by
  have hok : okReq .http11 ⟨.get, uri⟩ := ⟨Or.inr rfl, hu.1, hu.2, rfl⟩
  have hp := parse_lines p .http11 ⟨.get, uri⟩ hok hs
  rw [← getLine_eq] at hp
  obtain ⟨hv, hk⟩ := asks_validate ha
  have h := parseHead_finds p (BufReader.new d) (new_wf d) rfl new_buf
    hc _ x _ hp hl (by rw [new_window]; exact hf)
  have hsil := C45_into_ws_silent p d
  unfold intoWs at hsil ⊢
  cases hx : parseHead p (BufReader.new d) with
  | mk r reader =>
    rw [hx] at h hsil
    simp only at h
    obtain ⟨rfl, h2, h3, h4⟩ := h
    simp only [BufReader.intoParts, hv] at hsil ⊢
    exact ⟨_, rfl, rfl, hk, rfl, hsil, h4⟩

/-- The same for an async server. -/
theorem C35_async_server_takes [B64] (p : ReqParser) (key : WsKey) (uri : Bytes) (lines : List (Bytes × Bytes)) (d : Duplex) (x : Bytes)
    (ha : Asks key lines) (hu : Target uri) (hs : Sendable lines)
    (hc : ∀ e ∈ d.input, ¬ e.fails) (hf : d.input.flat = Head (getLine uri) lines ++ x) :
    ∃ u, asyncIntoWs p d = .ok u ∧ u.request = ⟨.http11, ⟨.get, uri⟩, .fromRaw lines⟩ ∧ u.request.headers.getKey = some key ∧
      u.headers = [] ∧ u.stream.output = d.output ∧ u.buffer ++ u.stream.input.flat = x := by
  have hok : okReq .http11 ⟨.get, uri⟩ := ⟨Or.inr rfl, hu.1, hu.2, rfl⟩
  have hp := parse_lines p .http11 ⟨.get, uri⟩ hok hs
  rw [← getLine_eq] at hp
  obtain ⟨hv, hk⟩ := asks_validate ha
  have hb : FirstBlank d.input.flat (Head (getLine uri) lines) x := by
    rw [hf]
    refine firstBlank_head (by rw [getLine_eq]; exact (reqLine_ok _ _ hok).2.1) ?_ hs.1 x
    rw [getLine_eq]
    exact fun h => absurd ((reqLine_ok _ _ hok).2.2 _ h) (by decide)
  have ht := C42_any_transport_partial p d.input hb (by rw [hp]; simp)
  unfold asyncIntoWs
  revert ht
  cases (Framed.new ()).next (httpDecoder p) d.input with
  | mk r y =>
    obtain ⟨fr, s⟩ := y
    intro ht
    rcases ht with ⟨h1, h2⟩ | ⟨_, _, e, he, hfe⟩
    · simp only [hp] at h1 h2
      subst h1
      simp only [hv]
      exact ⟨_, rfl, rfl, hk, rfl, rfl, h2⟩
    · exact absurd hfe (hc e he)

/-- The lines of the response to an accepted request. -/
theorem accepted_answers [B64] {B} (u : Upgrade B) (ops : List UpgradeOp) (custom : Option Headers) (hu : u.headers.Unique)
    (key : WsKey) (hk : u.request.headers.getKey = some key) : Answers key ((u.run ops).accepted custom key).headers.wire := by
  obtain ⟨u', accept, h1, h2, h3, h4, h5, h6, h7, h8, h9⟩ := C36_required_headers u ops custom hu key hk
  rw [prepare_some (u.run ops) custom (by rw [(run_facts u ops hu).2.1]; exact hk)] at h1
  cases h1
  exact ⟨⟨accept, h6, h7⟩, h9, h8⟩

/-- The lines a server told these things answers a request with this key with. They do not depend on
the rest of the request. -/
def responseLines (ops : List UpgradeOp) (custom : Option Headers) (key : WsKey) : List (Bytes × Bytes) :=
  (((⟨[], ⟨[], ⟨[], []⟩⟩, ⟨.http11, ⟨.get, []⟩, []⟩, ()⟩ : Upgrade Unit).run ops).accepted custom key).headers.wire

theorem run_headers {B C} (u : Upgrade B) (v : Upgrade C) (h : u.headers = v.headers) (ops : List UpgradeOp) :
    (u.run ops).headers = (v.run ops).headers := by
  unfold Upgrade.run
  induction ops generalizing u v with
  | nil => exact h
  | cons op ops ih =>
    refine ih _ _ ?_
    cases op <;>
      simp only [Upgrade.step, Upgrade.useProtocol, Upgrade.useExtension, Upgrade.useExtensions, h]

theorem responseLines_eq {B} (u : Upgrade B) (hu : u.headers = []) (ops : List UpgradeOp) (custom : Option Headers) (key : WsKey) :
    ((u.run ops).accepted custom key).headers.wire = responseLines ops custom key := by
  unfold responseLines Upgrade.accepted Upgrade.addCustom
  have := run_headers u (⟨[], ⟨[], ⟨[], []⟩⟩, ⟨.http11, ⟨.get, []⟩, []⟩, ()⟩ : Upgrade Unit) hu ops
  cases custom <;> simp only [this]

theorem response_answers [B64] (sops : List UpgradeOp) (custom : Option Headers) (key : WsKey) :
    Answers key (responseLines sops custom key) := by
  rw [← responseLines_eq (⟨[], ⟨[], ⟨[], []⟩⟩, ⟨.http11, ⟨.get, []⟩, [(nKey, .typed (.key key))]⟩, none⟩ : SyncUpgrade) rfl sops custom key]
  refine accepted_answers _ sops custom (by simp [Headers.Unique]) key ?_
  unfold Headers.getKey
  rw [show Headers.item nKey [(nKey, .typed (.key key))] = some (.typed (.key key)) from item_insert_same _ _ []]

/-- What the program that asks has to see to for its request to be readable: at most 100 legal lines, and the raw headers it adds
are text. (`C68_plain_request` says which programs see to it.) -/
def SendableRequest (url : Url) (ops : List BOp) (fresh : WsKey) : Prop :=
  Sendable (requestLines url ops fresh) ∧ ∀ op ∈ ops, GivesText op

/-- The same for the program that answers. -/
def SendableResponse (sops : List UpgradeOp) (custom : Option Headers) (key : WsKey) : Prop :=
  Sendable (responseLines sops custom key) ∧ TextCustom custom

theorem server_answers [B64] (u : SyncUpgrade) (key : WsKey) (ops : List UpgradeOp) (custom : Option Headers) (maxDf maxMsg : Nat)
    (hu : u.headers = []) (hk : u.request.headers.getKey = some key) (hwr : (u.run ops).Writes custom) :
    Answers key (responseLines ops custom key) ∧
      ((∃ k, (Sink.writeAll (head101 u.request.version (responseLines ops custom key)) u.stream.output).1 = .error k ∧
          ∃ d, SyncUpgrade.internalAcceptWithLimits (u.run ops) custom maxDf maxMsg = .err d k) ∨
       ∃ c, SyncUpgrade.internalAcceptWithLimits (u.run ops) custom maxDf maxMsg = .client c ∧
          c.stream.inner.output.wire = u.stream.output.wire ++ head101 u.request.version (responseLines ops custom key) ∧
          c.pending = unread u.buffer ++ u.stream.input.flat ∧ c.receiver.mask = true ∧ c.sender.mask = false) := by
  have hun : u.headers.Unique := by rw [hu]; simp [Headers.Unique]
  obtain ⟨r0, r1, r2, r3⟩ := run_facts u ops hun
  obtain ⟨a0, a1, a2, a3⟩ := addCustom_facts (u.run ops) custom r0
  have hk' : (u.run ops).request.headers.getKey = some key := by rw [r1]; exact hk
  rw [← responseLines_eq u hu ops custom key]
  refine ⟨accepted_answers u ops custom hun key hk, ?_⟩
  cases hx : SyncUpgrade.internalAcceptWithLimits (u.run ops) custom maxDf maxMsg with
  | client c =>
    right
    have hl := C39_server_limits (u.run ops) custom maxDf maxMsg c hx
    have hp := C41_accept (u.run ops) custom maxDf maxMsg c hx
    refine ⟨c, rfl, ?_, by rw [hp, r2, r3], hl.2.1, hl.2.2⟩
    rw [accept_text _ custom maxDf maxMsg hwr] at hx
    unfold SyncUpgrade.acceptText at hx
    rw [prepare_some _ custom hk'] at hx
    simp only [Upgrade.sendText] at hx
    rw [fmt_response_101] at hx
    split at hx
    · cases hx
    · next hs =>
      simp only [Prod.mk.injEq] at hs
      obtain ⟨hs1, rfl⟩ := hs
      simp only [AcceptRes.client.injEq] at hx
      subst hx
      have hw : ((u.run ops).accepted custom key).stream = u.stream := a2.trans r2
      have hq : ((u.run ops).accepted custom key).request = u.request := a1.trans r1
      rw [hw, hq] at hs1
      have := writeAll_ok (w' := (Sink.writeAll (head101 u.request.version ((u.run ops).accepted custom key).headers.wire) u.stream.output).2)
        (by rw [← hs1])
      rw [← this]
      simp only [Client.uncheckedWithLimits, hw, hq]
      cases ((u.run ops).accepted custom key).buffer <;> rfl
  | err d k =>
    left
    rw [accept_text _ custom maxDf maxMsg hwr] at hx
    unfold SyncUpgrade.acceptText at hx
    rw [prepare_some _ custom hk'] at hx
    simp only [Upgrade.sendText] at hx
    rw [fmt_response_101] at hx
    split at hx
    · next hs =>
      simp only [Prod.mk.injEq] at hs
      obtain ⟨hs1, rfl⟩ := hs
      simp only [AcceptRes.err.injEq] at hx
      have hw : ((u.run ops).accepted custom key).stream = u.stream := a2.trans r2
      have hq : ((u.run ops).accepted custom key).request = u.request := a1.trans r1
      rw [hw, hq] at hs1
      obtain ⟨rfl, rfl⟩ := hx
      exact ⟨_, hs1, _, rfl⟩
    · cases hx
  | panic w =>
    exfalso
    rw [accept_text _ custom maxDf maxMsg hwr] at hx
    unfold SyncUpgrade.acceptText at hx
    rw [prepare_some _ custom hk'] at hx
    simp only [Upgrade.sendText] at hx
    split at hx <;> cases hx

/-- A blocking server, whatever it is told to use, either fails to write or writes an answer and is ready:
it expects masked frames, sends unmasked ones, and reads on where the request ended. -/
theorem C35_server_answers [B64] (u : SyncUpgrade) (key : WsKey) (ops : List UpgradeOp) (custom : Option Headers) (maxDf maxMsg : Nat)
    (hu : u.headers = []) (hk : u.request.headers.getKey = some key) (ht : TextCustom custom) :
    Answers key (responseLines ops custom key) ∧
      ((∃ k, (Sink.writeAll (head101 u.request.version (responseLines ops custom key)) u.stream.output).1 = .error k ∧
          ∃ d, SyncUpgrade.internalAcceptWithLimits (u.run ops) custom maxDf maxMsg = .err d k) ∨
       ∃ c, SyncUpgrade.internalAcceptWithLimits (u.run ops) custom maxDf maxMsg = .client c ∧
          c.stream.inner.output.wire = u.stream.output.wire ++ head101 u.request.version (responseLines ops custom key) ∧
          c.pending = unread u.buffer ++ u.stream.input.flat ∧ c.receiver.mask = true ∧ c.sender.mask = false) :=
  server_answers u key ops custom maxDf maxMsg hu hk (text_prepare (run_text ops (by rw [hu]; exact text_nil)) ht)

theorem async_server_answers [B64] (u : AsyncUpgrade) (key : WsKey) (ops : List UpgradeOp) (custom : Option Headers)
    (maxDf maxMsg extra : Nat) (hu : u.headers = []) (hk : u.request.headers.getKey = some key) (hwr : (u.run ops).Writes custom) :
    Answers key (responseLines ops custom key) ∧
      ((∃ e, (httpSend (head101 u.request.version (responseLines ops custom key)) extra u.stream.output).1 = .err e ∧
          ∃ d, AsyncUpgrade.internalAcceptWithLimits (u.run ops) custom maxDf maxMsg extra = .err d e) ∨
       ∃ c, AsyncUpgrade.internalAcceptWithLimits (u.run ops) custom maxDf maxMsg extra = .client c ∧
          c.stream.output.wire = u.stream.output.wire ++ head101 u.request.version (responseLines ops custom key) ∧ c.write.buf.data = [] ∧
          c.read.buf ++ c.stream.input.flat = u.buffer ++ u.stream.input.flat ∧
          c.read.codec.df.isServer = true ∧ c.write.isServer = true) := by
  have hun : u.headers.Unique := by rw [hu]; simp [Headers.Unique]
  obtain ⟨r0, r1, r2, r3⟩ := run_facts u ops hun
  obtain ⟨a0, a1, a2, a3⟩ := addCustom_facts (u.run ops) custom r0
  have hk' : (u.run ops).request.headers.getKey = some key := by rw [r1]; exact hk
  have hw : ((u.run ops).accepted custom key).stream = u.stream := a2.trans r2
  have hq : ((u.run ops).accepted custom key).request = u.request := a1.trans r1
  rw [← responseLines_eq u hu ops custom key]
  refine ⟨accepted_answers u ops custom hun key hk, ?_⟩
  have hs := httpSend_spec (head101 u.request.version ((u.run ops).accepted custom key).headers.wire) extra u.stream.output
  cases hx : AsyncUpgrade.internalAcceptWithLimits (u.run ops) custom maxDf maxMsg extra with
  | client c =>
    right
    have hl := C39_async_server_limits (u.run ops) custom maxDf maxMsg extra c hx
    have hp := C41_async_accept (u.run ops) custom maxDf maxMsg extra c hx
    refine ⟨c, rfl, ?_, ?_, by rw [hp.1, hp.2.1, r2, r3], hl.2.1, hl.2.2⟩
    all_goals
      rw [asyncAccept_text _ custom maxDf maxMsg extra hwr] at hx
      unfold AsyncUpgrade.acceptText at hx
      rw [prepare_some _ custom hk'] at hx
      simp only at hx
      rw [fmt_response_101, hw, hq] at hx
      split at hx
      · next fw w he =>
        simp only [AsyncRes.client.injEq] at hx
        subst hx
        rw [he] at hs
        rcases hs with ⟨_, h1, h2⟩ | ⟨e, pre, h, _⟩
        · first | exact h1 | exact h2
        · cases h
      · cases hx
      · cases hx
      · cases hx
  | err d e =>
    left
    rw [asyncAccept_text _ custom maxDf maxMsg extra hwr] at hx
    unfold AsyncUpgrade.acceptText at hx
    rw [prepare_some _ custom hk'] at hx
    simp only at hx
    rw [fmt_response_101, hw, hq] at hx
    split at hx
    · cases hx
    · next fw w he =>
      rw [he] at hs
      rcases hs with ⟨h, _⟩ | ⟨e, pre, h, _⟩ <;> cases h
    · next e' fw w he =>
      simp only [AsyncRes.err.injEq] at hx
      obtain ⟨rfl, rfl⟩ := hx
      exact ⟨_, by rw [he], _, rfl⟩
    · cases hx
  | panic w =>
    exfalso
    rw [asyncAccept_text _ custom maxDf maxMsg extra hwr] at hx
    unfold AsyncUpgrade.acceptText at hx
    rw [prepare_some _ custom hk'] at hx
    simp only at hx
    rw [fmt_response_101, hw, hq] at hx
    split at hx
    · cases hx
    · cases hx
    · cases hx
    · next why fw w he =>
      rw [he] at hs
      rcases hs with ⟨h, _⟩ | ⟨e, pre, h, _⟩ <;> cases h

/-- The same for an async server. -/
theorem C35_async_server_answers [B64] (u : AsyncUpgrade) (key : WsKey) (ops : List UpgradeOp) (custom : Option Headers)
    (maxDf maxMsg extra : Nat) (hu : u.headers = []) (hk : u.request.headers.getKey = some key) (ht : TextCustom custom) :
    Answers key (responseLines ops custom key) ∧
      ((∃ e, (httpSend (head101 u.request.version (responseLines ops custom key)) extra u.stream.output).1 = .err e ∧
          ∃ d, AsyncUpgrade.internalAcceptWithLimits (u.run ops) custom maxDf maxMsg extra = .err d e) ∨
       ∃ c, AsyncUpgrade.internalAcceptWithLimits (u.run ops) custom maxDf maxMsg extra = .client c ∧
          c.stream.output.wire = u.stream.output.wire ++ head101 u.request.version (responseLines ops custom key) ∧ c.write.buf.data = [] ∧
          c.read.buf ++ c.stream.input.flat = u.buffer ++ u.stream.input.flat ∧
          c.read.codec.df.isServer = true ∧ c.write.isServer = true) :=
  async_server_answers u key ops custom maxDf maxMsg extra hu hk (text_prepare (run_text ops (by rw [hu]; exact text_nil)) ht)

/-! ## The client -/

theorem resStart : HttpVersion.http11.fmt ++ ascii " 101 Switching Protocols" = resLine .http11 ⟨101, ascii "Switching Protocols"⟩ := by
  decide +kernel

theorem okRes101 : okRes .http11 ⟨101, ascii "Switching Protocols"⟩ := by
  refine ⟨Or.inr rfl, by decide, by decide, ?_⟩
  show ∀ c ∈ ascii "Switching Protocols", 32 ≤ c ∧ c ≤ 126
  decide +kernel

theorem answers_validate [B64] {key fresh : WsKey} {lines : List (Bytes × Bytes)} (h : Answers key lines) (b : Builder)
    (hk : (b.buildRequest fresh).2.headers.getKey = some key) (v : HttpVersion) (reason : Bytes) :
    (b.buildRequest fresh).2.validate ⟨v, ⟨101, reason⟩, .fromRaw lines⟩ = .ok () := by
  rw [C34_accepts_exactly b fresh key hk]
  obtain ⟨⟨a, h1, h2⟩, h3, h4⟩ := h
  have ha : a = b64Encode (WsAccept.new key).bytes := by
    refine chars_inj ?_
    rw [h2, b64Encode_spec, C32_accept_digest]
    rfl
  have hne : (WsAccept.new key).bytes ≠ [] := by intro h0; have := (WsAccept.new key).len; rw [h0] at this; simp at this
  refine ⟨rfl, ⟨[a], h1, a, (WsAccept.new key).bytes, ?_, ?_, C32_accept_digest key⟩, [ascii "websocket"], h3, ?_, ?_⟩
  · rw [ha]; exact b64_oneLine hne
  · rw [ha]; exact B64.decode_encode _
  · intro x hx; simp at hx; subst hx; exact isUtf8_ascii (by decide)
  · rw [listsOnly_iff]
    refine ⟨ascii "websocket", by decide +kernel, ?_⟩
    show SameText _ _
    rw [sameText_iff]; decide +kernel

theorem request_data (url : Url) (ops : List BOp) (fresh : WsKey) :
    ascii "GET " ++ (((Builder.init url).run ops).buildRequest fresh).1 ++ [32] ++
        (((Builder.init url).run ops).buildRequest fresh).2.version.fmt ++ crlf ++
        (((Builder.init url).run ops).buildRequest fresh).2.headers.fmt ++ crlf =
      Head (requestStart url) (requestLines url ops fresh) := by
  obtain ⟨hu, hv⟩ := run_fixed (Builder.init url) ops
  obtain ⟨_, _, k3, k4⟩ := build_keeps ((Builder.init url).run ops) fresh
  rw [k3, k4, hu, hv]
  unfold Head requestStart requestLines
  rw [← fmt_wire]
  have e : ascii " HTTP/1.1" = [32] ++ (HttpVersion.http11).fmt := by decide +kernel
  rw [e]
  have e3 : ascii "\r\n" = crlf := by decide +kernel
  rw [e3]
  simp only [List.append_assoc]
  rfl

theorem request_fmt (url : Url) (ops : List BOp) (fresh : WsKey) :
    HttpHead.fmt reqLine ⟨(((Builder.init url).run ops).buildRequest fresh).2.version,
        ⟨.get, (((Builder.init url).run ops).buildRequest fresh).1⟩,
        (((Builder.init url).run ops).buildRequest fresh).2.headers⟩ =
      Head (requestStart url) (requestLines url ops fresh) := by
  rw [← request_data]
  unfold HttpHead.fmt reqLine
  have : (Method.get).fmt ++ [32] = ascii "GET " := by decide +kernel
  rw [this]

theorem client_takes [B64] (p : ResParser) (key fresh : WsKey) (url : Url) (ops : List BOp) (lines : List (Bytes × Bytes))
    (d : Duplex) (y : Bytes) (hwr : (((Builder.init url).run ops).buildRequest fresh).2.headers.writable = true) (ha : Answers key lines) (hs : Sendable lines)
    (hk : (((Builder.init url).run ops).buildRequest fresh).2.headers.getKey = some key)
    (hl : (head101 .http11 lines).length ≤ maxBufferSize) (hc : d.input.Chunks) (hf : d.input.flat = head101 .http11 lines ++ y) :
    (∃ k, (Sink.writeAll (Head (requestStart url) (requestLines url ops fresh)) d.output).1 = .error k ∧
        ∃ d', (((Builder.init url).run ops).connectOn p fresh d).1 = .err d' (.io k)) ∨
      ∃ c, (((Builder.init url).run ops).connectOn p fresh d).1 = .client c ∧
        c.stream.inner.output.wire = d.output.wire ++ Head (requestStart url) (requestLines url ops fresh) ∧
        c.headers = .fromRaw lines ∧ c.pending = y ∧ c.receiver.mask = false ∧ c.sender.mask = true := by
  have hp := parse_lines p .http11 ⟨101, ascii "Switching Protocols"⟩ okRes101 hs
  rw [← resStart] at hp
  have hval := answers_validate ha ((Builder.init url).run ops) hk .http11 (ascii "Switching Protocols")
  have hdata := request_data url ops fresh
  have key : (∃ k, (Sink.writeAll (Head (requestStart url) (requestLines url ops fresh)) d.output).1 = .error k ∧
        ∃ d', (((Builder.init url).run ops).connectOn p fresh d).1 = .err d' (.io k)) ∨
      ∃ c, (((Builder.init url).run ops).connectOn p fresh d).1 = .client c ∧
        c.stream.inner.output.wire = d.output.wire ++ Head (requestStart url) (requestLines url ops fresh) ∧
        c.headers = .fromRaw lines ∧ c.pending = y := by
    rw [connect_text p fresh d _ hwr]
    unfold Builder.connectText
    cases hb : ((Builder.init url).run ops).buildRequest fresh with
    | mk resource b =>
      rw [hb] at hval hdata
      simp only at hval hdata ⊢
      rw [hdata]
      cases hw : Sink.writeAll (Head (requestStart url) (requestLines url ops fresh)) d.output with
      | mk r w =>
        cases r with
        | error k => exact Or.inl ⟨k, rfl, _, rfl⟩
        | ok _ =>
          right
          have h := parseHead_finds p (BufReader.new ({ d with output := w } : Duplex)) (new_wf _) rfl new_buf hc _ y _ hp hl
            (by rw [new_window]; exact hf)
          have hin := parseHead_inner p (BufReader.new ({ d with output := w } : Duplex))
          cases hx : parseHead p (BufReader.new ({ d with output := w } : Duplex)) with
          | mk r reader =>
            rw [hx] at h hin
            simp only at h
            obtain ⟨rfl, h2, h3, h4⟩ := h
            simp only [hx, hval]
            refine ⟨_, rfl, ?_, rfl, h4⟩
            obtain ⟨s, hs'⟩ := hin
            have ho : reader.inner.output = w := by
              simp only at hs'; rw [hs']; rfl
            show reader.inner.output.wire = _
            rw [ho]
            exact writeAll_ok hw
  rcases key with h | ⟨c, h1, h2, h3, h4⟩
  · exact Or.inl h
  · have h5 := C39_client_limits_partial p fresh d url ops c h1
    exact Or.inr ⟨c, h1, h2, h3, h4, h5.2.1, h5.2.2⟩

/-- The blocking client takes any answer to its key, however it arrives, and is ready: it expects
unmasked frames, sends masked ones, and reads on where the answer ended. -/
theorem C35_client_takes [B64] (p : ResParser) (key fresh : WsKey) (url : Url) (ops : List BOp) (lines : List (Bytes × Bytes))
    (d : Duplex) (y : Bytes) (ht : ∀ op ∈ ops, GivesText op) (ha : Answers key lines) (hs : Sendable lines)
    (hk : (((Builder.init url).run ops).buildRequest fresh).2.headers.getKey = some key)
    (hl : (head101 .http11 lines).length ≤ maxBufferSize) (hc : d.input.Chunks) (hf : d.input.flat = head101 .http11 lines ++ y) :
    (∃ k, (Sink.writeAll (Head (requestStart url) (requestLines url ops fresh)) d.output).1 = .error k ∧
        ∃ d', (((Builder.init url).run ops).connectOn p fresh d).1 = .err d' (.io k)) ∨
      ∃ c, (((Builder.init url).run ops).connectOn p fresh d).1 = .client c ∧
        c.stream.inner.output.wire = d.output.wire ++ Head (requestStart url) (requestLines url ops fresh) ∧
        c.headers = .fromRaw lines ∧ c.pending = y ∧ c.receiver.mask = false ∧ c.sender.mask = true :=
  client_takes p key fresh url ops lines d y (writable_request url ops ht fresh) ha hs hk hl hc hf

theorem async_client_takes [B64] (p : ResParser) (key fresh : WsKey) (url : Url) (ops : List BOp) (lines : List (Bytes × Bytes))
    (extra : Nat) (d : Duplex) (y : Bytes) (hwr : (((Builder.init url).run ops).buildRequest fresh).2.headers.writable = true) (ha : Answers key lines) (hs : Sendable lines)
    (hk : (((Builder.init url).run ops).buildRequest fresh).2.headers.getKey = some key)
    (hc : ∀ e ∈ d.input, ¬ e.fails) (hf : d.input.flat = head101 .http11 lines ++ y) :
    (∃ e, (httpSend (Head (requestStart url) (requestLines url ops fresh)) extra d.output).1 = .err e ∧
        ∃ d', ((Builder.init url).run ops).asyncConnectOn p fresh extra d = .err d' (.ofCodec e)) ∨
      ∃ c, ((Builder.init url).run ops).asyncConnectOn p fresh extra d = .client c ∧
        c.stream.output.wire = d.output.wire ++ Head (requestStart url) (requestLines url ops fresh) ∧ c.write.buf.data = [] ∧
        c.headers = .fromRaw lines ∧ c.read.buf ++ c.stream.input.flat = y ∧
        c.read.codec.df.isServer = false ∧ c.write.isServer = false := by
  have hp := parse_lines p .http11 ⟨101, ascii "Switching Protocols"⟩ okRes101 hs
  have hb : FirstBlank d.input.flat (head101 .http11 lines) y := by
    rw [hf]
    unfold head101
    rw [resStart]
    refine firstBlank_head (resLine_ok _ _ okRes101).2.1 ?_ hs.1 y
    exact fun h => absurd ((resLine_ok _ _ okRes101).2.2 _ h) (by decide)
  have hp' : p.parse (head101 .http11 lines) =
      .complete ⟨.http11, ⟨101, ascii "Switching Protocols"⟩, .fromRaw lines⟩ (head101 .http11 lines).length := by
    unfold head101; rw [resStart]; exact hp
  have hval := answers_validate ha ((Builder.init url).run ops) hk .http11 (ascii "Switching Protocols")
  have hfmt := request_fmt url ops fresh
  have hat := C42_any_transport_partial p d.input hb (by rw [hp']; simp)
  have hsp := httpSend_spec (Head (requestStart url) (requestLines url ops fresh)) extra d.output
  have key : (∃ e, (httpSend (Head (requestStart url) (requestLines url ops fresh)) extra d.output).1 = .err e ∧
        ∃ d', ((Builder.init url).run ops).asyncConnectOn p fresh extra d = .err d' (.ofCodec e)) ∨
      ∃ c, ((Builder.init url).run ops).asyncConnectOn p fresh extra d = .client c ∧
        c.stream.output.wire = d.output.wire ++ Head (requestStart url) (requestLines url ops fresh) ∧ c.write.buf.data = [] ∧
        c.headers = .fromRaw lines ∧ c.read.buf ++ c.stream.input.flat = y := by
    rw [asyncConnect_text p fresh extra d _ hwr]
    unfold Builder.asyncConnectText
    cases hb : ((Builder.init url).run ops).buildRequest fresh with
    | mk resource b =>
      rw [hb] at hval hfmt
      simp only at hval hfmt ⊢
      rw [hfmt]
      cases hw : httpSend (Head (requestStart url) (requestLines url ops fresh)) extra d.output with
      | mk r rest =>
        obtain ⟨fw, w⟩ := rest
        rw [hw] at hsp
        rcases hsp with ⟨h0, h1, h2⟩ | ⟨e, pre, h0, _⟩
        · simp only at h0 h1 h2
          subst h0
          right
          revert hat
          cases (Framed.new ()).next (httpDecoder p) d.input with
          | mk x z =>
            obtain ⟨fr, s⟩ := z
            intro hat
            rcases hat with ⟨g1, g2⟩ | ⟨_, _, e, he, hfe⟩
            · simp only [hp'] at g1 g2
              subst g1
              simp only [hval]
              exact ⟨_, rfl, h1, h2, rfl, g2⟩
            · exact absurd hfe (hc e he)
        · simp only at h0
          subst h0
          exact Or.inl ⟨e, rfl, _, rfl⟩
  rcases key with h | ⟨c, h1, h2, h3, h4, h5⟩
  · exact Or.inl h
  · have h6 := C39_async_client_limits p fresh extra d url ops c h1
    exact Or.inr ⟨c, h1, h2, h3, h4, h5, h6.2.1, h6.2.2⟩

/-- The same for the async client. -/
theorem C35_async_client_takes [B64] (p : ResParser) (key fresh : WsKey) (url : Url) (ops : List BOp) (lines : List (Bytes × Bytes))
    (extra : Nat) (d : Duplex) (y : Bytes) (ht : ∀ op ∈ ops, GivesText op) (ha : Answers key lines) (hs : Sendable lines)
    (hk : (((Builder.init url).run ops).buildRequest fresh).2.headers.getKey = some key)
    (hc : ∀ e ∈ d.input, ¬ e.fails) (hf : d.input.flat = head101 .http11 lines ++ y) :
    (∃ e, (httpSend (Head (requestStart url) (requestLines url ops fresh)) extra d.output).1 = .err e ∧
        ∃ d', ((Builder.init url).run ops).asyncConnectOn p fresh extra d = .err d' (.ofCodec e)) ∨
      ∃ c, ((Builder.init url).run ops).asyncConnectOn p fresh extra d = .client c ∧
        c.stream.output.wire = d.output.wire ++ Head (requestStart url) (requestLines url ops fresh) ∧ c.write.buf.data = [] ∧
        c.headers = .fromRaw lines ∧ c.read.buf ++ c.stream.input.flat = y ∧
        c.read.codec.df.isServer = false ∧ c.write.isServer = false :=
  async_client_takes p key fresh url ops lines extra d y (writable_request url ops ht fresh) ha hs hk hc hf

/-! ## Both -/

/-- Two blocking ends. The request the client writes, in any segments and with anything behind it, is
accepted by the server with the same key, method and target; what the server then writes, in any
segments and with anything behind it, is accepted by that client; each end masks exactly if the other
expects it, and each reads on exactly behind the handshake. -/
theorem C35_handshake [B64] (preq : ReqParser) (pres : ResParser) (url : Url) (ops : List BOp) (fresh key : WsKey)
    (sops : List UpgradeOp) (custom : Option Headers) (maxDf maxMsg : Nat) (sd : Duplex) (x : Bytes)
    (ha : Asks key (requestLines url ops fresh))
    (hk : (((Builder.init url).run ops).buildRequest fresh).2.headers.getKey = some key)
    (hu : Target url.resource) (hs : SendableRequest url ops fresh) (ht : TextCustom custom)
    (hl : (Head (requestStart url) (requestLines url ops fresh)).length ≤ maxBufferSize)
    (hc : sd.input.Chunks) (hf : sd.input.flat = Head (requestStart url) (requestLines url ops fresh) ++ x) :
    ∃ u, intoWs preq sd = .ok u ∧ u.request = ⟨.http11, ⟨.get, url.resource⟩, .fromRaw (requestLines url ops fresh)⟩ ∧
      ∃ lines, Answers key lines ∧
        ((∃ k, (Sink.writeAll (head101 .http11 lines) sd.output).1 = .error k ∧
            ∃ d, SyncUpgrade.internalAcceptWithLimits (u.run sops) custom maxDf maxMsg = .err d k) ∨
         ∃ sc, SyncUpgrade.internalAcceptWithLimits (u.run sops) custom maxDf maxMsg = .client sc ∧
          sc.stream.inner.output.wire = sd.output.wire ++ head101 .http11 lines ∧ sc.pending = x ∧
          ∀ (cd : Duplex) (y : Bytes), Sendable lines → (head101 .http11 lines).length ≤ maxBufferSize → cd.input.Chunks →
            cd.input.flat = head101 .http11 lines ++ y →
            (∃ k, (Sink.writeAll (Head (requestStart url) (requestLines url ops fresh)) cd.output).1 = .error k) ∨
            ∃ c, (((Builder.init url).run ops).connectOn pres fresh cd).1 = .client c ∧
              c.stream.inner.output.wire = cd.output.wire ++ Head (requestStart url) (requestLines url ops fresh) ∧
              c.headers = .fromRaw lines ∧ c.pending = y ∧
              c.sender.mask = true ∧ sc.receiver.mask = true ∧ sc.sender.mask = false ∧ c.receiver.mask = false) := by
  obtain ⟨u, h1, h2, h3, h4, h5, h6⟩ := C35_server_takes preq key url.resource (requestLines url ops fresh) sd x ha hu hs.1 hl hc hf
  obtain ⟨h7, h8⟩ := C35_server_answers u key sops custom maxDf maxMsg h4 h3 ht
  rw [h5, h2] at h8
  refine ⟨u, h1, h2, _, h7, ?_⟩
  rcases h8 with h | ⟨sc, g1, g2, g3, g4, g5⟩
  · exact Or.inl h
  · refine Or.inr ⟨sc, g1, g2, by rw [g3, h6], fun cd y q1 q2 q3 q4 => ?_⟩
    rcases C35_client_takes pres key fresh url ops _ cd y hs.2 h7 q1 hk q2 q3 q4 with ⟨k, e, _⟩ | ⟨c, e1, e2, e3, e4, e5, e6⟩
    · exact Or.inl ⟨k, e⟩
    · exact Or.inr ⟨c, e1, e2, e3, e4, e6, g4, g5, e5⟩

/-- Two async ends, over any transport whose reads do not fail. -/
theorem C35_async_handshake [B64] (preq : ReqParser) (pres : ResParser) (url : Url) (ops : List BOp) (fresh key : WsKey)
    (sops : List UpgradeOp) (custom : Option Headers) (maxDf maxMsg extra : Nat) (sd : Duplex) (x : Bytes)
    (ha : Asks key (requestLines url ops fresh))
    (hk : (((Builder.init url).run ops).buildRequest fresh).2.headers.getKey = some key)
    (hu : Target url.resource) (hs : SendableRequest url ops fresh) (ht : TextCustom custom)
    (hc : ∀ e ∈ sd.input, ¬ e.fails) (hf : sd.input.flat = Head (requestStart url) (requestLines url ops fresh) ++ x) :
    ∃ u, asyncIntoWs preq sd = .ok u ∧ u.request = ⟨.http11, ⟨.get, url.resource⟩, .fromRaw (requestLines url ops fresh)⟩ ∧
      ∃ lines, Answers key lines ∧
        ((∃ e, (httpSend (head101 .http11 lines) extra sd.output).1 = .err e ∧
            ∃ d, AsyncUpgrade.internalAcceptWithLimits (u.run sops) custom maxDf maxMsg extra = .err d e) ∨
         ∃ sc, AsyncUpgrade.internalAcceptWithLimits (u.run sops) custom maxDf maxMsg extra = .client sc ∧
          sc.stream.output.wire = sd.output.wire ++ head101 .http11 lines ∧ sc.write.buf.data = [] ∧
          sc.read.buf ++ sc.stream.input.flat = x ∧
          ∀ (cd : Duplex) (y : Bytes), Sendable lines → (∀ e ∈ cd.input, ¬ e.fails) →
            cd.input.flat = head101 .http11 lines ++ y →
            (∃ e, (httpSend (Head (requestStart url) (requestLines url ops fresh)) extra cd.output).1 = .err e) ∨
            ∃ c, ((Builder.init url).run ops).asyncConnectOn pres fresh extra cd = .client c ∧
              c.stream.output.wire = cd.output.wire ++ Head (requestStart url) (requestLines url ops fresh) ∧
              c.write.buf.data = [] ∧ c.headers = .fromRaw lines ∧ c.read.buf ++ c.stream.input.flat = y ∧
              c.write.isServer = false ∧ c.read.codec.df.isServer = false ∧
              sc.write.isServer = true ∧ sc.read.codec.df.isServer = true) := by
  obtain ⟨u, h1, h2, h3, h4, h5, h6⟩ := C35_async_server_takes preq key url.resource (requestLines url ops fresh) sd x ha hu hs.1 hc hf
  obtain ⟨h7, h8⟩ := C35_async_server_answers u key sops custom maxDf maxMsg extra h4 h3 ht
  rw [h5, h2] at h8
  refine ⟨u, h1, h2, _, h7, ?_⟩
  rcases h8 with h | ⟨sc, g1, g2, g3, g4, g5, g6⟩
  · exact Or.inl h
  · refine Or.inr ⟨sc, g1, g2, g3, by rw [g4, h6], fun cd y q1 q2 q3 => ?_⟩
    rcases C35_async_client_takes pres key fresh url ops _ extra cd y hs.2 h7 q1 hk q2 q3 with
      ⟨k, e, _⟩ | ⟨c, e1, e2, e3, e4, e5, e6, e7⟩
    · exact Or.inl ⟨k, e⟩
    · exact Or.inr ⟨c, e1, e2, e3, e4, e5, e7, e6, g6, g5⟩

/-- The server sees exactly the protocols the client added since it last cleared them. -/
theorem C35_protocols (url : Url) (pre post : List BOp) (fresh : WsKey)
    (hpre : pre = [] ∨ ∃ p op, pre = p ++ [op] ∧ ClearsProtocols op)
    (hpost : ∀ op ∈ post, ¬ ClearsProtocols op ∧ KeepsOff (ascii "Sec-WebSocket-Protocol") op)
    (hl : ∀ x ∈ post.flatMap addedProtocols, ListItem x ∧ Inline x) {B} (u : Upgrade B)
    (hu : u.request.headers = .fromRaw (requestLines url (pre ++ post) fresh)) :
    u.protocols = post.flatMap addedProtocols := by
  have h0 := protocols_absent (unique_init url pre) post
    (fun op ho => ⟨(hpost op ho).2, fun e => (hpost op ho).1 (Or.inl e)⟩) (cleared_protocols url pre hpre)
  rw [← run_append] at h0
  have hb := build_item (b := (Builder.init url).run (pre ++ post)) built_protocol fresh
  have hun := unique_build (unique_init url (pre ++ post)) fresh
  have hi := item_fromRaw (requestLines url (pre ++ post) fresh) nProtocol
  unfold Upgrade.protocols Headers.getProtocol
  rw [hu]
  rcases h0 with ⟨h1, h2⟩ | ⟨h1, h2⟩
  · rw [h2] at hb
    have hv : valuesOf nProtocol (requestLines url (pre ++ post) fresh) = [] := (values_iff.mp (values_of_none hun hb)).symm
    rw [hv] at hi
    simp only [if_true] at hi
    rw [hi]
    simp only [Option.getD_none]
    symm
    rw [List.flatMap_eq_nil_iff]
    intro op ho
    have := h1 op ho
    cases op <;> first | rfl | exact absurd (Or.inl ⟨_, rfl⟩) this | exact absurd (Or.inr ⟨_, rfl⟩) this
  · rw [h2] at hb
    have hv := values_of_item hun hb
    have hn : Inline (fmtCommaDelimited (post.flatMap addedProtocols)) := inline_join fun x hx => (hl x hx).2
    have ht := trimSpacesEnd_id (joinWith_last (post.flatMap addedProtocols) fun x hx => (hl x hx).1)
    simp only [HItem.lines, HVal.fmt, List.map_cons, List.map_nil, oneLine_inline hn, ht] at hv
    have hv' := (values_iff.mp hv).symm
    rw [show valuesOf nProtocol (requestLines url (pre ++ post) fresh) = _ from hv'] at hi
    simp only [List.cons_ne_self, if_false] at hi
    rw [hi]
    have := C44_round_trip _ fun x hx => (hl x hx).1
    simp only [HVal.fmt] at this
    simp only [this, Option.getD_some]

/-! ## The hypotheses are met -/

/-- A client that offers two protocols and sends a header of its own. -/
def sampleOps : List BOp := [.addProtocol (ascii "chat"), .addProtocol (ascii "rust"), .customHeaders [(ascii "X-A", .raw [ascii "b"])]]

example : Asks sampleKey (requestLines sampleUrl sampleOps sampleKey) := by
  refine (C35_request_asks sampleUrl sampleOps sampleKey ?_).1
  intro op ho
  simp only [sampleOps, List.mem_cons, List.not_mem_nil, or_false] at ho
  rcases ho with rfl | rfl | rfl <;> exact ⟨fun k h => (nomatch h), fun v h => (nomatch h)⟩

example : Target sampleUrl.resource := by
  unfold Target; decide +kernel

theorem legalLine_of {e : Bytes × Bytes} (h : (!e.1.isEmpty && e.1.all (fun c => decide (isTchar c)) && e.2.all (fun c => decide (32 ≤ c ∧ c ≠ 127)) &&
    decide (e.2.head? ≠ some 32) && decide (e.2.getLast? ≠ some 32)) = true) : LegalLine e := by
  simp only [Bool.and_eq_true, decide_eq_true_eq, List.all_eq_true, Bool.not_eq_true', List.isEmpty_eq_false_iff] at h
  obtain ⟨⟨⟨⟨h1, h2⟩, h3⟩, h4⟩, h5⟩ := h
  refine ⟨h1, h2, h3, fun c hc => ?_, fun c hc => ?_⟩
  · rintro rfl; exact h4 hc
  · rintro rfl; exact h5 hc

theorem sampleSendable : SendableRequest sampleUrl sampleOps sampleKey := by
  refine ⟨⟨fun e he => legalLine_of ?_, by decide +kernel⟩, givesText_of (by decide +kernel)⟩
  revert e
  decide +kernel

/-- The whole handshake, run: the request arrives in two pieces with a frame behind it, the server
picks a protocol and adds a header, the answer arrives in two pieces with a frame behind it. -/
def sampleRun : Option (Bytes × Bytes × List Bytes × List Bool) :=
  let request := Head (requestStart sampleUrl) (requestLines sampleUrl sampleOps sampleKey) ++ [0x89, 0x80, 1, 2, 3, 4]
  match @intoWs B64.strict reqParser ⟨[.chunk (request.take 40), .chunk (request.drop 40)], ⟨[], []⟩⟩ with
  | .error _ => none
  | .ok u =>
    match @SyncUpgrade.internalAcceptWithLimits B64.strict (u.run [.useProtocol (ascii "rust")]) (some [(ascii "X-B", .raw [ascii "c"])]) 10 20 with
    | .client sc =>
      let answer := sc.stream.inner.output.wire ++ [0x8a, 0]
      match (@Builder.connectOn B64.strict resParser sampleKey ⟨[.chunk (answer.take 50), .chunk (answer.drop 50)], ⟨[], []⟩⟩
          ((Builder.init sampleUrl).run sampleOps)).1 with
      | .client c => some (sc.pending, c.pending, (c.headers.getProtocol.getD []) ++ u.protocols,
          [c.sender.mask, sc.receiver.mask, sc.sender.mask, c.receiver.mask])
      | _ => none
    | _ => none

example : sampleRun = some ([0x89, 0x80, 1, 2, 3, 4], [0x8a, 0], [ascii "rust", ascii "chat", ascii "rust"], [true, true, false, false]) := by
  decide +kernel

/-! The theorems above for this client. -/

theorem sampleOps_mild : ∀ op ∈ sampleOps, (∀ k, op ≠ .key k) ∧ ∀ v, op ≠ .version v := by
  intro op ho
  simp only [sampleOps, List.mem_cons, List.not_mem_nil, or_false] at ho
  rcases ho with rfl | rfl | rfl <;> exact ⟨fun k h => (nomatch h), fun v h => (nomatch h)⟩
theorem sampleAsks : Asks sampleKey (requestLines sampleUrl sampleOps sampleKey) := (C35_request_asks sampleUrl sampleOps sampleKey sampleOps_mild).1
theorem sampleHasKey [B64] : (((Builder.init sampleUrl).run sampleOps).buildRequest sampleKey).2.headers.getKey = some sampleKey :=
  (C35_request_asks sampleUrl sampleOps sampleKey sampleOps_mild).2
theorem sampleTarget : Target sampleUrl.resource := by
  unfold Target; decide +kernel

example := C35_request_asks_user_key sampleUrl [.addProtocol (ascii "a")] [.addProtocol (ascii "chat"), .clearProtocols]
  ⟨ascii "another nonce 16", by decide⟩ sampleKey
  (by
    intro op ho
    simp only [List.mem_cons, List.not_mem_nil, or_false] at ho
    rcases ho with rfl | rfl
    · exact ⟨fun k h => (nomatch h), fun h => (nomatch h), trivial⟩
    · exact ⟨fun k h => (nomatch h), fun h => (nomatch h), trivial⟩)
  (by simp)

/-- The request in two pieces with a frame behind it. -/
def sampleAsked : Duplex :=
  let request := Head (requestStart sampleUrl) (requestLines sampleUrl sampleOps sampleKey) ++ [0x89, 0x80, 1, 2, 3, 4]
  ⟨[.chunk (request.take 40), .chunk (request.drop 40)], ⟨[], [.accept 5]⟩⟩

example := @C35_server_takes B64.strict reqParser sampleKey sampleUrl.resource (requestLines sampleUrl sampleOps sampleKey) sampleAsked
  [0x89, 0x80, 1, 2, 3, 4] sampleAsks sampleTarget sampleSendable.1 (by decide +kernel) (Src.chunks_of (by decide +kernel)) (by decide +kernel)
example := @C35_async_server_takes B64.strict reqParser sampleKey sampleUrl.resource (requestLines sampleUrl sampleOps sampleKey) sampleAsked
  [0x89, 0x80, 1, 2, 3, 4] sampleAsks sampleTarget sampleSendable.1 (Src.not_fails_of (by decide +kernel)) (by decide +kernel)

/-- The upgrade the server makes of it. -/
def sampleTaken : SyncUpgrade :=
  ⟨[], ⟨[], ⟨[], [.accept 5]⟩⟩, ⟨.http11, ⟨.get, sampleUrl.resource⟩, .fromRaw (requestLines sampleUrl sampleOps sampleKey)⟩, none⟩
example := @C35_server_answers B64.strict sampleTaken sampleKey [.useProtocol (ascii "rust")] (some [(ascii "X-B", .raw [ascii "c"])]) 10 20 rfl
  (by decide +kernel) (textCustom_some (by decide +kernel))
example := @C35_async_server_answers B64.strict ⟨[], sampleTaken.stream, sampleTaken.request, [0x89]⟩ sampleKey [.useProtocol (ascii "rust")]
  (some [(ascii "X-B", .raw [ascii "c"])]) 10 20 0 rfl (by decide +kernel) (textCustom_some (by decide +kernel))

/-- The answer in two pieces with a frame behind it. -/
def sampleAnswered : Duplex :=
  let answer := head101 .http11 (responseLines [.useProtocol (ascii "rust")] none sampleKey) ++ [0x8a, 0]
  ⟨[.chunk (answer.take 50), .chunk (answer.drop 50)], ⟨[], [.accept 5]⟩⟩
theorem sampleAnswers : Answers sampleKey (responseLines [.useProtocol (ascii "rust")] none sampleKey) :=
  (@C35_server_answers B64.strict sampleTaken sampleKey [.useProtocol (ascii "rust")] none 10 20 rfl (by decide +kernel) textCustom_none).1
theorem sampleAnswer_sendable : Sendable (responseLines [.useProtocol (ascii "rust")] none sampleKey) := by
  refine ⟨fun e he => legalLine_of ?_, by decide +kernel⟩
  revert e
  decide +kernel
example := @C35_client_takes B64.strict resParser sampleKey sampleKey sampleUrl sampleOps _ sampleAnswered [0x8a, 0] sampleSendable.2 sampleAnswers
  sampleAnswer_sendable (@sampleHasKey B64.strict) (by decide +kernel) (Src.chunks_of (by decide +kernel)) (by decide +kernel)
example := @C35_async_client_takes B64.strict resParser sampleKey sampleKey sampleUrl sampleOps _ 0 sampleAnswered [0x8a, 0] sampleSendable.2 sampleAnswers
  sampleAnswer_sendable (@sampleHasKey B64.strict) (Src.not_fails_of (by decide +kernel)) (by decide +kernel)
example := @C35_handshake B64.strict reqParser resParser sampleUrl sampleOps sampleKey sampleKey [.useProtocol (ascii "rust")] none 10 20 sampleAsked
  [0x89, 0x80, 1, 2, 3, 4] sampleAsks (@sampleHasKey B64.strict) sampleTarget sampleSendable textCustom_none (by decide +kernel) (Src.chunks_of (by decide +kernel)) (by decide +kernel)
example := @C35_async_handshake B64.strict reqParser resParser sampleUrl sampleOps sampleKey sampleKey [.useProtocol (ascii "rust")] none 10 20 0 sampleAsked
  [0x89, 0x80, 1, 2, 3, 4] sampleAsks (@sampleHasKey B64.strict) sampleTarget sampleSendable textCustom_none (Src.not_fails_of (by decide +kernel)) (by decide +kernel)

end WS
