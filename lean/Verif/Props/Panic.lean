import Verif.Props.Response
import Verif.Lemmas.Limits
import Verif.Lemmas.Parallel
import Verif.Props.Client
import Verif.Props.Builder
import Verif.Props.Limits
/-!
# C69: the handshakes and the senders do not panic

C09 is about receiving. Here: connecting, waiting for a request, accepting, refusing and sending, over any transport. The full
claim is refuted by headers that are not UTF-8 (`C69_refuted`); the `_partial` theorems ask that the program gives none, the
`_exactly` theorems say when there is a panic.
-/

namespace WS

/-! ## The async HTTP streams -/

theorem httpDecoder_calm {σ line ok} (p : HeadParser σ line ok) (c : Unit) (bs : Bytes) : ((httpDecoder p c bs).1).isPanic = false := by
  unfold httpDecoder
  split
  · split <;> rfl
  · rfl

section
variable {σ α : Type} {dec : Decoder σ α}

theorem pollEof_calm (h : ∀ c bs, ((dec c bs).1).isPanic = false) (fr : Framed σ) : (Framed.pollEof dec fr).1.isPanic = false := by
  have := h fr.codec fr.buf
  unfold Framed.pollEof
  split <;> rename_i heq <;> rw [heq] at this
  · rfl
  · split <;> rfl
  · rfl
  · cases this

theorem pollRead_calm (h : ∀ c bs, ((dec c bs).1).isPanic = false) (s : Src) (fr : Framed σ) (x : Item α)
    (hx : (fr.pollRead dec s).1 = .ready x) : x.isPanic = false := by
  induction s generalizing fr with
  | nil => cases hx; exact pollEof_calm h _
  | cons e rest ih =>
    cases e with
    | error k =>
      unfold Framed.pollRead at hx
      split at hx
      · cases hx
      · cases hx; rfl
    | chunk b =>
      have hd := h fr.codec (fr.buf ++ b)
      unfold Framed.pollRead at hx
      split at hx
      · cases hx; exact pollEof_calm h _
      · split at hx <;> rename_i heq <;> rw [heq] at hd
        · cases hx; rfl
        · exact ih _ hx
        · cases hx; rfl
        · cases hd

theorem poll_calm (h : ∀ c bs, ((dec c bs).1).isPanic = false) (s : Src) (fr : Framed σ) (x : Item α)
    (hx : (fr.poll dec s).1 = .ready x) : x.isPanic = false := by
  have hd := h fr.codec fr.buf
  unfold Framed.poll at hx
  split at hx
  · split at hx
    · cases hx; exact pollEof_calm h _
    · split at hx <;> rename_i heq <;> rw [heq] at hd
      · cases hx; rfl
      · exact pollRead_calm h s _ x hx
      · cases hx; rfl
      · cases hd
  · exact pollRead_calm h s _ x hx

theorem next_calm (h : ∀ c bs, ((dec c bs).1).isPanic = false) (fr : Framed σ) (s : Src) : (fr.next dec s).1.isPanic = false := by
  fun_induction Framed.next dec fr s with
  | case1 fr s x fr' s' hp => exact poll_calm h s fr x (by rw [hp])
  | case2 fr s fr' s' hp ih => exact ih

end

/-- Waiting for a head does not panic, whatever has been buffered, whatever arrives and however the head is parsed. -/
theorem C69_await_head {σ line ok} (p : HeadParser σ line ok) (fr : Framed Unit) (s : Src) (why : String) :
    (fr.next (httpDecoder p) s).1 ≠ .panic why := by
  intro h
  have := next_calm (httpDecoder_calm p) fr s
  rw [h] at this
  cases this

/-- Nor does a single poll, which is what the server's `buffer_unordered` makes. -/
theorem C69_poll_head {σ line ok} (p : HeadParser σ line ok) (fr : Framed Unit) (s : Src) (why : String) :
    (fr.poll (httpDecoder p) s).1 ≠ .ready (.panic why) := by
  intro h
  have := poll_calm (httpDecoder_calm p) s fr _ h
  cases this

/-! ## Connecting

A head is put together with `format!`, which panics if a raw header line is not UTF-8 (hyper's `Display` refuses it). Only the
program can have given such a line. -/

/-- An async connect panics exactly if a raw header line of the request is not UTF-8, whatever the peer and the transport do. -/
theorem C69_async_connect_exactly [B64] (p : ResParser) (fresh : WsKey) (extra : Nat) (stream : Duplex) (b : Builder) :
    (∃ why, b.asyncConnectOn p fresh extra stream = .panic why) ↔ ¬ TextHeaders (b.buildRequest fresh).2.headers := by
  rw [← not_writable_iff]
  rcases asyncConnect_or p fresh extra stream b with ⟨hw, e⟩ | ⟨hw, e⟩
  · exact ⟨fun _ => hw, fun _ => ⟨_, e⟩⟩
  · refine ⟨?_, fun h => (by rw [h] at hw; cases hw)⟩
    rintro ⟨why, h⟩
    exfalso
    rw [e] at h
    unfold Builder.asyncConnectText at h
    simp only at h
    have hs := httpSend_spec ((⟨(b.buildRequest fresh).2.version, ⟨.get, (b.buildRequest fresh).1⟩, (b.buildRequest fresh).2.headers⟩ : Request).fmt reqLine)
      extra stream.output
    split at h
    · split at h
      · split at h <;> cases h
      · cases h
      · cases h
      · next hx => exact C69_await_head p _ _ _ hx
    · cases h
    · cases h
    · next hx =>
      rw [hx] at hs
      rcases hs with ⟨hs, -⟩ | ⟨e, pre, hs, -⟩ <;> cases hs

/-- The same for a blocking connect. `ConnectRes.panic` carries no stream: nothing is written, see `C37_request_sent`. -/
theorem C69_connect_panics [B64] (p : ResParser) (fresh : WsKey) (stream : Duplex) (b : Builder) :
    (∃ why, (b.connectOn p fresh stream).1 = .panic why) ↔ ¬ TextHeaders (b.buildRequest fresh).2.headers := by
  rw [← not_writable_iff]
  rcases connect_or p fresh stream b with ⟨hw, e⟩ | ⟨hw, e⟩
  · exact ⟨fun _ => hw, fun _ => ⟨_, by rw [e]⟩⟩
  · refine ⟨?_, fun h => (by rw [h] at hw; cases hw)⟩
    rintro ⟨why, h⟩
    rw [e] at h
    exact absurd h (connectText_calm p fresh stream b why)

/-- So a program whose custom headers are text connects without a panic, with any other calls of the builder. -/
theorem C69_connect_partial [B64] (p : ResParser) (fresh : WsKey) (stream : Duplex) (url : Url) (ops : List BOp) (ht : ∀ op ∈ ops, GivesText op)
    (why : String) : (((Builder.init url).run ops).connectOn p fresh stream).1 ≠ .panic why :=
  connect_calm p fresh stream url ops ht why

theorem C69_async_connect_partial [B64] (p : ResParser) (fresh : WsKey) (extra : Nat) (stream : Duplex) (url : Url) (ops : List BOp)
    (ht : ∀ op ∈ ops, GivesText op) (why : String) : ((Builder.init url).run ops).asyncConnectOn p fresh extra stream ≠ .panic why := fun h =>
  (C69_async_connect_exactly p fresh extra stream _).mp ⟨why, h⟩ (writable_iff.mp (writable_request url ops ht fresh))

/-! ## Accepting and refusing -/

/-- The fields of `WsUpgrade` are public, so an upgrade can be put together by hand, or its request changed. `accept` panics
exactly if the request has no key or a raw header line of the response is not UTF-8. -/
theorem C69_accept_exactly [B64] (u : SyncUpgrade) (custom : Option Headers) (maxDf maxMsg : Nat) :
    (∃ why, SyncUpgrade.internalAcceptWithLimits u custom maxDf maxMsg = .panic why) ↔
      u.request.headers.getKey = none ∨ ∃ key, u.request.headers.getKey = some key ∧ ¬ TextHeaders (u.accepted custom key).headers := by
  have hr : (u.addCustom custom).request = u.request := by unfold Upgrade.addCustom; split <;> rfl
  cases hk : u.request.headers.getKey with
  | none =>
    refine ⟨fun _ => .inl rfl, fun _ => ?_⟩
    unfold SyncUpgrade.internalAcceptWithLimits Upgrade.prepareHeaders
    simp only [hr, hk]
    exact ⟨_, rfl⟩
  | some key =>
    have hp := prepare_some u custom hk
    simp only [reduceCtorEq, false_or, Option.some.injEq, exists_eq_left']
    rw [← not_writable_iff]
    rcases accept_or u custom maxDf maxMsg with ⟨hw, e⟩ | ⟨hw, e⟩
    · refine ⟨fun _ => ?_, fun _ => ⟨_, e⟩⟩
      cases h : (u.accepted custom key).headers.writable with
      | false => rfl
      | true => exact absurd (fun _ _ hx => by rw [hp] at hx; cases hx; exact h) hw
    · have h := hw _ _ hp
      rw [h, e]
      refine ⟨?_, fun hx => (by cases hx)⟩
      rintro ⟨why, hx⟩
      unfold SyncUpgrade.acceptText at hx
      rw [hp] at hx
      simp only at hx
      split at hx <;> cases hx

theorem C69_async_accept_exactly [B64] (u : AsyncUpgrade) (custom : Option Headers) (maxDf maxMsg extra : Nat) :
    (∃ why, AsyncUpgrade.internalAcceptWithLimits u custom maxDf maxMsg extra = .panic why) ↔
      u.request.headers.getKey = none ∨ ∃ key, u.request.headers.getKey = some key ∧ ¬ TextHeaders (u.accepted custom key).headers := by
  have hr : (u.addCustom custom).request = u.request := by unfold Upgrade.addCustom; split <;> rfl
  cases hk : u.request.headers.getKey with
  | none =>
    refine ⟨fun _ => .inl rfl, fun _ => ?_⟩
    unfold AsyncUpgrade.internalAcceptWithLimits Upgrade.prepareHeaders
    simp only [hr, hk]
    exact ⟨_, rfl⟩
  | some key =>
    have hp := prepare_some u custom hk
    simp only [reduceCtorEq, false_or, Option.some.injEq, exists_eq_left']
    rw [← not_writable_iff]
    rcases asyncAccept_or u custom maxDf maxMsg extra with ⟨hw, e⟩ | ⟨hw, e⟩
    · refine ⟨fun _ => ?_, fun _ => ⟨_, e⟩⟩
      cases h : (u.accepted custom key).headers.writable with
      | false => rfl
      | true => exact absurd (fun _ _ hx => by rw [hp] at hx; cases hx; exact h) hw
    · have h := hw _ _ hp
      rw [h, e]
      refine ⟨?_, fun hx => (by cases hx)⟩
      rintro ⟨why, hx⟩
      unfold AsyncUpgrade.acceptText at hx
      rw [hp] at hx
      simp only at hx
      split at hx
      · cases hx
      · cases hx
      · cases hx
      · next hx' =>
        rcases httpSend_spec _ extra _ with ⟨hs, -⟩ | ⟨e, pre, hs, -⟩ <;> rw [hx'] at hs <;> cases hs

/-- Accepting a request that `into_ws` let through does not panic, after any calls of `use_…`, with any custom headers that are
text and any limits. Nothing in the request can make it panic. -/
theorem C69_accept_partial [B64] (p : ReqParser) (d : Duplex) (u : SyncUpgrade) (h : intoWs p d = .ok u) (ops : List UpgradeOp)
    (custom : Option Headers) (ht : TextCustom custom) (maxDf maxMsg : Nat) (why : String) :
    SyncUpgrade.internalAcceptWithLimits (u.run ops) custom maxDf maxMsg ≠ .panic why := by
  obtain ⟨⟨key, hk⟩, hh⟩ := C45_upgrade_has_key p d u h
  obtain ⟨u', hu', hc⟩ := C45_accept u ops (by rw [hh]; simp [Headers.Unique]) custom maxDf maxMsg key hk
  intro hp
  rw [hp] at hc
  exact hc (writable_iff.mp (text_prepare (run_text ops (by rw [hh]; exact text_nil)) ht _ _ hu'))

/-- The same for requests parsed elsewhere. -/
theorem C69_accept_parsed_partial [B64] (d : Duplex) (request : Request) (buffer : Option Buffer) (u : SyncUpgrade)
    (h : intoWsParsed d request buffer = .ok u) (ops : List UpgradeOp) (custom : Option Headers) (ht : TextCustom custom) (maxDf maxMsg : Nat)
    (why : String) : SyncUpgrade.internalAcceptWithLimits (u.run ops) custom maxDf maxMsg ≠ .panic why := by
  obtain ⟨⟨key, hk⟩, hh, -⟩ := C45_parsed_upgrade_has_key d request buffer u h
  obtain ⟨u', hu', hc⟩ := C45_accept u ops (by rw [hh]; simp [Headers.Unique]) custom maxDf maxMsg key hk
  intro hp
  rw [hp] at hc
  exact hc (writable_iff.mp (text_prepare (run_text ops (by rw [hh]; exact text_nil)) ht _ _ hu'))

/-- The same for the async server. -/
theorem C69_async_accept_partial [B64] (p : ReqParser) (d : Duplex) (u : AsyncUpgrade) (h : asyncIntoWs p d = .ok u) (ops : List UpgradeOp)
    (custom : Option Headers) (ht : TextCustom custom) (maxDf maxMsg extra : Nat) (why : String) :
    AsyncUpgrade.internalAcceptWithLimits (u.run ops) custom maxDf maxMsg extra ≠ .panic why := by
  obtain ⟨⟨key, hk⟩, hh⟩ := C45_async_upgrade_has_key p d u h
  obtain ⟨u', hu', hc⟩ := C45_async_accept u ops (by rw [hh]; simp [Headers.Unique]) custom maxDf maxMsg extra key hk
  intro hp
  rw [hp] at hc
  exact hc (writable_iff.mp (text_prepare (run_text ops (by rw [hh]; exact text_nil)) ht _ _ hu'))

/-- Refusing panics exactly if a raw header line is not UTF-8 (a missing key does no harm), and then nothing has been written. -/
theorem C69_reject_exactly (u : SyncUpgrade) (custom : Option Headers) :
    ((∃ why, (SyncUpgrade.internalReject u custom).1 = .panic why) ↔ ¬ TextHeaders (u.addCustom custom).headers) ∧
    ∀ why, (SyncUpgrade.internalReject u custom).1 = .panic why → (SyncUpgrade.internalReject u custom).2 = u.stream := by
  rw [← not_writable_iff]
  cases h : (u.addCustom custom).headers.writable with
  | false =>
    rw [reject_panics u custom h]
    exact ⟨⟨fun _ => rfl, fun _ => ⟨_, rfl⟩⟩, fun _ _ => rfl⟩
  | true =>
    rw [reject_text u custom h]
    have : ∀ why, Sent.of (u.rejectText custom).1 ≠ .panic why := by
      intro why hx
      cases hr : (u.rejectText custom).1 <;> rw [hr] at hx <;> cases hx
    exact ⟨⟨fun ⟨why, hx⟩ => absurd hx (this why), fun hx => (by cases hx)⟩, fun why hx => absurd hx (this why)⟩

theorem C69_async_reject_exactly (u : AsyncUpgrade) (custom : Option Headers) (extra : Nat) :
    ((∃ why, (AsyncUpgrade.internalReject u custom extra).1 = .panic why) ↔ ¬ TextHeaders (u.addCustom custom).headers) ∧
    ∀ why, (AsyncUpgrade.internalReject u custom extra).1 = .panic why → (AsyncUpgrade.internalReject u custom extra).2.1 = u.stream := by
  have hst : (u.addCustom custom).stream = u.stream := by unfold Upgrade.addCustom; split <;> rfl
  rw [← not_writable_iff]
  cases h : (u.addCustom custom).headers.writable with
  | false =>
    rw [asyncReject_panics u custom extra h]
    exact ⟨⟨fun _ => rfl, fun _ => ⟨_, rfl⟩⟩, fun _ _ => hst⟩
  | true =>
    rw [asyncReject_text u custom extra h]
    have : ∀ why, (u.rejectText custom extra).1 ≠ .panic why := by
      intro why hx
      unfold AsyncUpgrade.rejectText at hx
      simp only at hx
      rcases httpSend_spec (((u.addCustom custom).response badRequest).fmt resLine) extra (u.addCustom custom).stream.output with
        ⟨hs, -⟩ | ⟨e, pre, hs, -⟩ <;> rw [hx] at hs <;> cases hs
    exact ⟨⟨fun ⟨why, hx⟩ => absurd hx (this why), fun hx => (by cases hx)⟩, fun why hx => absurd hx (this why)⟩

/-- A header `X-A` given as the byte 0xff, with `set_raw`. -/
def notText : Headers := [(ascii "X-A", .raw [[0xff]])]

/-- The full claim fails: connecting with such a header panics, whatever the transport would have done, and so do accepting and
refusing with it, whatever the request. -/
theorem C69_refuted [B64] :
    (∀ p fresh stream url, ∃ why, (((Builder.init url).run [.customHeaders notText]).connectOn p fresh stream).1 = .panic why) ∧
    (∀ p fresh extra stream url, ∃ why, ((Builder.init url).run [.customHeaders notText]).asyncConnectOn p fresh extra stream = .panic why) ∧
    (∀ p d u maxDf maxMsg, intoWs p d = .ok u → ∃ why, u.internalAcceptWithLimits (some notText) maxDf maxMsg = .panic why) ∧
    (∀ p d u maxDf maxMsg extra, asyncIntoWs p d = .ok u → ∃ why, u.internalAcceptWithLimits (some notText) maxDf maxMsg extra = .panic why) ∧
    (∀ p d u, intoWs p d = .ok u → ∃ why, (u.internalReject (some notText)).1 = .panic why) ∧
    (∀ p d u extra, asyncIntoWs p d = .ok u → ∃ why, (u.internalReject (some notText) extra).1 = .panic why) := by
  have item : ∀ {h : Headers}, h.item (ascii "X-A") = some (.raw [[0xff]]) → ¬ TextHeaders h := by
    intro h hi ht
    obtain ⟨m, he, -⟩ := item_entry hi
    exact absurd ((utf8Valid_iff _).mpr (ht _ he _ rfl [0xff] (List.mem_singleton.mpr rfl))) (by decide +kernel)
  have keep : ∀ n v (h : Headers), eqIgnoreCase n (ascii "X-A") = false → h.item (ascii "X-A") = some (.raw [[0xff]]) →
      (Headers.insert n v h).item (ascii "X-A") = some (.raw [[0xff]]) := by
    intro n v h hn hi
    rw [item_insert, if_neg (by rw [hn]; decide), hi]
  have build : ∀ url fresh, ¬ TextHeaders (((Builder.init url).run [.customHeaders notText]).buildRequest fresh).2.headers := by
    intro url fresh
    exact item (build_induct (K := fun h => h.item (ascii "X-A") = some (.raw [[0xff]]))
      (show Headers.item (ascii "X-A") (Headers.extend [] notText) = _ by decide +kernel) fresh
      (fun _ _ => keep _ _ _ (by decide +kernel)) (fun _ => keep _ _ _ (by decide +kernel)) (fun _ => keep _ _ _ (by decide +kernel))
      (fun _ => keep _ _ _ (by decide +kernel)) (fun _ => keep _ _ _ (by decide +kernel)) (fun _ => keep _ _ _ (by decide +kernel)))
  have acc : ∀ {B} (u : Upgrade B), u.headers = [] → ¬ TextHeaders (u.addCustom (some notText)).headers := by
    intro B u hu
    apply item
    unfold Upgrade.addCustom
    rw [hu]
    show Headers.item (ascii "X-A") (Headers.extend [] notText) = _
    decide +kernel
  have acc2 : ∀ {B} (u : Upgrade B) key, u.headers = [] → ¬ TextHeaders (u.accepted (some notText) key).headers := by
    intro B u key hu
    apply item
    rw [item_accepted]
    unfold Upgrade.addCustom
    rw [hu]
    rw [if_neg (by decide +kernel), if_neg (by decide +kernel), if_neg (by decide +kernel)]
    show Headers.item (ascii "X-A") (Headers.extend [] notText) = _
    decide +kernel
  refine ⟨fun p fresh stream url => (C69_connect_panics p fresh stream _).mpr (build url fresh),
    fun p fresh extra stream url => (C69_async_connect_exactly p fresh extra stream _).mpr (build url fresh),
    fun p d u maxDf maxMsg h => ?_, fun p d u maxDf maxMsg extra h => ?_, fun p d u h => ?_, fun p d u extra h => ?_⟩
  · obtain ⟨⟨key, hk⟩, hh⟩ := C45_upgrade_has_key p d u h
    exact (C69_accept_exactly u _ maxDf maxMsg).mpr (.inr ⟨key, hk, acc2 u key hh⟩)
  · obtain ⟨⟨key, hk⟩, hh⟩ := C45_async_upgrade_has_key p d u h
    exact (C69_async_accept_exactly u _ maxDf maxMsg extra).mpr (.inr ⟨key, hk, acc2 u key hh⟩)
  · exact (C69_reject_exactly u _).1.mpr (acc u (C45_upgrade_has_key p d u h).2)
  · exact (C69_async_reject_exactly u _ extra).1.mpr (acc u (C45_async_upgrade_has_key p d u h).2)

/-! ## Sending -/

/-- A blocking send does not panic, even for a frame whose type lies about its size. -/
theorem C69_send (x : Sender) (v : FrameView) (key : Key4) (w : Sink) (why : String) : (x.send v key w).1 ≠ .panic why := by
  intro h
  unfold Sender.send FrameView.writeTo at h
  have hp := encode_not_panic (v := v) (if x.mask then some key else none)
  cases he : v.encode (if x.mask then some key else none) with
  | ok data =>
    rw [he] at h
    simp only at h
    split at h <;> cases h
  | err e => rw [he] at h; cases h
  | panic m => rw [he] at hp; cases hp

theorem pollComplete_calm (fw : FramedWrite) (w : Sink) (why : String) : (fw.pollComplete w).1 ≠ .panic why := by
  fun_induction FramedWrite.pollComplete fw w <;> simp_all

theorem encodeInto_calm (isServer : Bool) (v : FrameView) (key : Key4) (extra : Nat) (dst : BytesMut) (why : String) :
    (encodeInto isServer v key extra dst).1 ≠ .panic why := by
  intro h
  unfold encodeInto at h
  simp only at h
  have hp := encode_not_panic (v := v) (if (!isServer) = true then some key else none)
  cases he : v.encode (if (!isServer) = true then some key else none) with
  | ok data =>
    rw [he] at h
    simp only at h
    split at h <;> cases h
  | err e => rw [he] at h; cases h
  | panic m => rw [he] at hp; cases hp

theorem sinkStep_calm (fw : FramedWrite) (op : SinkOp) (w : Sink) (why : String) : (fw.step op w).1 ≠ .panic why := by
  cases op with
  | flush => exact pollComplete_calm fw w why
  | send v key extra =>
    have enc : ∀ (fw : FramedWrite) (w : Sink), (match encodeInto fw.isServer v key extra fw.buf with
        | (.ok _, buf) => (SendRes.ready, { fw with buf := buf }, w)
        | (.err e, buf) => (.err e, { fw with buf := buf }, w)
        | (.panic e, buf) => (.panic e, { fw with buf := buf }, w)).1 ≠ .panic why := by
      intro fw w
      have := encodeInto_calm fw.isServer v key extra fw.buf
      split <;> simp_all
    show (fw.startSend v key extra w).1 ≠ .panic why
    unfold FramedWrite.startSend
    simp only
    have hp := pollComplete_calm fw w
    split
    · split
      · simp
      · next h => rw [h] at hp; exact absurd rfl (hp _)
      · split
        · simp
        · exact enc _ _
    · exact enc _ _

/-- Nor do the async sink's operations, in any order, over any transport, and again even for frames that lie about their size. -/
theorem C69_async_send (ops : List SinkOp) (fw : FramedWrite) (w : Sink) (why : String) : SendRes.panic why ∉ (fw.run ops w).1 := by
  induction ops generalizing fw w with
  | nil => simp [FramedWrite.run]
  | cons op ops ih =>
    intro h
    rcases List.mem_cons.mp h with h | h
    · exact sinkStep_calm fw op w why h.symm
    · exact ih _ _ h

/-! ## Programs -/

/-- The answer is no panic. -/
def OpRes.fine : OpRes → Prop
  | .message r => r.isPanic = false
  | .dataframe r => r.isPanic = false
  | .sent r => r.isPanic = false

/-- A blocking client made by the library does not panic, whatever is sent and received with it in whatever order, and whatever
arrives, as long as less than 2^63 bytes arrive. -/
theorem C69_client_never_panics (ops : List ClientOp) (c : Client) (hb : c.stream.WF) (hr : c.receiver.maxDf ≤ u32Max)
    (hmem : Spec.bytesOf c.receiver.buffer + c.stream.src.flat.length ≤ isizeMax) :
    ∀ x ∈ (Client.run ops c).1, x.fine := by
  have e : Spec.bytesOf = heldLen := rfl
  rw [e] at hmem
  induction ops generalizing c with
  | nil => intro x hx; cases hx
  | cons op ops ih =>
    have key : (c.step op).1.fine ∧ (c.step op).2.stream.WF ∧ (c.step op).2.receiver.maxDf ≤ u32Max ∧
        heldLen (c.step op).2.receiver.buffer + (c.step op).2.stream.src.flat.length ≤ isizeMax := by
      cases op with
      | send v key =>
        refine ⟨?_, hb, hr, hmem⟩
        have := C69_send c.sender v key c.stream.inner.output
        show Res.isPanic (c.sender.send v key c.stream.inner.output).1 = false
        cases hx : (c.sender.send v key c.stream.inner.output).1 with
        | panic e => exact absurd hx (this e)
        | ok _ => rfl
        | err _ => rfl
      | recvDataframe =>
        have h1 := noPanic_frame c.receiver.mask c.receiver.maxDf (Nat.le_trans hr isize_u32) c.stream.src
        have h2 : (c.receiver.recvDataframe c.stream.src).2.flat.length ≤ c.stream.src.flat.length := shrinks_frame _ _ _
        refine ⟨h1, restore_wf hb _, hr, ?_⟩
        show heldLen c.receiver.buffer + (c.stream.restore (c.receiver.recvDataframe c.stream.src).2).src.flat.length ≤ _
        rw [restore_src hb (rem_recvDataframe _ _)]
        omega
      | recvMessage =>
        obtain ⟨h1, h2, h3⟩ := recvMessage_safe c.receiver hr c.stream.src hmem
        refine ⟨h1, restore_wf hb _, ?_, ?_⟩
        · show (c.receiver.recvMessage c.stream.src).2.1.maxDf ≤ _
          rw [h2]; exact hr
        · show heldLen (c.receiver.recvMessage c.stream.src).2.1.buffer +
            (c.stream.restore (c.receiver.recvMessage c.stream.src).2.2).src.flat.length ≤ _
          rw [restore_src hb (rem_recvMessage _ _)]
          exact h3
    intro x hx
    rcases List.mem_cons.mp (show x ∈ (c.step op).1 :: (Client.run ops (c.step op).2).1 from hx) with rfl | hx
    · exact key.1
    · exact ih _ key.2.1 key.2.2.1 key.2.2.2 x hx

/-- The hypotheses hold for a client that has accepted a connection with a frame and a half already buffered. -/
example : let c := Client.uncheckedWithLimits (BufReader.fromParts (⟨[.chunk [1, 2, 3]], ⟨[], []⟩⟩ : Duplex) [9, 9, 0x81, 0x81, 0] 2 5) [] false true 1000 1000
    c.stream.WF ∧ c.receiver.maxDf ≤ u32Max ∧ Spec.bytesOf c.receiver.buffer + c.stream.src.flat.length ≤ isizeMax := by
  refine ⟨⟨by decide, by decide⟩, by decide +kernel, by decide +kernel⟩

/-- A hand-made upgrade without a key: the panic of `C69_accept_exactly` happens. -/
example : @Headers.getKey B64.strict (⟨[], ⟨[], ⟨[], []⟩⟩, ⟨.http11, ⟨.get, ascii "/"⟩, []⟩, none⟩ : SyncUpgrade).request.headers = none := by
  decide +kernel

/-- `C69_accept_partial`, `C69_async_accept_partial`, `C69_accept_parsed_partial` and `C69_refuted`: requests that are taken. -/
example : (∃ u, @intoWs B64.strict reqParser ⟨[.chunk (Spec.Head (ascii "GET /chat HTTP/1.1") sampleLines)], ⟨[], []⟩⟩ = .ok u) ∧
    (∃ u, @asyncIntoWs B64.strict reqParser ⟨[.chunk (Spec.Head (ascii "GET /chat HTTP/1.1") sampleLines)], ⟨[], []⟩⟩ = .ok u) ∧
    ∃ u, @intoWsParsed B64.strict ⟨[], ⟨[], []⟩⟩ (sampleUpgrade []).request none = .ok u :=
  ⟨ok_of_isOk (by decide +kernel), ok_of_isOk (by decide +kernel), ok_of_isOk (by decide +kernel)⟩
/-- `C69_connect_partial`, `C69_async_connect_partial`: calls of every kind, with headers that are text. -/
example : ∀ op ∈ ([.addProtocol (ascii "chat"), .customHeaders [(ascii "X-A", .raw [[0xc3, 0xa9]])], .clearProtocols] : List BOp), GivesText op :=
  givesText_of (by decide +kernel)
example : TextCustom (some [(ascii "Server", .raw [ascii "demo", [0xc3, 0xa9]])]) := textCustom_some (by decide +kernel)
example := C69_async_send [SinkOp.send (OwnedMsg.text [104, 105]).view ⟨1, 2, 3, 4⟩ 0, .flush] (FramedWrite.new true)
  ⟨[], [.accept 1, .error .connectionReset]⟩

end WS
