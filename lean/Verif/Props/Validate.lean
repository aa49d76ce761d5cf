import Verif.Props.Server
import Verif.Props.Response
import Verif.Props.Connect
/-!
# C34: which responses the client accepts
-/

namespace WS

open Spec

theorem upProto_plain (x : Bytes) : UpProto.fromStr x = ⟨.websocket, none⟩ ↔ SameText x (ascii "websocket") := by
  rw [sameText_iff]
  constructor
  · intro h
    have h1 : (UpProto.fromStr x).version = none := by rw [h]
    have h2 : (UpProto.fromStr x).name = .websocket := by rw [h]
    unfold UpProto.fromStr at h1
    by_cases hs : (47 : UInt8) ∈ x
    · simp [splitN, hs] at h1
    · rw [upProto_name, takeWhile_free' hs, protoName_websocket] at h2; exact h2
  · intro h
    have hs := noSlash h (by decide)
    have h2 : (UpProto.fromStr x).name = .websocket := by rw [upProto_name, takeWhile_free' hs, protoName_websocket]; exact h
    have h1 : (UpProto.fromStr x).version = none := by unfold UpProto.fromStr; simp [splitN, hs]
    cases hu : UpProto.fromStr x with
    | mk n v => rw [hu] at h1 h2; simp only at h1 h2; rw [h1, h2]

theorem zip_commaList {vs : List Bytes} {itemss : List (List Bytes)} (hl : vs.length = itemss.length)
    (h : ∀ p ∈ vs.zip itemss, CommaList p.1 p.2) : itemss = vs.map commaItems := by
  induction vs generalizing itemss with
  | nil => cases itemss with
    | nil => rfl
    | cons a t => simp at hl
  | cons v vs ih => cases itemss with
    | nil => simp at hl
    | cons a t =>
      have h1 := h (v, a) (by simp)
      rw [commaList_iff] at h1
      have h2 := ih (itemss := t) (by simpa using hl) (fun p hp => h p (by simp [hp]))
      simp only at h1
      rw [List.map_cons, h2, h1]

theorem listsOnly_iff {P : Bytes → Prop} {vs : List Bytes} : ListsOnly P vs ↔ ∃ x, vs.flatMap commaItems = [x] ∧ P x := by
  constructor
  · rintro ⟨itemss, x, hl, h, hf, hp⟩
    have := zip_commaList hl h
    subst this
    exact ⟨x, by rw [List.flatMap_def]; exact hf, hp⟩
  · rintro ⟨x, hf, hp⟩
    refine ⟨vs.map commaItems, x, by simp, ?_, by rw [← List.flatMap_def]; exact hf, hp⟩
    intro p hmem
    rw [commaList_iff]
    rw [List.zip_map_right, List.mem_map] at hmem
    obtain ⟨q, hq, rfl⟩ := hmem
    obtain ⟨i, hi, he⟩ := List.mem_iff_getElem.mp hq
    rw [List.getElem_zip] at he
    subst he
    rfl

theorem upgrade_only_iff {h : Headers} {vs : List Bytes} (hi : h.item nUpgrade = if vs = [] then none else some (.raw vs)) :
    h.getUpgrade = some [⟨.websocket, none⟩] ↔ (∀ x ∈ vs, IsUtf8 x) ∧ ListsOnly (fun x => SameText x (ascii "websocket")) vs := by
  rw [listsOnly_iff]
  unfold Headers.getUpgrade
  rw [hi]
  by_cases h0 : vs = []
  · subst h0; simp
  · simp only [h0, if_false]
    by_cases hu : ∀ x ∈ vs, IsUtf8 x
    · rw [fromCommaDelimited_some UpProto.fromStr vs hu]
      rw [Option.some.injEq, and_iff_right hu]
      have : (vs.flatMap fun s => (commaItems s).map UpProto.fromStr) = (vs.flatMap commaItems).map UpProto.fromStr := by
        rw [List.map_flatMap]
      rw [this]
      constructor
      · intro he
        cases hx : vs.flatMap commaItems with
        | nil => rw [hx] at he; cases he
        | cons x t =>
          rw [hx] at he
          cases t with
          | nil =>
            refine ⟨x, rfl, (upProto_plain x).mp ?_⟩
            simpa using he
          | cons y t => simp at he
      · rintro ⟨x, hx, hp⟩
        rw [hx, List.map_cons, (upProto_plain x).mpr hp]; rfl
    · rw [fromCommaDelimited_none _ vs hu]
      constructor
      · intro h; cases h
      · intro h; exact absurd h.1 hu

theorem build_connection (b : Builder) (fresh : WsKey) :
    (b.buildRequest fresh).2.headers.getConnection = some [.header (ascii "Upgrade")] := by
  have : (b.buildRequest fresh).2.headers.item nConnection = some (.typed (.connection [.header (ascii "Upgrade")])) := by
    unfold Builder.buildRequest
    simp only [Headers.setConnection, Headers.setUpgrade, Headers.setVersion, Headers.setKey]
    have e1 : eqIgnoreCase nKey nConnection = false := by decide +kernel
    have e2 : eqIgnoreCase nVersion nConnection = false := by decide +kernel
    have e3 : eqIgnoreCase nUpgrade nConnection = false := by decide +kernel
    cases b.keySet <;> cases b.versionSet <;>
      simp only [Bool.not_true, Bool.not_false, if_true, Bool.false_eq_true, if_false,
        item_insert_other e1, item_insert_other e2, item_insert_other e3, item_insert_same]
  unfold Headers.getConnection
  rw [this]

/-- The accept value of a response is right: one line, which decodes to the digest RFC 6455 asks for. -/
def AcceptRight [B64] (key : WsKey) (lines : List (Bytes × Bytes)) : Prop :=
  ∃ vs, Values (ascii "Sec-WebSocket-Accept") lines vs ∧ ∃ s d, OneLine vs s ∧ B64.decode s = some d ∧
    d.map UInt8.toNat = Spec.sha1 ((Spec.base64 (key.bytes.map UInt8.toNat) ++
      "258EAFA5-E914-47DA-95CA-C5AB0DC85B11".toList).map Char.toNat)

/-- The response upgrades to websocket and nothing else. -/
def UpgradeRight (lines : List (Bytes × Bytes)) : Prop :=
  ∃ vs, Values (ascii "Upgrade") lines vs ∧ (∀ x ∈ vs, IsUtf8 x) ∧ ListsOnly (fun x => SameText x (ascii "websocket")) vs

theorem map_toNat_inj {a b : Bytes} (h : a.map UInt8.toNat = b.map UInt8.toNat) : a = b :=
  (List.map_inj_right (fun _ _ h => UInt8.toNat_inj.mp h)).mp h

theorem accept_iff [B64] (key : WsKey) (lines : List (Bytes × Bytes)) :
    (Headers.fromRaw lines).getAccept = some (WsAccept.new key) ↔ AcceptRight key lines := by
  unfold AcceptRight
  rw [exists_values]
  have hi := item_fromRaw lines nAccept
  have hn : ascii "Sec-WebSocket-Accept" = nAccept := rfl
  rw [hn]
  by_cases h0 : valuesOf nAccept lines = []
  · rw [if_pos h0] at hi
    unfold Headers.getAccept
    rw [hi, h0]
    constructor
    · intro h; cases h
    · rintro ⟨s, d, h, _⟩; exact absurd h oneLine_nil
  · rw [if_neg h0] at hi
    rw [getAccept_raw hi]
    constructor
    · rintro ⟨s, h1, h2⟩; exact ⟨s, _, h1, h2, C32_accept_digest key⟩
    · rintro ⟨s, d, h1, h2, h3⟩
      refine ⟨s, h1, ?_⟩
      rw [h2]
      exact congrArg some (map_toNat_inj (h3.trans (C32_accept_digest key).symm))

theorem upgradeRight_iff (lines : List (Bytes × Bytes)) :
    (Headers.fromRaw lines).getUpgrade = some [⟨.websocket, none⟩] ↔ UpgradeRight lines := by
  unfold UpgradeRight
  rw [exists_values]
  exact upgrade_only_iff (item_fromRaw lines nUpgrade)

/-- Every response with status 101 to a request with a key: the first failing condition is reported,
and the response is accepted if none fails. -/
theorem C34_first_failure [B64] (b : Builder) (fresh key : WsKey) (hk : (b.buildRequest fresh).2.headers.getKey = some key)
    (v : HttpVersion) (reason : Bytes) (lines : List (Bytes × Bytes)) :
    FirstFailure [(AcceptRight key lines, .accept), (UpgradeRight lines, .upgrade)]
      (failure ((b.buildRequest fresh).2.validate ⟨v, ⟨101, reason⟩, .fromRaw lines⟩)) := by
  unfold Builder.validate
  simp only [ne_eq, not_true, if_false, hk]
  by_cases h1 : AcceptRight key lines
  · rw [firstFailure_cons_pos h1]
    simp only [(accept_iff key lines).mpr h1, not_true, if_false]
    by_cases h2 : UpgradeRight lines
    · rw [firstFailure_cons_pos h2]
      simp only [(upgradeRight_iff lines).mpr h2, not_true, if_false, build_connection]
      have : connEq [.header (ascii "Upgrade")] [.header (ascii "Upgrade")] = true := by decide +kernel
      rw [if_pos this]; rfl
    · rw [firstFailure_cons_neg h2]
      rw [if_pos (fun h => h2 ((upgradeRight_iff lines).mp h))]; rfl
  · rw [firstFailure_cons_neg h1]
    rw [if_pos (fun h => h1 ((accept_iff key lines).mp h))]; rfl

/-- The status is looked at first: a redirection with a location is reported as such, any other
status but 101 as unexpected. -/
theorem C34_status_reported [B64] (b : Builder) (v : HttpVersion) (code : Nat) (hc : code ≠ 101) (reason : Bytes)
    (lines : List (Bytes × Bytes)) (vs : List Bytes) (hv : Values (ascii "Location") lines vs) :
    (∀ loc, 300 ≤ code → code ≤ 399 → OneLine vs loc →
      b.validate ⟨v, ⟨code, reason⟩, .fromRaw lines⟩ = .error (.redirect code loc)) ∧
    ((code < 300 ∨ 399 < code ∨ ∀ loc, ¬ OneLine vs loc) →
      b.validate ⟨v, ⟨code, reason⟩, .fromRaw lines⟩ = .error (.status code)) := by
  rw [values_iff] at hv
  have hg : (Headers.fromRaw lines).getLocation = fromOneRawStr vs := by
    unfold Headers.getLocation
    have hi := item_fromRaw lines nLocation
    have : vs = valuesOf nLocation lines := hv
    rw [← this] at hi
    rw [hi]
    by_cases h0 : vs = []
    · simp [h0, fromOneRawStr]
    · simp [h0]
  unfold Builder.validate
  simp only [ne_eq, hc, not_false_iff, if_true, hg]
  constructor
  · intro loc h1 h2 h3
    have hr : isRedirection code = true := by unfold isRedirection; simp; omega
    simp only [hr, if_true, fromOneRawStr_iff.mpr h3]
  · intro h
    by_cases hr : isRedirection code = true
    · simp only [hr, if_true]
      unfold isRedirection at hr
      simp only [Bool.and_eq_true, decide_eq_true_eq] at hr
      have h3 : ∀ loc, ¬ OneLine vs loc := by
        rcases h with h | h | h
        · omega
        · omega
        · exact h
      cases hf : fromOneRawStr vs with
      | none => rfl
      | some loc => exact absurd (fromOneRawStr_iff.mp hf) (h3 loc)
    · rw [if_neg hr]

/-- With a decoder that takes canonical base64 only, the accept value is right exactly if it is the text of RFC 6455. -/
theorem C34_accept_text (key : WsKey) (lines : List (Bytes × Bytes)) :
    @AcceptRight B64.strict key lines ↔ ∃ vs, Values (ascii "Sec-WebSocket-Accept") lines vs ∧
      ∃ s, OneLine vs s ∧ chars s = acceptText (key.bytes.map UInt8.toNat) := by
  unfold AcceptRight acceptText
  constructor
  · rintro ⟨vs, hv, s, d, h1, h2, h3⟩
    refine ⟨vs, hv, s, h1, ?_⟩
    rw [← h3, ← b64Encode_spec, ← strict_some h2]
  · rintro ⟨vs, hv, s, h1, h2⟩
    refine ⟨vs, hv, s, (WsAccept.new key).bytes, h1, ?_, C32_accept_digest key⟩
    rw [← C32_accept_digest, ← b64Encode_spec] at h2
    rw [chars_inj h2]
    exact strict_encode _

/-- Without a key in the request no response is accepted. -/
theorem C34_no_key [B64] (b : Builder) (h : b.headers.getKey = none) (v : HttpVersion) (reason : Bytes) (hs : Headers) :
    b.validate ⟨v, ⟨101, reason⟩, hs⟩ = .error .request := by
  unfold Builder.validate
  simp [h]

/-- Exactly which responses are accepted. -/
theorem C34_accepts_exactly [B64] (b : Builder) (fresh key : WsKey) (hk : (b.buildRequest fresh).2.headers.getKey = some key)
    (v : HttpVersion) (code : Nat) (reason : Bytes) (lines : List (Bytes × Bytes)) :
    (b.buildRequest fresh).2.validate ⟨v, ⟨code, reason⟩, .fromRaw lines⟩ = .ok () ↔
      code = 101 ∧ AcceptRight key lines ∧ UpgradeRight lines := by
  by_cases hc : code = 101
  · subst hc
    have h := C34_first_failure b fresh key hk v reason lines
    cases hx : (b.buildRequest fresh).2.validate ⟨v, ⟨101, reason⟩, .fromRaw lines⟩ with
    | ok u =>
      rw [hx] at h
      simp only [failure, firstFailure_none] at h
      simp only [true_and, true_iff]
      exact ⟨h (AcceptRight key lines, ConnectErr.accept) (by simp), h (UpgradeRight lines, ConnectErr.upgrade) (by simp)⟩
    | error e =>
      rw [hx] at h
      constructor
      · intro h; cases h
      · rintro ⟨-, h1, h2⟩
        have hn : FirstFailure [(AcceptRight key lines, ConnectErr.accept), (UpgradeRight lines, .upgrade)] none := by
          rw [firstFailure_none]; simp [h1, h2]
        have := firstFailure_unique _ h hn
        cases this
  · constructor
    · intro h
      have := C34_status_reported (b.buildRequest fresh).2 v code hc reason lines _ (values_iff.mpr rfl)
      rw [h] at this
      by_cases hr : 300 ≤ code ∧ code ≤ 399 ∧ ∃ loc, OneLine (valuesOf (ascii "Location") lines) loc
      · obtain ⟨h1, h2, loc, h3⟩ := hr
        have := this.1 loc h1 h2 h3; cases this
      · have := this.2 (by
          by_cases h1 : 300 ≤ code
          · by_cases h2 : code ≤ 399
            · right; right; intro loc hl; exact hr ⟨h1, h2, loc, hl⟩
            · right; left; omega
          · left; omega)
        cases this
    · intro h; exact absurd h.1 hc

/-- The property as stated, for responses whose Connection header is Upgrade. Missing: the Connection
header of the response is not looked at (see `C34_refuted_connection`). -/
theorem C34_accepts_iff_partial [B64] (b : Builder) (fresh key : WsKey) (hk : (b.buildRequest fresh).2.headers.getKey = some key)
    (v : HttpVersion) (code : Nat) (reason : Bytes) (lines : List (Bytes × Bytes))
    (hconn : ∃ vs, Values (ascii "Connection") lines vs ∧ ListsOnly (fun x => SameText x (ascii "upgrade")) vs) :
    (b.buildRequest fresh).2.validate ⟨v, ⟨code, reason⟩, .fromRaw lines⟩ = .ok () ↔
      code = 101 ∧ AcceptRight key lines ∧ UpgradeRight lines ∧
      ∃ vs, Values (ascii "Connection") lines vs ∧ ListsOnly (fun x => SameText x (ascii "upgrade")) vs := by
  rw [C34_accepts_exactly b fresh key hk]
  simp [hconn]

/-- The lines of a correct answer to the sample key. -/
def answerLines : List (Bytes × Bytes) :=
  [(ascii "upgrade", ascii "WebSocket"), (ascii "Connection", ascii "upgrade"),
   (ascii "Sec-WebSocket-Accept", ascii "s3pPLMBiTxaQ9kYGzzhZRbK+xOo=")]

/-- The property as stated fails: a 101 response with `Connection: close` is accepted, because the
client looks at the Connection header of its own request (src/client/builder.rs:927). -/
theorem C34_refuted_connection :
    let lines := [(ascii "upgrade", ascii "WebSocket"), (ascii "Connection", ascii "close"),
      (ascii "Sec-WebSocket-Accept", ascii "s3pPLMBiTxaQ9kYGzzhZRbK+xOo=")]
    Values (ascii "Connection") lines [ascii "close"] ∧
      failure (@Builder.validate B64.strict ((Builder.init sampleUrl).buildRequest sampleKey).2
        ⟨.http11, ⟨101, []⟩, .fromRaw lines⟩) = none := by
  refine ⟨values_iff.mpr (by decide +kernel), by decide +kernel⟩

/-- The hypotheses are met. -/
example : @Headers.getKey B64.strict ((Builder.init sampleUrl).buildRequest sampleKey).2.headers = some sampleKey := by decide +kernel
example : ∃ vs, Values (ascii "Connection") answerLines vs ∧ ListsOnly (fun x => SameText x (ascii "upgrade")) vs := by
  refine ⟨[ascii "upgrade"], values_iff.mpr (by decide +kernel), listsOnly_iff.mpr ⟨ascii "upgrade", by decide +kernel, ?_⟩⟩
  rw [sameText_iff]; decide +kernel
example : failure (@Builder.validate B64.strict ((Builder.init sampleUrl).buildRequest sampleKey).2
    ⟨.http11, ⟨101, []⟩, .fromRaw answerLines⟩) = none := by decide +kernel
/-- Another key, another accept value. -/
example : failure (@Builder.validate B64.strict ((Builder.init sampleUrl).buildRequest ⟨ascii "The sample nonce", by decide⟩).2
    ⟨.http11, ⟨101, []⟩, .fromRaw answerLines⟩) = some .accept := by decide +kernel
example : failure (@Builder.validate B64.strict ((Builder.init sampleUrl).buildRequest sampleKey).2
    ⟨.http11, ⟨302, []⟩, .fromRaw [(ascii "location", ascii "/x")]⟩) = some (.redirect 302 (ascii "/x")) := by decide +kernel
example : failure (@Builder.validate B64.strict ((Builder.init sampleUrl).buildRequest sampleKey).2
    ⟨.http11, ⟨101, []⟩, .fromRaw [(ascii "upgrade", ascii "websocket, h2c"), (ascii "Sec-WebSocket-Accept", ascii "s3pPLMBiTxaQ9kYGzzhZRbK+xOo=")]⟩) =
  some .upgrade := by decide +kernel

/-! The theorems above for this client and these answers. -/

theorem sampleKey_sent : @Headers.getKey B64.strict ((Builder.init sampleUrl).buildRequest sampleKey).2.headers = some sampleKey := by
  decide +kernel
example := @C34_first_failure B64.strict (Builder.init sampleUrl) sampleKey sampleKey sampleKey_sent .http11 [] answerLines
example := @C34_status_reported B64.strict (Builder.init sampleUrl) .http11 302 (by decide) [] [(ascii "location", ascii "/x")]
  [ascii "/x"] (values_iff.mpr (by decide +kernel))
/-- A custom header takes the place of the key. -/
example := @C34_no_key B64.strict ((Builder.init sampleUrl).run [.customHeaders [(nKey, .raw [ascii "short"])]]) (by decide +kernel) .http11 []
  (.fromRaw answerLines)
example := @C34_accepts_exactly B64.strict (Builder.init sampleUrl) sampleKey sampleKey sampleKey_sent .http11 101 [] answerLines
example := @C34_accepts_iff_partial B64.strict (Builder.init sampleUrl) sampleKey sampleKey sampleKey_sent .http11 101 [] answerLines
  ⟨[ascii "upgrade"], values_iff.mpr (by decide +kernel), listsOnly_iff.mpr ⟨ascii "upgrade", by decide +kernel,
    by rw [sameText_iff]; decide +kernel⟩⟩

end WS
