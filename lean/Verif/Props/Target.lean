import Verif.Props.Builder
import Verif.Props.Connect
import Verif.Spec.Target
/-!
# C58: the request names the resource, the host and the credentials of the URL
-/

namespace WS

open Spec

theorem digitChar_byte (d : Nat) (h : d < 10) : UInt8.ofNat (Nat.digitChar d).toNat = UInt8.ofNat (48 + d) := by
  have : ∀ i : Fin 10, UInt8.ofNat (Nat.digitChar i.1).toNat = UInt8.ofNat (48 + i.1) := by decide
  exact this ⟨d, h⟩

theorem decimal_spec (n : Nat) : Decimal n (decimal n) := by
  induction n using Nat.strongRecOn with
  | ind n ih =>
    have e : decimal n = (Nat.toDigits 10 n).map fun c => UInt8.ofNat c.toNat := by
      simp only [decimal, ascii, Nat.toString_eq_repr, Nat.toList_repr]
    rw [e, Nat.toDigits_eq_if (by decide)]
    by_cases h : n < 10
    · rw [if_pos h]
      simp only [List.map_cons, List.map_nil, digitChar_byte n h]
      exact .one h
    · rw [if_neg h]
      have i := ih (n / 10) (by omega)
      have e' : decimal (n / 10) = (Nat.toDigits 10 (n / 10)).map fun c => UInt8.ofNat c.toNat := by
        simp only [decimal, ascii, Nat.toString_eq_repr, Nat.toList_repr]
      rw [e'] at i
      have := Decimal.more (n := n / 10) (d := n % 10) (by omega) (by omega) i
      rw [show 10 * (n / 10) + n % 10 = n by omega] at this
      simpa [digitChar_byte (n % 10) (by omega)] using this

theorem decimal_last {n : Nat} {ds : Bytes} (h : Decimal n ds) : ∃ d, d < 10 ∧ ds.getLast? = some (UInt8.ofNat (48 + d)) := by
  cases h with
  | one h => exact ⟨_, h, rfl⟩
  | more hn hd h => exact ⟨_, hd, by simp⟩

theorem digit_not_blank {d : Nat} (h : d < 10) : UInt8.ofNat (48 + d) ≠ 32 := by
  have : ∀ i : Fin 10, UInt8.ofNat (48 + i.1) ≠ 32 := by decide
  exact this ⟨d, h⟩

theorem digit_inline {d : Nat} (h : d < 10) : UInt8.ofNat (48 + d) ≠ 13 ∧ UInt8.ofNat (48 + d) ≠ 10 := by
  have : ∀ i : Fin 10, UInt8.ofNat (48 + i.1) ≠ 13 ∧ UInt8.ofNat (48 + i.1) ≠ 10 := by decide
  exact this ⟨d, h⟩

theorem decimal_inline {n : Nat} {ds : Bytes} (h : Decimal n ds) : Inline ds := by
  induction h with
  | one h => have := digit_inline h; exact ⟨by simpa using this.1.symm, by simpa using this.2.symm⟩
  | more hn hd h ih => have := digit_inline hd; exact inline_append ih ⟨by simpa using this.1.symm, by simpa using this.2.symm⟩

theorem decimal_plain {n : Nat} {ds : Bytes} (h : Decimal n ds) : ∀ c ∈ ds, 32 ≤ c ∧ c ≠ 127 := by
  have key : ∀ i : Fin 10, 32 ≤ UInt8.ofNat (48 + i.1) ∧ UInt8.ofNat (48 + i.1) ≠ 127 := by decide
  induction h with
  | one h => intro c hc; rw [List.mem_singleton.mp hc]; exact key ⟨_, h⟩
  | more hn hd h ih =>
    intro c hc
    rcases List.mem_append.mp hc with hc | hc
    · exact ih c hc
    · rw [List.mem_singleton.mp hc]; exact key ⟨_, hd⟩

/-- Digits determine the number. -/
theorem decimal_inj {n m : Nat} {ds : Bytes} (h : Decimal n ds) (g : Decimal m ds) : n = m := by
  have digit : ∀ {a b : Nat}, a < 10 → b < 10 → UInt8.ofNat (48 + a) = UInt8.ofNat (48 + b) → a = b := by
    intro a b ha hb he
    have : ∀ i j : Fin 10, UInt8.ofNat (48 + i.1) = UInt8.ofNat (48 + j.1) → i = j := by decide
    exact congrArg Fin.val (this ⟨a, ha⟩ ⟨b, hb⟩ he)
  have nonempty : ∀ {n ds}, Decimal n ds → ds ≠ [] := by
    intro n ds h
    cases h <;> simp
  induction h generalizing m with
  | @one d hd =>
    generalize hx : [UInt8.ofNat (48 + d)] = x at g
    cases g with
    | one hd' => simp only [List.cons.injEq, and_true] at hx; exact digit hd hd' hx
    | @more n' d' ds' hn' hd' h' =>
      cases ds' with
      | nil => exact absurd rfl (nonempty h')
      | cons a l => simp at hx
  | @more n d ds hn hd h ih =>
    generalize hx : ds ++ [UInt8.ofNat (48 + d)] = x at g
    cases g with
    | one hd' =>
      cases ds with
      | nil => exact absurd rfl (nonempty h)
      | cons a l => simp at hx
    | @more n' d' ds' hn' hd' h' =>
      obtain ⟨h1, h2⟩ := List.append_inj' hx rfl
      subst h1
      rw [ih h', digit hd hd' (by simpa using h2)]

/-- C58: the start line asks for path and query of the URL. -/
theorem C58_request_line (url : Url) :
    requestStart url = ascii "GET " ++ url.path ++ (match url.query with | some q => ascii "?" ++ q | none => []) ++ ascii " HTTP/1.1" := by
  unfold requestStart Url.resource
  cases url.query with
  | none => simp
  | some q =>
    have : ascii "?" = [63] := by decide
    simp [this]

/-- C58: the fragment of the URL has no influence on anything that is sent, read, dialled or decided (RFC 6455 section 3). -/
theorem C58_fragment_stays_home [B64] (p : ResParser) (net : Net) (v : Variant) (fresh : WsKey) (url : Url) (ops : List BOp) (f : Option Bytes) :
    (((Builder.init { url with fragment := f }).run ops).connect p net v fresh).1 = (((Builder.init url).run ops).connect p net v fresh).1 ∧
    (((Builder.init { url with fragment := f }).run ops).connect p net v fresh).2.2 = (((Builder.init url).run ops).connect p net v fresh).2.2 := by
  have hrun : ∀ (b : Builder) (ops : List BOp), ({ b with url := { b.url with fragment := f } } : Builder).run ops =
      { b.run ops with url := { (b.run ops).url with fragment := f } } := by
    intro b ops
    induction ops generalizing b with
    | nil => rfl
    | cons op ops ih =>
      rw [run_cons, run_cons, ← ih]
      congr 1
      cases op <;> rfl
  have e := hrun (Builder.init url) ops
  have e0 : (Builder.init { url with fragment := f } : Builder) = { Builder.init url with url := { (Builder.init url).url with fragment := f } } := rfl
  rw [e0, e]
  generalize (Builder.init url).run ops = b
  have ho : Builder.openStream net v { b with url := { b.url with fragment := f } } = b.openStream net v := rfl
  have hv : ∀ (c : Builder) r, Builder.validate { c with url := { c.url with fragment := f } } r = c.validate r := fun _ _ => rfl
  have hc : ∀ d, (Builder.connectOn p fresh d { b with url := { b.url with fragment := f } }).1 = (b.connectOn p fresh d).1 := by
    intro d
    have hb : Builder.buildRequest fresh { b with url := { b.url with fragment := f } } =
        ((b.buildRequest fresh).1, { (b.buildRequest fresh).2 with url := { (b.buildRequest fresh).2.url with fragment := f } }) := rfl
    unfold Builder.connectOn
    rw [hb]
    cases b.buildRequest fresh with
    | mk resource b1 =>
      simp only
      split
      · rfl
      split
      · rfl
      · split
        · rfl
        · rw [hv]
          split <;> rfl
  unfold Builder.connect
  rw [ho]
  cases b.openStream net v with
  | mk r calls =>
    cases r with
    | error e => exact ⟨rfl, rfl⟩
    | ok d =>
      have := hc d
      simp only
      cases h1 : Builder.connectOn p fresh d { b with url := { b.url with fragment := f } } with
      | mk r1 b1 =>
        cases h2 : b.connectOn p fresh d with
        | mk r2 b2 =>
          rw [h1, h2] at this
          exact ⟨this, trivial⟩

/-- C58, for URLs whose explicit port, if any, is neither 80 nor 443: one Host line, and it names the host and the port the URL designates.
Missing for the full property: an explicit port 80 or 443 that is not the default of the scheme, see `C58_refuted_host_port`. -/
theorem C58_host_partial (url : Url) (ops : List BOp) (fresh : WsKey) (host : Bytes) (h : url.host = some host) (hb : host.getLast? ≠ some 32) (hn : Inline host)
    (hp : ∀ p, url.port = some p → p ≠ 80 ∧ p ≠ 443) :
    ∃ text, Values (ascii "Host") (requestLines url ops fresh) [text] ∧
      ∀ port dflt, DesignatedPort url.scheme url.port port → DesignatedPort url.scheme none dflt → NamesHost dflt host port text := by
  have hl : (url.hostHeader.getLast? ≠ some 32 ∧ Inline url.hostHeader) ∧
      ∀ port dflt, DesignatedPort url.scheme url.port port → DesignatedPort url.scheme none dflt → NamesHost dflt host port url.hostHeader := by
    unfold Url.hostHeader
    rw [h]
    simp only
    cases hq : url.port with
    | none =>
      refine ⟨⟨hb, hn⟩, fun port dflt h1 h2 => ?_⟩
      have hx : ascii "wss" ≠ ascii "ws" ∧ ascii "wss" ≠ ascii "http" ∧ ascii "https" ≠ ascii "ws" ∧ ascii "https" ≠ ascii "http" := by decide
      have : port = dflt := by
        unfold DesignatedPort Secure at h1 h2
        grind
      subst this
      exact .plain
    | some p =>
      obtain ⟨h1, h2⟩ := hp p hq
      simp only [h1, h2, or_self, if_false]
      refine ⟨⟨?_, ?_⟩, ?_⟩
      · obtain ⟨d, hd, he⟩ := decimal_last (decimal_spec p)
        rw [List.getLast?_append, List.getLast?_cons, he]
        simp only [Option.getD_some, Option.some_or, ne_eq, Option.some.injEq]
        exact digit_not_blank hd
      · refine inline_append hn ?_
        have hd := decimal_inline (decimal_spec p)
        unfold Inline at *
        simp [hd]
      · intro port dflt g1 g2
        have : port = p := by
          unfold DesignatedPort at g1
          simp at g1
          exact g1.symm
        subst this
        exact .withPort (decimal_spec port)
  exact ⟨_, C37_host_line url ops fresh (by rw [h]; simp) hl.1.1 hl.1.2, hl.2⟩

/-- C58 refuted (host): for `wss://example.com:80/` the request is the same as for `wss://example.com/`, although different ports are dialled. -/
theorem C58_refuted_host_port (ops : List BOp) (fresh : WsKey) :
    let url : Url := { sampleUrl with port := some 80 }
    requestLines url ops fresh = requestLines sampleUrl ops fresh ∧
    Builder.extractHostPort none (Builder.init url) = .ok (ascii "example.com", 80) ∧
    Builder.extractHostPort none (Builder.init sampleUrl) = .ok (ascii "example.com", 443) := by
  refine ⟨?_, rfl, rfl⟩
  unfold requestLines
  have hrun : ∀ (b : Builder) (ops : List BOp), ({ b with url := { b.url with port := some 80 } } : Builder).run ops =
      { b.run ops with url := { (b.run ops).url with port := some 80 } } := by
    intro b ops
    induction ops generalizing b with
    | nil => rfl
    | cons op ops ih =>
      rw [run_cons, run_cons, ← ih]
      congr 1
      cases op <;> rfl
  have e := hrun (Builder.init sampleUrl) ops
  have e0 : (Builder.init { sampleUrl with port := some 80 } : Builder) = { Builder.init sampleUrl with url := { (Builder.init sampleUrl).url with port := some 80 } } := rfl
  rw [e0, e]
  have hu := (run_fixed (Builder.init sampleUrl) ops).1
  generalize (Builder.init sampleUrl).run ops = b at hu
  have : b.url = sampleUrl := hu
  cases b with
  | mk u a b c d e f =>
    simp only at this
    subst this
    rfl

theorem build_auth (b : Builder) (fresh : WsKey) : (b.buildRequest fresh).2.headers.item nAuthorization =
    if b.url.username ≠ [] then some (.typed (.other b.url.basicHeader)) else b.headers.item nAuthorization := by
  have h1 : eqIgnoreCase nKey nAuthorization = false := by decide +kernel
  have h2 : eqIgnoreCase nHost nAuthorization = false := by decide +kernel
  have h3 : eqIgnoreCase nConnection nAuthorization = false := by decide +kernel
  have h4 : eqIgnoreCase nUpgrade nAuthorization = false := by decide +kernel
  have h5 : eqIgnoreCase nVersion nAuthorization = false := by decide +kernel
  unfold Builder.buildRequest
  simp only [Headers.setConnection, Headers.setUpgrade, Headers.setVersion, Headers.setKey]
  cases b.url.host <;>
  by_cases hn : b.url.username = [] <;> cases b.versionSet <;> cases b.keySet <;>
    simp only [hn, ne_eq, not_true, not_false_iff, if_true, if_false, Bool.not_true, Bool.not_false, Bool.false_eq_true, item_insert_same,
      item_insert_other h1, item_insert_other h2, item_insert_other h3, item_insert_other h4, item_insert_other h5]

theorem basic_inline (b : Bytes) : Inline (ascii "Basic " ++ b64Encode b) := by
  refine inline_append (by decide) ⟨fun h => ?_, fun h => ?_⟩ <;> exact absurd (b64Encode_visible h).1 (by decide)

theorem basic_last (b : Bytes) (x : Bytes) (hx : x ≠ []) : (ascii "Basic " ++ b64Encode (b ++ x)).getLast? ≠ some 32 := by
  have hl := b64Encode_length (b ++ x)
  have hp : 0 < (b ++ x).length := by
    cases x with
    | nil => exact absurd rfl hx
    | cons a l => simp only [List.length_append, List.length_cons]; omega
  have hne : b64Encode (b ++ x) ≠ [] := by intro h0; rw [h0] at hl; simp only [List.length_nil] at hl; omega
  rw [List.getLast?_append]
  cases hz : (b64Encode (b ++ x)).getLast? with
  | none => exact absurd (List.getLast?_eq_none_iff.mp hz) hne
  | some c =>
    simp only [Option.some_or]
    intro h
    rw [h] at hz
    exact b64_last _ hz

theorem percent_id {t m : Bytes} (h : PercentEncodes t m) (hn : 37 ∉ t) : m = t := by
  induction h with
  | nil => rfl
  | plain hc h ih => rw [ih (by simp at hn; exact hn.2)]
  | coded => simp at hn

/-- C58, credentials written without percent-encoding: a URL with a user name causes exactly one Authorization line, which carries this user and password,
whatever builder calls were made. Missing for the full property: user names and passwords with encoded characters, see `C58_refuted_encoded_credentials`. -/
theorem C58_authorization_partial (url : Url) (ops : List BOp) (fresh : WsKey) (h : url.username ≠ []) (hu : 37 ∉ url.username)
    (hp : 37 ∉ url.password.getD []) (user password : Bytes) (hue : PercentEncodes url.username user) (hpe : PercentEncodes (url.password.getD []) password) :
    ∃ value, Values (ascii "Authorization") (requestLines url ops fresh) [value] ∧ BasicCredentials user password value := by
  have e1 := percent_id hue hu
  have e2 := percent_id hpe hp
  subst e1
  subst e2
  have hq := unique_build (unique_init url ops) fresh
  have e : ((Builder.init url).run ops).url = url := (run_fixed (Builder.init url) ops).1
  have hb := build_auth ((Builder.init url).run ops) fresh
  rw [e, if_pos h] at hb
  have hv := values_of_item hq hb
  have hl := basic_last url.username (58 :: url.password.getD []) (by simp)
  simp only [HItem.lines, HVal.fmt, List.map_cons, List.map_nil] at hv
  unfold Url.basicHeader at hv
  rw [oneLine_inline (basic_inline _)] at hv
  rw [trimSpacesEnd_id hl] at hv
  refine ⟨_, hv, b64Encode (url.username ++ 58 :: url.password.getD []), ?_, b64Encode_spec _⟩
  have : ascii "Basic " = [66, 97, 115, 105, 99, 32] := by decide
  rw [this]

/-- C58: the Authorization value determines user and password, if the user name has no colon (as a URL guarantees). -/
theorem C58_credentials_determined (u p u' p' value : Bytes) (h : BasicCredentials u p value) (h' : BasicCredentials u' p' value) (hu : 58 ∉ u) (hu' : 58 ∉ u') :
    u = u' ∧ p = p' := by
  obtain ⟨t, h1, h2⟩ := h
  obtain ⟨t', g1, g2⟩ := h'
  rw [h1] at g1
  have := List.append_cancel_left g1
  subst this
  rw [h2, ← b64Encode_spec, ← b64Encode_spec] at g2
  have := b64Encode_inj (chars_inj g2)
  clear h1 h2 g1 g2
  induction u generalizing u' with
  | nil =>
    cases u' with
    | nil => simpa using this
    | cons a l => simp only [List.nil_append, List.cons_append, List.cons.injEq] at this; simp [← this.1] at hu'
  | cons a l ih =>
    cases u' with
    | nil => simp only [List.nil_append, List.cons_append, List.cons.injEq] at this; simp [this.1] at hu
    | cons b l' =>
      simp only [List.cons_append, List.cons.injEq] at this
      obtain ⟨h1, h2⟩ := ih l' (by simp at hu; exact hu.2) (by simp at hu'; exact hu'.2) this.2
      exact ⟨by rw [this.1, h1], h2⟩

/-- C58: without a user name in the URL the Authorization lines are those set by the program, if any. -/
theorem C58_no_user (url : Url) (ops : List BOp) (fresh : WsKey) (h : url.username = []) :
    (∀ op ∈ ops, KeepsOff (ascii "Authorization") op) → Values (ascii "Authorization") (requestLines url ops fresh) [] := by
  intro hk
  have hq := unique_build (unique_init url ops) fresh
  have e : ((Builder.init url).run ops).url = url := (run_fixed (Builder.init url) ops).1
  have hb := build_auth ((Builder.init url).run ops) fresh
  rw [e, if_neg (by simp [h])] at hb
  refine values_of_none hq ?_
  show Headers.item nAuthorization _ = none
  rw [hb, run_item (by simp [Builder.init, Headers.Unique])]
  · rfl
  · intro op ho
    have := hk op ho
    cases op with
    | customHeaders h =>
      simp only [BOp.touches, List.any_eq_false]
      intro e he
      have := this e he
      rwa [sameText_iff] at this
    | clearHeader n =>
      have : ¬ SameText n nAuthorization := this
      rw [sameText_iff] at this
      simpa [BOp.touches] using this
    | _ => simp only [BOp.touches] <;> decide +kernel

/-- C58 refuted (credentials): the user `a b`, written `a%20b` in the URL, is announced as `a%20b`: the value carries other credentials. -/
theorem C58_refuted_encoded_credentials (ops : List BOp) (fresh : WsKey) :
    let url : Url := { sampleUrl with username := ascii "a%20b", password := some (ascii "c") }
    PercentEncodes url.username (ascii "a b") ∧
    ∃ value, Values (ascii "Authorization") (requestLines url ops fresh) [value] ∧ ¬ BasicCredentials (ascii "a b") (ascii "c") value := by
  intro url
  refine ⟨?_, ?_⟩
  · show PercentEncodes [97, 37, 50, 48, 98] [97, 32, 98]
    exact .plain (by decide) (.coded (a := 2) (b := 0) (.inl (by decide)) (.inl (by decide)) (.plain (by decide) .nil))
  · have hq := unique_build (unique_init url ops) fresh
    have e : ((Builder.init url).run ops).url = url := (run_fixed (Builder.init url) ops).1
    have hb := build_auth ((Builder.init url).run ops) fresh
    rw [e, if_pos (by decide +kernel)] at hb
    have hv := values_of_item hq hb
    have hl := basic_last url.username (58 :: url.password.getD []) (by simp)
    simp only [HItem.lines, HVal.fmt, List.map_cons, List.map_nil] at hv
    unfold Url.basicHeader at hv
    rw [oneLine_inline (basic_inline _)] at hv
    rw [trimSpacesEnd_id hl] at hv
    refine ⟨_, hv, ?_⟩
    intro hx
    have hy : BasicCredentials url.username (url.password.getD []) (ascii "Basic " ++ b64Encode (url.username ++ 58 :: url.password.getD [])) := by
      refine ⟨b64Encode (url.username ++ 58 :: url.password.getD []), ?_, b64Encode_spec _⟩
      have : ascii "Basic " = [66, 97, 115, 105, 99, 32] := by decide
      rw [this]
    have := (C58_credentials_determined _ _ _ _ _ hx hy (by decide +kernel) (by decide +kernel)).1
    exact absurd this (by decide +kernel)

/-- C58 refuted (password without user): `wss://:secret@example.com/` is sent without credentials. -/
theorem C58_refuted_password_only (fresh : WsKey) :
    Values (ascii "Authorization") (requestLines { sampleUrl with password := some (ascii "secret") } [] fresh) [] :=
  C58_no_user _ _ _ rfl (by simp)

/-- The example of the test in src/client/builder.rs:1038-1045, with a port. -/
example : requestLines { sampleUrl with port := some 8080, username := ascii "john", password := some (ascii "pswd") } [] sampleKey =
    [(ascii "Host", ascii "example.com:8080"), (ascii "Authorization", ascii "Basic am9objpwc3dk"),
     (ascii "Connection", ascii "Upgrade"), (ascii "Upgrade", ascii "websocket"), (ascii "Sec-WebSocket-Version", ascii "13"),
     (ascii "Sec-WebSocket-Key", ascii "dGhlIHNhbXBsZSBub25jZQ==")] := by decide +kernel

/-- The hypotheses can be met. -/
example : PercentEncodes (ascii "john") (ascii "john") :=
  .plain (by decide) (.plain (by decide) (.plain (by decide) (.plain (by decide) .nil)))

example : requestStart sampleUrl = ascii "GET /chat?x=1 HTTP/1.1" := by decide +kernel

example : Decimal 8080 (ascii "8080") := decimal_spec 8080

example := C58_host_partial { sampleUrl with port := some 8080 } [] sampleKey (ascii "example.com") rfl (by decide) (by unfold Inline; decide)
  (by rintro p ⟨⟩; decide)
example := C58_authorization_partial { sampleUrl with username := ascii "john", password := some (ascii "pw") } [] sampleKey (by decide) (by decide)
  (by decide) (ascii "john") (ascii "pw") (.plain (by decide) (.plain (by decide) (.plain (by decide) (.plain (by decide) .nil))))
  (.plain (by decide) (.plain (by decide) .nil))
/-- A password with a colon in it. -/
example := C58_credentials_determined (ascii "john") (ascii "p:w") (ascii "john") (ascii "p:w") (ascii "Basic am9objpwOnc=")
  ⟨ascii "am9objpwOnc=", by decide, by decide +kernel⟩ ⟨ascii "am9objpwOnc=", by decide, by decide +kernel⟩ (by decide) (by decide)
example := C58_no_user sampleUrl [.origin (ascii "x")] sampleKey rfl (by
  intro op ho
  rw [List.mem_singleton] at ho
  subst ho
  trivial)

end WS
