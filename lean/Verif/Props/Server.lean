import Verif.Lemmas.Handshake
import Verif.Lemmas.Base64
/-!
# C33: which requests the server accepts
-/

namespace WS

open Spec

/-! ## Conditions, for every kind of header map -/

/-- The version header, if it is a single readable line, says 13. -/
def VersionOk : Option HItem → Prop
  | some (.raw vs) => ∀ s, OneLine vs s → s = ascii "13"
  | some (.typed (.version v)) => v = .ws13
  | _ => True

/-- There is a key of sixteen bytes in base64 on a single line. -/
def KeyOk [B64] : Option HItem → Prop
  | some (.raw vs) => ∃ s k, OneLine vs s ∧ B64.decode s = some k ∧ k.length = 16
  | some (.typed (.key _)) => True
  | _ => False

/-- There is an `Upgrade` header, in UTF-8. -/
def UpgradeReadable : Option HItem → Prop
  | some (.raw vs) => ∀ x ∈ vs, IsUtf8 x
  | some (.typed (.upgrade _)) => True
  | _ => False

/-- It lists `websocket`. -/
def UpgradeOk : Option HItem → Prop
  | some (.raw vs) => Lists NamesWebsocket vs
  | some (.typed (.upgrade l)) => ∃ v, ⟨.websocket, v⟩ ∈ l
  | _ => False

/-- There is a `Connection` header, in UTF-8. -/
def ConnectionReadable : Option HItem → Prop
  | some (.raw vs) => ∀ x ∈ vs, IsUtf8 x
  | some (.typed (.connection _)) => True
  | _ => False

/-- It lists `upgrade`. -/
def ConnectionOk : Option HItem → Prop
  | some (.raw vs) => Lists (fun x => SameText x (ascii "upgrade")) vs
  | some (.typed (.connection l)) => ∃ x, .header x ∈ l ∧ SameText x (ascii "upgrade")
  | _ => False

/-- The conditions in the order in which they are reported. -/
def mapConditions [B64] (m : Method) (v : HttpVersion) (h : Headers) : List (Prop × IntoWsErr) :=
  [(m = .get, .methodNotGet),
   (v = .http11 ∨ v = .http20, .unsupportedHttpVersion),
   (VersionOk (h.item (ascii "Sec-WebSocket-Version")), .unsupportedWebsocketVersion),
   (KeyOk (h.item (ascii "Sec-WebSocket-Key")), .noSecWsKeyHeader),
   (UpgradeReadable (h.item (ascii "Upgrade")), .noUpgradeHeader),
   (UpgradeOk (h.item (ascii "Upgrade")), .noWsUpgradeHeader),
   (ConnectionReadable (h.item (ascii "Connection")), .noConnectionHeader),
   (ConnectionOk (h.item (ascii "Connection")), .noWsConnectionHeader)]

/-- The error of a result. -/
def failure {ε α} : Except ε α → Option ε
  | .ok _ => none
  | .error e => some e

theorem firstFailure_cons_pos {ε} {c : Prop} {e : ε} {rest r} (h : c) :
    FirstFailure ((c, e) :: rest) r ↔ FirstFailure rest r := by simp [FirstFailure, h]

theorem firstFailure_cons_neg {ε} {c : Prop} {e : ε} {rest r} (h : ¬ c) :
    FirstFailure ((c, e) :: rest) r ↔ r = some e := by simp [FirstFailure, h]

theorem versionOk_iff (h : Headers) :
    versionRejected h.getVersion = true ↔
      ¬ VersionOk (h.item nVersion) := by
  unfold Headers.getVersion VersionOk
  cases hi : h.item nVersion with
  | none => simp [versionRejected]
  | some it =>
    cases it with
    | raw vs =>
      simp only
      rw [version_raw]
      simp
    | typed v => cases v <;> simp [versionRejected]

theorem keyOk_iff [B64] (h : Headers) : h.getKey = none ↔ ¬ KeyOk (h.item nKey) := by
  cases hi : h.item nKey with
  | none => simp [Headers.getKey, KeyOk, hi]
  | some it =>
    cases it with
    | typed v => cases v <;> simp [Headers.getKey, KeyOk, hi]
    | raw vs =>
      have hk := getKey_raw (h := h) hi
      simp only [KeyOk]
      constructor
      · rintro h0 ⟨s, k, h1, h2, h3⟩
        have := (hk ⟨k, h3⟩).mpr ⟨s, h1, h2⟩
        rw [h0] at this; cases this
      · intro h0
        cases hg : h.getKey with
        | none => rfl
        | some k =>
          obtain ⟨s, h1, h2⟩ := (hk k).mp hg
          exact absurd ⟨s, k.bytes, h1, h2, k.len⟩ h0

/-- Every request, every header map: the first failing condition is reported, and the request is
accepted if none fails. -/
theorem C33_first_failure_map [B64] (m : Method) (v : HttpVersion) (h : Headers) :
    FirstFailure (mapConditions m v h) (failure (validate m v h)) := by
  unfold mapConditions validate
  by_cases h1 : m = .get
  · rw [firstFailure_cons_pos h1, if_neg (by simpa using h1)]
    by_cases h2 : v = .http11 ∨ v = .http20
    · rw [firstFailure_cons_pos h2, if_neg (by rcases h2 with rfl | rfl <;> simp)]
      by_cases h3 : VersionOk (h.item (ascii "Sec-WebSocket-Version"))
      · rw [firstFailure_cons_pos h3, if_neg (by rw [versionOk_iff]; exact fun hc => hc h3)]
        by_cases h4 : KeyOk (h.item (ascii "Sec-WebSocket-Key"))
        · rw [firstFailure_cons_pos h4, if_neg (by rw [keyOk_iff]; exact fun hc => hc h4)]
          by_cases h5 : UpgradeReadable (h.item (ascii "Upgrade"))
          · rw [firstFailure_cons_pos h5]
            have h6 : ∃ l, h.getUpgrade = some l ∧
                ((l.all fun u => u.name ≠ ProtoName.websocket) = true ↔ ¬ UpgradeOk (h.item (ascii "Upgrade"))) := by
              unfold Headers.getUpgrade
              show ∃ l, (match h.item (ascii "Upgrade") with
                | some (.typed (.upgrade l)) => some l
                | some (.raw ls) => fromCommaDelimited (fun s => some (UpProto.fromStr s)) ls
                | _ => none) = some l ∧ _
              revert h5
              cases h.item (ascii "Upgrade") with
              | none => intro h5; exact absurd h5 (by simp [UpgradeReadable])
              | some it =>
                cases it with
                | raw vs =>
                  intro h5
                  refine ⟨_, fromCommaDelimited_some UpProto.fromStr vs h5, ?_⟩
                  exact upgrade_all_iff vs
                | typed x =>
                  intro h5
                  cases x with
                  | upgrade l =>
                    refine ⟨l, rfl, ?_⟩
                    simp only [UpgradeOk, List.all_eq_true]
                    constructor
                    · rintro h6 ⟨w, h7⟩; simpa using h6 _ h7
                    · intro h6 u hu
                      simp only [ne_eq, decide_not, Bool.not_eq_eq_eq_not, Bool.not_true, decide_eq_false_iff_not]
                      intro hc
                      exact h6 ⟨u.version, by cases u; simp only at hc; subst hc; exact hu⟩
                  | _ => exact absurd h5 (by simp [UpgradeReadable])
            obtain ⟨l, h6, h7⟩ := h6
            rw [h6]
            simp only
            by_cases h8 : UpgradeOk (h.item (ascii "Upgrade"))
            · rw [firstFailure_cons_pos h8, if_neg (by rw [h7]; exact fun hc => hc h8)]
              by_cases h9 : ConnectionReadable (h.item (ascii "Connection"))
              · rw [firstFailure_cons_pos h9]
                have h10 : ∃ l, h.getConnection = some l ∧
                    (checkConnection l = true ↔ ConnectionOk (h.item (ascii "Connection"))) := by
                  unfold Headers.getConnection
                  show ∃ l, (match h.item (ascii "Connection") with
                    | some (.typed (.connection l)) => some l
                    | some (.raw ls) => fromCommaDelimited (fun s => some (ConnOpt.fromStr s)) ls
                    | _ => none) = some l ∧ _
                  revert h9
                  cases h.item (ascii "Connection") with
                  | none => intro h9; exact absurd h9 (by simp [ConnectionReadable])
                  | some it =>
                    cases it with
                    | raw vs =>
                      intro h9
                      exact ⟨_, fromCommaDelimited_some ConnOpt.fromStr vs h9, connection_iff vs⟩
                    | typed x =>
                      intro h9
                      cases x with
                      | connection l =>
                        refine ⟨l, rfl, ?_⟩
                        simp only [ConnectionOk]
                        rw [checkConnection_iff]
                        constructor
                        · rintro ⟨o, ho, x, rfl, hx⟩; exact ⟨x, ho, (sameText_iff _ _).mpr hx⟩
                        · rintro ⟨x, ho, hx⟩; exact ⟨_, ho, x, rfl, (sameText_iff _ _).mp hx⟩
                      | _ => exact absurd h9 (by simp [ConnectionReadable])
                obtain ⟨l, h10, h11⟩ := h10
                rw [h10]
                simp only
                by_cases h12 : ConnectionOk (h.item (ascii "Connection"))
                · rw [firstFailure_cons_pos h12, if_pos (h11.mpr h12)]; rfl
                · rw [firstFailure_cons_neg h12, if_neg (fun hc => h12 (h11.mp hc))]; rfl
              · rw [firstFailure_cons_neg h9]
                have : h.getConnection = none := by
                  unfold Headers.getConnection
                  show (match h.item (ascii "Connection") with
                    | some (.typed (.connection l)) => some l
                    | some (.raw ls) => fromCommaDelimited (fun s => some (ConnOpt.fromStr s)) ls
                    | _ => none) = none
                  revert h9
                  cases h.item (ascii "Connection") with
                  | none => intro _; rfl
                  | some it =>
                    cases it with
                    | raw vs => intro h9; exact fromCommaDelimited_none _ vs h9
                    | typed x => cases x <;> intro h9 <;> first | rfl | exact absurd trivial h9
                rw [this]; rfl
            · rw [firstFailure_cons_neg h8, if_pos (h7.mpr h8)]; rfl
          · rw [firstFailure_cons_neg h5]
            have : h.getUpgrade = none := by
              unfold Headers.getUpgrade
              show (match h.item (ascii "Upgrade") with
                | some (.typed (.upgrade l)) => some l
                | some (.raw ls) => fromCommaDelimited (fun s => some (UpProto.fromStr s)) ls
                | _ => none) = none
              revert h5
              cases h.item (ascii "Upgrade") with
              | none => intro _; rfl
              | some it =>
                cases it with
                | raw vs => intro h5; exact fromCommaDelimited_none _ vs h5
                | typed x => cases x <;> intro h5 <;> first | rfl | exact absurd trivial h5
            rw [this]; rfl
        · rw [firstFailure_cons_neg h4, if_pos ((keyOk_iff h).mpr h4)]; rfl
      · rw [firstFailure_cons_neg h3, if_pos ((versionOk_iff h).mpr h3)]; rfl
    · rw [firstFailure_cons_neg h2, if_pos (by cases v <;> simp_all)]; rfl
  · rw [firstFailure_cons_neg h1, if_pos (by simpa using h1)]; rfl

/-! ## Received requests -/

/-- The conditions on a received request, on its header lines, in the order in which they are
reported. -/
def lineConditions [B64] (m : Method) (v : HttpVersion) (lines : List (Bytes × Bytes)) : List (Prop × IntoWsErr) :=
  [(m = .get, .methodNotGet),
   (v = .http11 ∨ v = .http20, .unsupportedHttpVersion),
   (∀ vs, Values (ascii "Sec-WebSocket-Version") lines vs → ∀ s, OneLine vs s → s = ascii "13", .unsupportedWebsocketVersion),
   (∃ vs, Values (ascii "Sec-WebSocket-Key") lines vs ∧
      ∃ s k, OneLine vs s ∧ B64.decode s = some k ∧ k.length = 16, .noSecWsKeyHeader),
   (∃ vs, Values (ascii "Upgrade") lines vs ∧ Readable vs, .noUpgradeHeader),
   (∃ vs, Values (ascii "Upgrade") lines vs ∧ Lists NamesWebsocket vs, .noWsUpgradeHeader),
   (∃ vs, Values (ascii "Connection") lines vs ∧ Readable vs, .noConnectionHeader),
   (∃ vs, Values (ascii "Connection") lines vs ∧ Lists (fun x => SameText x (ascii "upgrade")) vs, .noWsConnectionHeader)]

theorem exists_values {name : Bytes} {lines : List (Bytes × Bytes)} {P : List Bytes → Prop} :
    (∃ vs, Values name lines vs ∧ P vs) ↔ P (valuesOf name lines) := by
  constructor
  · rintro ⟨vs, h1, h2⟩; rw [values_iff] at h1; exact h1 ▸ h2
  · intro h; exact ⟨_, values_iff.mpr rfl, h⟩

theorem forall_values {name : Bytes} {lines : List (Bytes × Bytes)} {P : List Bytes → Prop} :
    (∀ vs, Values name lines vs → P vs) ↔ P (valuesOf name lines) := by
  constructor
  · intro h; exact h _ (values_iff.mpr rfl)
  · intro h vs h1; rw [values_iff] at h1; exact h1 ▸ h

theorem lists_nil {P : Bytes → Prop} : ¬ Lists P [] := by rintro ⟨_, h, _⟩; cases h
theorem oneLine_nil {s : Bytes} : ¬ OneLine [] s := by rintro ⟨h, _⟩; cases h

/-- Every received request: the first failing condition is reported, and the request is accepted if
none fails. -/
theorem C33_first_failure [B64] (m : Method) (v : HttpVersion) (lines : List (Bytes × Bytes)) :
    FirstFailure (lineConditions m v lines) (failure (validate m v (Headers.fromRaw lines))) := by
  have h := C33_first_failure_map m v (Headers.fromRaw lines)
  have e : mapConditions m v (Headers.fromRaw lines) = lineConditions m v lines := by
    unfold mapConditions lineConditions
    simp only [exists_values, forall_values, item_fromRaw, Readable]
    have e1 : VersionOk (if valuesOf (ascii "Sec-WebSocket-Version") lines = [] then none
        else some (.raw (valuesOf (ascii "Sec-WebSocket-Version") lines))) =
        ∀ s, OneLine (valuesOf (ascii "Sec-WebSocket-Version") lines) s → s = ascii "13" := by
      by_cases h0 : valuesOf (ascii "Sec-WebSocket-Version") lines = []
      · simp [h0, VersionOk, oneLine_nil]
      · simp [h0, VersionOk]
    have e2 : KeyOk (if valuesOf (ascii "Sec-WebSocket-Key") lines = [] then none
        else some (.raw (valuesOf (ascii "Sec-WebSocket-Key") lines))) =
        ∃ s k, OneLine (valuesOf (ascii "Sec-WebSocket-Key") lines) s ∧ B64.decode s = some k ∧ k.length = 16 := by
      by_cases h0 : valuesOf (ascii "Sec-WebSocket-Key") lines = []
      · simp [h0, KeyOk, oneLine_nil]
      · simp [h0, KeyOk]
    have e3 : UpgradeReadable (if valuesOf (ascii "Upgrade") lines = [] then none
        else some (.raw (valuesOf (ascii "Upgrade") lines))) =
        (valuesOf (ascii "Upgrade") lines ≠ [] ∧ ∀ x ∈ valuesOf (ascii "Upgrade") lines, IsUtf8 x) := by
      by_cases h0 : valuesOf (ascii "Upgrade") lines = []
      · simp [h0, UpgradeReadable]
      · simp [h0, UpgradeReadable]
    have e4 : UpgradeOk (if valuesOf (ascii "Upgrade") lines = [] then none
        else some (.raw (valuesOf (ascii "Upgrade") lines))) = Lists NamesWebsocket (valuesOf (ascii "Upgrade") lines) := by
      by_cases h0 : valuesOf (ascii "Upgrade") lines = []
      · simp [h0, UpgradeOk, lists_nil]
      · simp [h0, UpgradeOk]
    have e5 : ConnectionReadable (if valuesOf (ascii "Connection") lines = [] then none
        else some (.raw (valuesOf (ascii "Connection") lines))) =
        (valuesOf (ascii "Connection") lines ≠ [] ∧ ∀ x ∈ valuesOf (ascii "Connection") lines, IsUtf8 x) := by
      by_cases h0 : valuesOf (ascii "Connection") lines = []
      · simp [h0, ConnectionReadable]
      · simp [h0, ConnectionReadable]
    have e6 : ConnectionOk (if valuesOf (ascii "Connection") lines = [] then none
        else some (.raw (valuesOf (ascii "Connection") lines))) =
        Lists (fun x => SameText x (ascii "upgrade")) (valuesOf (ascii "Connection") lines) := by
      by_cases h0 : valuesOf (ascii "Connection") lines = []
      · simp [h0, ConnectionOk, lists_nil]
      · simp [h0, ConnectionOk]
    rw [e1, e2, e3, e4, e5, e6]
  rw [← e]
  exact h

theorem firstFailure_none {ε} (l : List (Prop × ε)) : FirstFailure l none ↔ ∀ x ∈ l, x.1 := by
  induction l with
  | nil => simp [FirstFailure]
  | cons a l ih => obtain ⟨c, e⟩ := a; simp [FirstFailure, ih]

theorem firstFailure_unique {ε} (l : List (Prop × ε)) {r r' : Option ε} (h : FirstFailure l r) (h' : FirstFailure l r') : r = r' := by
  induction l with
  | nil => simp only [FirstFailure] at h h'; rw [h, h']
  | cons a l ih =>
    obtain ⟨c, e⟩ := a
    simp only [FirstFailure] at h h'
    by_cases hc : c
    · simp only [hc, true_and, not_true, false_and, or_false] at h h'; exact ih h h'
    · simp only [hc, false_and, not_false_iff, true_and, false_or] at h h'; rw [h, h']

theorem validate_ok_iff [B64] (m : Method) (v : HttpVersion) (h : Headers) : validate m v h = .ok () ↔ failure (validate m v h) = none := by
  cases validate m v h <;> simp [failure]

/-- Exactly which received requests are accepted. -/
theorem C33_accepts_exactly [B64] (m : Method) (v : HttpVersion) (lines : List (Bytes × Bytes)) :
    validate m v (Headers.fromRaw lines) = .ok () ↔ ∀ c ∈ lineConditions m v lines, c.1 := by
  rw [validate_ok_iff, ← firstFailure_none]
  constructor
  · intro h; rw [← h]; exact C33_first_failure m v lines
  · intro h; exact firstFailure_unique _ (C33_first_failure m v lines) h

/-- The property as stated, for requests whose version header is absent or a single readable line.
Missing: requests with several, empty or non-UTF-8 version lines (see `C33_refuted_version`). -/
theorem C33_accepts_iff_partial [B64] (m : Method) (v : HttpVersion) (lines : List (Bytes × Bytes)) (version : List Bytes)
    (hv : Values (ascii "Sec-WebSocket-Version") lines version) (h1 : version = [] ∨ ∃ s, OneLine version s) :
    validate m v (Headers.fromRaw lines) = .ok () ↔
      m = .get ∧ (v = .http11 ∨ v = .http20) ∧
      (version = [] ∨ version = [ascii "13"]) ∧
      (∃ vs, Values (ascii "Sec-WebSocket-Key") lines vs ∧ ∃ s k, OneLine vs s ∧ B64.decode s = some k ∧ k.length = 16) ∧
      (∃ vs, Values (ascii "Upgrade") lines vs ∧ Readable vs ∧ Lists NamesWebsocket vs) ∧
      (∃ vs, Values (ascii "Connection") lines vs ∧ Readable vs ∧ Lists (fun x => SameText x (ascii "upgrade")) vs) := by
  rw [C33_accepts_exactly]
  simp only [lineConditions, List.forall_mem_cons, List.not_mem_nil, false_implies, implies_true, and_true]
  simp only [exists_values, forall_values]
  rw [values_iff] at hv
  rw [← hv]
  have e : (∀ s, OneLine version s → s = ascii "13") ↔ (version = [] ∨ version = [ascii "13"]) := by
    constructor
    · intro h
      rcases h1 with h1 | ⟨s, h1⟩
      · exact Or.inl h1
      · right; rw [h1.1, h s h1]
    · rintro (h | h) s ⟨h2, _⟩
      · rw [h] at h2; cases h2
      · rw [h] at h2; cases h2; rfl
  rw [e]
  constructor
  · rintro ⟨a, b, c, d, e, f, g, h⟩; exact ⟨a, b, c, d, ⟨e, f⟩, g, h⟩
  · rintro ⟨a, b, c, d, ⟨e, f⟩, g, h⟩; exact ⟨a, b, c, d, e, f, g, h⟩

/-- A request with a sample key. -/
def sampleLines : List (Bytes × Bytes) :=
  [(ascii "Host", ascii "example.com"),
   (ascii "upgrade", ascii "h2c, WebSocket"),
   (ascii "Connection", ascii "keep-alive, Upgrade"),
   (ascii "Sec-WebSocket-Key", ascii "dGhlIHNhbXBsZSBub25jZQ=="),
   (ascii "Sec-WebSocket-Version", ascii "13")]

/-- The property as stated fails: with version lines 8 and 13 the version is neither 13 nor absent,
yet the request is accepted (src/server/upgrade/mod.rs:267-271 ignores a version header that does
not parse). -/
theorem C33_refuted_version :
    let lines := sampleLines ++ [(ascii "Sec-WebSocket-Version", ascii "8")]
    Values (ascii "Sec-WebSocket-Version") lines [ascii "13", ascii "8"] ∧
      @validate B64.strict .get .http11 (Headers.fromRaw lines) = .ok () := by
  refine ⟨values_iff.mpr (by decide +kernel), ?_⟩
  rw [@validate_ok_iff B64.strict]
  decide +kernel

/-- The hypotheses are met, both ways. -/
example : Values (ascii "Sec-WebSocket-Version") sampleLines [ascii "13"] ∧ OneLine [ascii "13"] (ascii "13") :=
  ⟨values_iff.mpr (by decide +kernel), rfl, by decide, isUtf8_ascii (by decide)⟩
example : @validate B64.strict .get .http11 (Headers.fromRaw sampleLines) = .ok () := by
  rw [@validate_ok_iff B64.strict]; decide +kernel
example : failure (@validate B64.strict .get .http11 (Headers.fromRaw (sampleLines.drop 2))) = some .noUpgradeHeader := by
  decide +kernel
example : failure (@validate B64.strict .get .http10 (Headers.fromRaw sampleLines)) = some .unsupportedHttpVersion := by
  decide +kernel

example := @C33_first_failure_map B64.strict .get .http10 (Headers.fromRaw sampleLines)
example := @C33_accepts_iff_partial B64.strict .get .http11 sampleLines [ascii "13"] (values_iff.mpr (by decide +kernel))
  (.inr ⟨ascii "13", rfl, by decide, isUtf8_ascii (by decide)⟩)

end WS
