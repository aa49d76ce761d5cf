import Verif.Lemmas.HeaderMap
import Verif.Model.Server
/-!
# Lemmas about the handshake checks
-/

namespace WS

open Spec

theorem protoName_websocket (s : Bytes) : ProtoName.fromStr s = .websocket ↔ eqIgnoreCase s (ascii "websocket") = true := by
  unfold ProtoName.fromStr
  by_cases h1 : s = ascii "HTTP"
  · subst h1; simp; decide
  by_cases h2 : s = ascii "TLS"
  · subst h2; simp; decide
  by_cases h3 : s = ascii "h2c"
  · subst h3; simp; decide
  simp only [h1, h2, h3, if_false]
  split <;> simp_all

theorem upProto_name (x : Bytes) : (UpProto.fromStr x).name = ProtoName.fromStr (x.takeWhile (· ≠ 47)) := by
  unfold UpProto.fromStr
  simp only [splitN]
  by_cases h : (47 : UInt8) ∈ x
  · simp [h]
  · simp only [h, if_false, List.headD_cons]
    congr 1
    induction x with
    | nil => rfl
    | cons a t ih =>
      simp only [List.mem_cons, not_or] at h
      rw [List.takeWhile_cons_of_pos (by simpa using Ne.symm h.1), ← ih h.2]

theorem noSlash {s t : Bytes} (h : eqIgnoreCase s t = true) (ht : 47 ∉ t) : 47 ∉ s := by
  intro hc
  rw [eqIgnoreCase_iff] at h
  have h1 : lower 47 ∈ s.map lower := List.mem_map.mpr ⟨47, hc, rfl⟩
  rw [h, List.mem_map] at h1
  obtain ⟨c, hc1, hc2⟩ := h1
  have : c = 47 := by
    unfold lower at hc2
    rw [if_neg (by decide : ¬ ((65 : UInt8) ≤ 47 ∧ (47 : UInt8) ≤ 90))] at hc2
    split at hc2
    · next hr =>
      have h1 := congrArg UInt8.toNat hc2
      have h2 : 65 ≤ c.toNat := hr.1
      have h3 : c.toNat ≤ 90 := hr.2
      rw [UInt8.toNat_add] at h1
      have e1 : (32 : UInt8).toNat = 32 := rfl
      have e2 : (47 : UInt8).toNat = 47 := rfl
      omega
    · exact hc2
  exact ht (this ▸ hc1)

theorem takeWhile_free {x : Bytes} (h : 47 ∉ x) (r : Bytes) : (x ++ 47 :: r).takeWhile (· ≠ 47) = x := by
  induction x with
  | nil => simp
  | cons a t ih =>
    simp only [List.mem_cons, not_or] at h
    rw [List.cons_append, List.takeWhile_cons_of_pos (by simpa using Ne.symm h.1), ih h.2]

theorem takeWhile_free' {x : Bytes} (h : 47 ∉ x) : x.takeWhile (· ≠ 47) = x := by
  induction x with
  | nil => rfl
  | cons a t ih =>
    simp only [List.mem_cons, not_or] at h
    rw [List.takeWhile_cons_of_pos (by simpa using Ne.symm h.1), ih h.2]

theorem namesWebsocket_iff (x : Bytes) : NamesWebsocket x ↔ (UpProto.fromStr x).name = .websocket := by
  rw [upProto_name, protoName_websocket]
  constructor
  · rintro ⟨name, hn, hx⟩
    rw [sameText_iff] at hn
    have hs := noSlash hn (by decide)
    rcases hx with rfl | ⟨v, rfl⟩
    · rw [takeWhile_free' hs]; exact hn
    · rw [takeWhile_free hs]; exact hn
  · intro h
    refine ⟨x.takeWhile (· ≠ 47), (sameText_iff _ _).mpr h, ?_⟩
    by_cases hs : (47 : UInt8) ∈ x
    · right
      have h1 := List.takeWhile_append_dropWhile (p := fun c : UInt8 => decide (c ≠ 47)) (l := x)
      cases hd : x.dropWhile (fun c : UInt8 => decide (c ≠ 47)) with
      | nil =>
        rw [hd, List.append_nil] at h1
        have : ∀ (l : Bytes), 47 ∉ l.takeWhile (fun c : UInt8 => decide (c ≠ 47)) := by
          intro l
          induction l with
          | nil => simp
          | cons a t ih =>
            by_cases ha : a = 47
            · simp [ha]
            · rw [List.takeWhile_cons_of_pos (by simpa using ha)]
              simp only [List.mem_cons, not_or]
              exact ⟨Ne.symm ha, ih⟩
        have h3 := this x
        rw [h1] at h3
        exact absurd hs h3
      | cons a t =>
        have h2 := List.head?_dropWhile_not (fun c : UInt8 => decide (c ≠ 47)) x
        rw [hd] at h2
        simp at h2
        subst h2
        rw [hd] at h1
        exact ⟨t, h1.symm⟩
    · left; exact (takeWhile_free' hs).symm

theorem connOpt_upgrade (x : Bytes) :
    (∃ h, ConnOpt.fromStr x = .header h ∧ eqIgnoreCase h (ascii "upgrade") = true) ↔
      eqIgnoreCase x (ascii "upgrade") = true := by
  unfold ConnOpt.fromStr
  by_cases h1 : eqIgnoreCase x (ascii "keep-alive") = true
  · rw [if_pos h1, eqIgnoreCase_congr h1]
    constructor
    · rintro ⟨_, h, _⟩; cases h
    · intro h; exact absurd h (by decide)
  by_cases h2 : eqIgnoreCase x (ascii "close") = true
  · rw [if_neg h1, if_pos h2, eqIgnoreCase_congr h2]
    constructor
    · rintro ⟨_, h, _⟩; cases h
    · intro h; exact absurd h (by decide)
  rw [if_neg h1, if_neg h2]
  constructor
  · rintro ⟨_, h, h3⟩; cases h; exact h3
  · intro h; exact ⟨x, rfl, h⟩

theorem checkConnection_iff (l : List ConnOpt) :
    checkConnection l = true ↔ ∃ o ∈ l, ∃ h, o = .header h ∧ eqIgnoreCase h (ascii "upgrade") = true := by
  induction l with
  | nil => simp [checkConnection]
  | cons o rest ih =>
    cases o with
    | header h =>
      unfold checkConnection
      by_cases hc : eqIgnoreCase h (ascii "upgrade") = true
      · simp only [hc, if_true, true_iff]
        exact ⟨.header h, by simp, h, rfl, hc⟩
      · rw [if_neg hc, ih]
        constructor
        · rintro ⟨o, ho, x⟩; exact ⟨o, List.mem_cons_of_mem _ ho, x⟩
        · rintro ⟨o, ho, h', rfl, hx⟩
          rcases List.mem_cons.mp ho with he | ho
          · cases he; exact absurd hx hc
          · exact ⟨_, ho, h', rfl, hx⟩
    | keepAlive =>
      show checkConnection rest = true ↔ _
      rw [ih]
      constructor
      · rintro ⟨o, ho, x⟩; exact ⟨o, List.mem_cons_of_mem _ ho, x⟩
      · rintro ⟨o, ho, h', rfl, hx⟩
        rcases List.mem_cons.mp ho with he | ho
        · cases he
        · exact ⟨_, ho, h', rfl, hx⟩
    | close =>
      show checkConnection rest = true ↔ _
      rw [ih]
      constructor
      · rintro ⟨o, ho, x⟩; exact ⟨o, List.mem_cons_of_mem _ ho, x⟩
      · rintro ⟨o, ho, h', rfl, hx⟩
        rcases List.mem_cons.mp ho with he | ho
        · cases he
        · exact ⟨_, ho, h', rfl, hx⟩

theorem lists_iff {P : Bytes → Prop} {vs : List Bytes} : Lists P vs ↔ ∃ line ∈ vs, ∃ x ∈ commaItems line, P x := by
  constructor
  · rintro ⟨line, hl, items, hc, x⟩
    rw [commaList_iff] at hc
    subst hc
    exact ⟨line, hl, x⟩
  · rintro ⟨line, hl, x⟩
    exact ⟨line, hl, commaItems line, commaList_iff.mpr rfl, x⟩

theorem fromOneRawStr_iff {vs : List Bytes} {s : Bytes} : fromOneRawStr vs = some s ↔ OneLine vs s := by
  unfold fromOneRawStr OneLine
  constructor
  · intro h
    split at h
    · next x =>
      split at h
      · next hx => cases h; exact ⟨rfl, hx.1, (utf8Valid_iff _).mp hx.2⟩
      · cases h
    · cases h
  · rintro ⟨rfl, h1, h2⟩
    simp only
    rw [if_pos ⟨h1, (utf8Valid_iff _).mpr h2⟩]

/-- A key line: decodes to sixteen bytes. -/
theorem keyFromStr_iff [B64] {s : Bytes} {k : WsKey} : WsKey.fromStr s = .ok k ↔ B64.decode s = some k.bytes := by
  unfold WsKey.fromStr
  cases hd : B64.decode s with
  | none => simp
  | some v =>
    simp only [Option.some.injEq]
    by_cases hl : v.length = 16
    · simp only [hl, dite_true, Res.ok.injEq]
      constructor
      · rintro rfl; rfl
      · intro h; cases k; simp only at h; subst h; rfl
    · simp only [hl, dite_false]
      constructor
      · intro h; cases h
      · intro h; exact absurd (h ▸ k.len) hl

theorem acceptFromStr_iff [B64] {s : Bytes} {a : WsAccept} : WsAccept.fromStr s = .ok a ↔ B64.decode s = some a.bytes := by
  unfold WsAccept.fromStr
  cases hd : B64.decode s with
  | none => simp
  | some v =>
    simp only [Option.some.injEq]
    by_cases hl : v.length = 20
    · simp only [hl, dite_true, Res.ok.injEq]
      constructor
      · rintro rfl; rfl
      · intro h; cases a; simp only at h; subst h; rfl
    · simp only [hl, dite_false]
      constructor
      · intro h; cases h
      · intro h; exact absurd (h ▸ a.len) hl

theorem getKey_raw [B64] {h : Headers} {vs : List Bytes} (hi : h.item nKey = some (.raw vs)) (k : WsKey) :
    h.getKey = some k ↔ ∃ s, OneLine vs s ∧ B64.decode s = some k.bytes := by
  unfold Headers.getKey
  rw [hi]
  simp only
  cases hf : fromOneRawStr vs with
  | none =>
    simp only
    constructor
    · intro h; cases h
    · rintro ⟨s, h1, _⟩; rw [← fromOneRawStr_iff, hf] at h1; cases h1
  | some s =>
    simp only
    have h1 := fromOneRawStr_iff.mp hf
    constructor
    · intro h2
      split at h2
      · next k' hk => cases h2; exact ⟨s, h1, keyFromStr_iff.mp hk⟩
      · cases h2
    · rintro ⟨s', h2, h3⟩
      rw [← fromOneRawStr_iff, hf] at h2
      cases h2
      rw [keyFromStr_iff.mpr h3]

theorem getAccept_raw [B64] {h : Headers} {vs : List Bytes} (hi : h.item nAccept = some (.raw vs)) (a : WsAccept) :
    h.getAccept = some a ↔ ∃ s, OneLine vs s ∧ B64.decode s = some a.bytes := by
  unfold Headers.getAccept
  rw [hi]
  simp only
  cases hf : fromOneRawStr vs with
  | none =>
    simp only
    constructor
    · intro h; cases h
    · rintro ⟨s, h1, _⟩; rw [← fromOneRawStr_iff, hf] at h1; cases h1
  | some s =>
    simp only
    have h1 := fromOneRawStr_iff.mp hf
    constructor
    · intro h2
      split at h2
      · next k' hk => cases h2; exact ⟨s, h1, acceptFromStr_iff.mp hk⟩
      · cases h2
    · rintro ⟨s', h2, h3⟩
      rw [← fromOneRawStr_iff, hf] at h2
      cases h2
      rw [acceptFromStr_iff.mpr h3]

theorem version_raw (vs : List Bytes) :
    versionRejected (WsVersion.parse vs) = true ↔
      ∃ s, OneLine vs s ∧ s ≠ ascii "13" := by
  unfold WsVersion.parse versionRejected
  cases hf : fromOneRawStr vs with
  | none =>
    simp only [Option.map_none]
    constructor
    · intro h; cases h
    · rintro ⟨s, h1, _⟩; rw [← fromOneRawStr_iff, hf] at h1; cases h1
  | some s =>
    have h1 := fromOneRawStr_iff.mp hf
    simp only [Option.map_some]
    by_cases hs : s = ascii "13"
    · simp only [hs, if_true]
      constructor
      · intro h; simp at h
      · rintro ⟨s', h2, h3⟩
        rw [← fromOneRawStr_iff, hf] at h2
        cases h2
        exact absurd hs h3
    · simp only [hs, if_false]
      constructor
      · intro _; exact ⟨s, h1, hs⟩
      · intro _; simp

theorem upgrade_all_iff (vs : List Bytes) :
    ((vs.flatMap fun s => (commaItems s).map UpProto.fromStr).all fun u => u.name ≠ ProtoName.websocket) = true ↔
      ¬ Lists NamesWebsocket vs := by
  rw [lists_iff, List.all_eq_true]
  constructor
  · rintro h ⟨line, hl, x, hx, hn⟩
    have := h (UpProto.fromStr x) (List.mem_flatMap.mpr ⟨line, hl, List.mem_map.mpr ⟨x, hx, rfl⟩⟩)
    rw [namesWebsocket_iff] at hn
    simp [hn] at this
  · intro h u hu
    rw [List.mem_flatMap] at hu
    obtain ⟨line, hl, hu⟩ := hu
    rw [List.mem_map] at hu
    obtain ⟨x, hx, rfl⟩ := hu
    simp only [ne_eq, decide_not, Bool.not_eq_eq_eq_not, Bool.not_true, decide_eq_false_iff_not]
    intro hc
    exact h ⟨line, hl, x, hx, (namesWebsocket_iff x).mpr hc⟩

theorem connection_iff (vs : List Bytes) :
    checkConnection (vs.flatMap fun s => (commaItems s).map ConnOpt.fromStr) = true ↔
      Lists (fun x => SameText x (ascii "upgrade")) vs := by
  rw [lists_iff, checkConnection_iff]
  constructor
  · rintro ⟨o, ho, h, rfl, he⟩
    rw [List.mem_flatMap] at ho
    obtain ⟨line, hl, ho⟩ := ho
    rw [List.mem_map] at ho
    obtain ⟨x, hx, hx2⟩ := ho
    exact ⟨line, hl, x, hx, (sameText_iff _ _).mpr ((connOpt_upgrade x).mp ⟨h, hx2, he⟩)⟩
  · rintro ⟨line, hl, x, hx, he⟩
    obtain ⟨h, h1, h2⟩ := (connOpt_upgrade x).mpr ((sameText_iff _ _).mp he)
    exact ⟨.header h, List.mem_flatMap.mpr ⟨line, hl, List.mem_map.mpr ⟨x, hx, h1⟩⟩, h, rfl, h2⟩

end WS
