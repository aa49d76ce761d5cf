import Verif.Spec.AbsMsg
import Verif.Lemmas.Utf8
import Verif.Lemmas.Sound
/-! Assembly of messages from frames. -/

namespace WS
open Spec (IsUtf8 Means Assembles)

theorem collectFrames_ok_iff (first : Bool) (data : Bytes) (fs : List FrameView) (out : Bytes) :
    collectFrames first data fs = .ok out ↔
      (∀ f ∈ fs, f.fragment.reserved = false) ∧
      (∀ f ∈ (if first then fs.drop 1 else fs), f.opcode.toNat = 0) ∧
      out = data ++ fs.flatMap FrameView.payload := by
  have h0 : ∀ x : UInt8, x = Opcode.continuation.toU8 ↔ x.toNat = 0 := fun x =>
    ⟨fun h => by rw [h]; rfl, fun h => u8_eq_of_toNat (by rw [h]; rfl)⟩
  induction fs generalizing first data with
  | nil =>
    simp only [collectFrames, Res.ok.injEq, List.flatMap_nil, List.append_nil, List.drop_nil, ite_self]
    exact ⟨fun h => ⟨by simp, by simp, h.symm⟩, fun h => h.2.2.symm⟩
  | cons f fs ih =>
    unfold collectFrames
    have hr : f.fragment.reserved = false ↔ ¬ (f.rsv1 = true ∨ f.rsv2 = true ∨ f.rsv3 = true) := by
      simp [FrameView.fragment]; cases f.rsv1 <;> cases f.rsv2 <;> cases f.rsv3 <;> simp
    split
    · next h =>
      obtain ⟨rfl, h⟩ := h
      simp only [reduceCtorEq, false_iff, not_and]
      intro _ hf
      exact absurd ((h0 _).mpr (hf f (by simp))) h
    · next h =>
      split
      · next hb =>
        simp only [reduceCtorEq, false_iff, not_and]
        intro hf
        exact absurd hb (hr.mp (hf f (by simp)))
      · next hb =>
        refine (ih false (data ++ f.payload)).trans ?_
        have hr' := hr.mpr hb
        cases first with
        | true =>
          simp only [Bool.false_eq_true, if_false, if_true, List.drop_one, List.tail_cons,
            List.flatMap_cons, List.append_assoc, List.forall_mem_cons, hr', true_and]
        | false =>
          have : f.opcode.toNat = 0 := by
            rw [← h0]; simpa using h
          simp only [Bool.false_eq_true, if_false, List.flatMap_cons, List.append_assoc,
            List.forall_mem_cons, hr', this, true_and]

theorem collectFrames_not_panic (first : Bool) (data : Bytes) (fs : List FrameView) :
    (collectFrames first data fs).isPanic = false := by
  induction fs generalizing first data with
  | nil => rfl
  | cons f fs ih =>
    unfold collectFrames
    split
    · rfl
    · split
      · rfl
      · exact ih _ _

theorem opcode_new_eq {n : UInt8} {o : Opcode} : Opcode.new n = some o ↔ n.toNat = o.toU8.toNat := by
  constructor
  · intro h; rw [opcode_new_some h]
  · intro h; rw [u8_eq_of_toNat h]; exact opcode_new_toU8 o

theorem code_toNat (hi lo : UInt8) (r : Bytes) :
    (UInt16.ofNat (beNat ((hi :: lo :: r).take 2))).toNat = 256 * hi.toNat + lo.toNat := by
  have h1 := hi.toNat_lt
  have h2 := lo.toNat_lt
  have : beNat ((hi :: lo :: r).take 2) = 256 * hi.toNat + lo.toNat := by
    simp [beNat]; omega
  rw [this]
  simp; omega

/-- `from_dataframes` (borrowed form) is the specification's assembly. -/
theorem Msg.fromDataframes_ok_iff (fs : List FrameView) (hsz : (fs.map FrameView.size).sum ≤ isizeMax) (m : Msg) :
    Msg.fromDataframes fs = .ok m ↔ ∃ sm, m.spec = some sm ∧ Assembles (fs.map FrameView.fragment) sm := by
  cases fs with
  | nil => simp [Msg.fromDataframes, Assembles]
  | cons f rest =>
    unfold Msg.fromDataframes
    simp only
    rw [if_neg (by omega)]
    have hAs : ∀ sm, Assembles ((f :: rest).map FrameView.fragment) sm ↔
        (∀ g ∈ f :: rest, g.fragment.reserved = false) ∧ (∀ g ∈ rest, g.opcode.toNat = 0) ∧
        Means f.opcode.toNat ((f :: rest).flatMap FrameView.payload) sm := by
      intro sm
      unfold Assembles
      constructor
      · rintro ⟨a, b, h, h1, h2, h3⟩
        simp only [List.map_cons, List.cons.injEq] at h
        obtain ⟨rfl, rfl⟩ := h
        refine ⟨?_, ?_, ?_⟩
        · intro g hg; exact h1 _ (List.mem_map_of_mem hg)
        · intro g hg; exact h2 _ (List.mem_map_of_mem hg)
        · rw [List.flatMap_map] at h3; exact h3
      · rintro ⟨h1, h2, h3⟩
        refine ⟨f.fragment, rest.map FrameView.fragment, rfl, ?_, ?_, ?_⟩
        · intro g hg; obtain ⟨g', hg', rfl⟩ := List.mem_map.mp hg; exact h1 _ hg'
        · intro g hg; obtain ⟨g', hg', rfl⟩ := List.mem_map.mp hg; exact h2 _ hg'
        · rw [List.flatMap_map]; exact h3
    simp only [hAs]
    have hcf := collectFrames_ok_iff true [] (f :: rest)
    simp only [if_true, List.drop_one, List.tail_cons, List.nil_append] at hcf
    have hnp := collectFrames_not_panic true [] (f :: rest)
    cases hc : collectFrames true [] (f :: rest) with
    | panic e => rw [hc] at hnp; simp at hnp
    | err e =>
      simp only [Res.bind_err, reduceCtorEq, false_iff]
      rintro ⟨sm, -, h1, h2, -⟩
      have := (hcf _).mpr ⟨h1, h2, rfl⟩
      rw [hc] at this; simp at this
    | ok data =>
      obtain ⟨h1, h2, h3⟩ := (hcf data).mp hc
      rw [← h3]
      simp only [Res.bind_ok]
      have key : (∃ sm, m.spec = some sm ∧ (∀ g ∈ f :: rest, g.fragment.reserved = false) ∧
          (∀ g ∈ rest, g.opcode.toNat = 0) ∧ Means f.opcode.toNat data sm) ↔
          ∃ sm, m.spec = some sm ∧ Means f.opcode.toNat data sm :=
        ⟨fun ⟨s, a, _, _, b⟩ => ⟨s, a, b⟩, fun ⟨s, a, b⟩ => ⟨s, a, h1, h2, b⟩⟩
      rw [key]
      have hop : ∀ (o : Opcode), f.opcode.toNat = o.toU8.toNat → Opcode.new f.opcode = some o :=
        fun o h => opcode_new_eq.mpr h
      constructor
      · intro h
        split at h
        · next ho =>
          rw [opcode_new_eq] at ho; rw [ho]
          split at h
          · next hv =>
            simp only [Res.ok.injEq] at h; subst h
            exact ⟨_, rfl, .text ((utf8Valid_iff _).mp hv)⟩
          · simp at h
        · next ho =>
          rw [opcode_new_eq] at ho; rw [ho]
          simp only [Res.ok.injEq] at h; subst h
          exact ⟨_, rfl, .binary⟩
        · next ho =>
          rw [opcode_new_eq] at ho; rw [ho]
          split at h
          · next hd =>
            simp only [Res.ok.injEq] at h; subst h; subst hd
            exact ⟨_, rfl, .close⟩
          · split at h
            · simp at h
            · next hl =>
              split at h
              · next hv =>
                simp only [Res.ok.injEq] at h; subst h
                match data, hl with
                | hi :: lo :: r, _ =>
                  refine ⟨_, rfl, ?_⟩
                  rw [code_toNat]
                  exact .closeWith ((utf8Valid_iff _).mp hv)
                | [x], hl => simp at hl
                | [], hl => simp at hl
              · simp at h
        · next ho =>
          rw [opcode_new_eq] at ho; rw [ho]
          simp only [Res.ok.injEq] at h; subst h
          exact ⟨_, rfl, .ping⟩
        · next ho =>
          rw [opcode_new_eq] at ho; rw [ho]
          simp only [Res.ok.injEq] at h; subst h
          exact ⟨_, rfl, .pong⟩
        · simp at h
      · rintro ⟨sm, hsm, hm⟩
        obtain ⟨mo, mc, mp⟩ := m
        generalize hon : f.opcode.toNat = on at hm
        cases hm with
        | text h =>
          rw [hop .text hon]
          simp only [(utf8Valid_iff _).mpr h, if_true, Res.ok.injEq]
          unfold Msg.spec at hsm
          split at hsm <;> simp_all
        | binary =>
          rw [hop .binary hon]
          simp only [Res.ok.injEq, Msg.binary]
          unfold Msg.spec at hsm
          split at hsm <;> simp_all
        | ping =>
          rw [hop .ping hon]
          simp only [Res.ok.injEq, Msg.ping]
          unfold Msg.spec at hsm
          split at hsm <;> simp_all
        | pong =>
          rw [hop .pong hon]
          simp only [Res.ok.injEq, Msg.pong]
          unfold Msg.spec at hsm
          split at hsm <;> simp_all
        | close =>
          rw [hop .close hon]
          simp only [if_true, Res.ok.injEq, Msg.closeEmpty]
          unfold Msg.spec at hsm
          split at hsm <;> simp_all
        | @closeWith hi lo r h =>
          rw [hop .close hon]
          simp only [reduceCtorEq, if_false]
          rw [if_neg (by simp), if_neg (by simp)]
          have hv : utf8Valid ((hi :: lo :: r).drop 2) = true := (utf8Valid_iff _).mpr h
          rw [if_pos hv]
          simp only [Res.ok.injEq, Msg.closeBecause]
          have hcode := code_toNat hi lo r
          unfold Msg.spec at hsm
          split at hsm
          · simp at hsm
          · simp at hsm
          · simp at hsm
          · simp at hsm
          · simp at hsm
          · simp only [Option.some.injEq, Spec.Message.closeWith.injEq] at hsm
            obtain ⟨hce, rfl⟩ := hsm
            rw [← hcode] at hce
            rw [← UInt16.toNat_inj.mp hce, ‹mo = _›, ‹mc = _›]
            rfl
          · simp at hsm

theorem Msg.toOwned_spec {m : Msg} {sm : Spec.Message} (h : m.spec = some sm)
    (hv : (m.opcode = .text ∨ m.opcode = .close) → IsUtf8 m.payload) : m.toOwned.spec = sm ∧ m.toOwned.Valid := by
  obtain ⟨mo, mc, mp⟩ := m
  have hl : IsUtf8 mp → utf8Lossy mp = mp := fun h => utf8Lossy_valid ((utf8Valid_iff _).mpr h)
  unfold Msg.spec at h
  split at h <;> simp only [Option.some.injEq, reduceCtorEq] at h <;> subst h <;>
    simp_all [Msg.toOwned, OwnedMsg.spec, OwnedMsg.Valid]

theorem OwnedMsg.spec_inj {a b : OwnedMsg} (h : a.spec = b.spec) : a = b := by
  rcases a with _ | _ | (_ | ⟨c, r⟩) | _ | _ <;> rcases b with _ | _ | (_ | ⟨c', r'⟩) | _ | _ <;>
    simp_all [OwnedMsg.spec]
  exact UInt16.toNat_inj.mp h.1

theorem Means.utf8 {n : Nat} {d : Bytes} {sm : Spec.Message} (hm : Means n d sm) :
    (∀ t, sm = .text t → IsUtf8 t) ∧ (∀ c r, sm = .closeWith c r → IsUtf8 r) := by
  cases hm with
  | closeWith h =>
    refine ⟨by simp, ?_⟩
    intro c r he
    simp only [Spec.Message.closeWith.injEq] at he
    obtain ⟨-, rfl⟩ := he
    exact h
  | text h =>
    refine ⟨?_, by simp⟩
    intro t he
    simp only [Spec.Message.text.injEq] at he
    subst he
    exact h
  | binary => simp
  | ping => simp
  | pong => simp
  | close => simp

theorem Msg.spec_of_fields {m : Msg} {d : Bytes} {n : Nat} {sm : Spec.Message} (h : m.spec = some sm)
    (hm : Means n d sm) : (m.opcode = .text ∨ m.opcode = .close) → IsUtf8 m.payload := by
  obtain ⟨mo, mc, mp⟩ := m
  obtain ⟨h1, h2⟩ := Means.utf8 hm
  unfold Msg.spec at h
  split at h <;> simp only [Option.some.injEq, reduceCtorEq] at h <;> subst h <;> simp_all
  exact ⟨[], by simp [Spec.EncodesText]⟩

/-- Every specification message is the meaning of a borrowed message. -/
theorem Msg.exists_spec {n : Nat} {d : Bytes} {sm : Spec.Message} (hm : Means n d sm) :
    ∃ m : Msg, m.spec = some sm := by
  cases hm with
  | text h => exact ⟨Msg.text d, rfl⟩
  | binary => exact ⟨Msg.binary d, rfl⟩
  | ping => exact ⟨Msg.ping d, rfl⟩
  | pong => exact ⟨Msg.pong d, rfl⟩
  | close => exact ⟨Msg.closeEmpty, rfl⟩
  | @closeWith hi lo r h =>
    refine ⟨Msg.closeBecause (UInt16.ofNat (beNat ((hi :: lo :: r).take 2))) r, ?_⟩
    unfold Msg.closeBecause Msg.spec
    simp only [code_toNat]

/-- `from_dataframes` (owned form) is the specification's assembly. -/
theorem OwnedMsg.fromDataframes_ok_iff (fs : List FrameView) (hsz : (fs.map FrameView.size).sum ≤ isizeMax)
    (m : OwnedMsg) :
    OwnedMsg.fromDataframes fs = .ok m ↔ Assembles (fs.map FrameView.fragment) m.spec := by
  unfold OwnedMsg.fromDataframes
  have h := Msg.fromDataframes_ok_iff fs hsz
  constructor
  · intro he
    cases hb : Msg.fromDataframes fs with
    | err e => rw [hb] at he; simp at he
    | panic e => rw [hb] at he; simp at he
    | ok bm =>
      rw [hb] at he
      have he' : bm.toOwned = m := by simpa using he
      obtain ⟨sm, h1, h2⟩ := (h bm).mp hb
      obtain ⟨a, b, h3, h4, h5, h6⟩ := id h2
      have := Msg.toOwned_spec h1 (Msg.spec_of_fields h1 h6)
      rw [← he', this.1]; exact h2
  · intro ha
    obtain ⟨a, b, h3, h4, h5, h6⟩ := id ha
    obtain ⟨bm, hbm⟩ := Msg.exists_spec h6
    rw [(h bm).mpr ⟨m.spec, hbm, ha⟩]
    have := Msg.toOwned_spec hbm (Msg.spec_of_fields hbm h6)
    show Res.ok bm.toOwned = _
    rw [OwnedMsg.spec_inj this.1]

theorem OwnedMsg.valid_of_assembles {fs : List Spec.Fragment} {m : OwnedMsg} (h : Assembles fs m.spec) :
    m.Valid := by
  obtain ⟨a, b, -, -, -, h⟩ := h
  obtain ⟨h1, h2⟩ := Means.utf8 h
  rcases m with _ | _ | (_ | ⟨c, r⟩) | _ | _ <;> simp_all [OwnedMsg.Valid, OwnedMsg.spec]

theorem Msg.fromDataframes_no_panic (fs : List FrameView) (hsz : (fs.map FrameView.size).sum ≤ isizeMax) :
    (Msg.fromDataframes fs).isPanic = false := by
  cases fs with
  | nil => rfl
  | cons f rest =>
    unfold Msg.fromDataframes
    simp only
    rw [if_neg (by omega)]
    have hnp := collectFrames_not_panic true [] (f :: rest)
    cases hc : collectFrames true [] (f :: rest) with
    | panic e => rw [hc] at hnp; simp at hnp
    | err e => rfl
    | ok data =>
      simp only [Res.bind_ok]
      repeat' split
      all_goals first | rfl | omega

theorem OwnedMsg.fromDataframes_no_panic (fs : List FrameView) (hsz : (fs.map FrameView.size).sum ≤ isizeMax) :
    (OwnedMsg.fromDataframes fs).isPanic = false := by
  unfold OwnedMsg.fromDataframes
  have := Msg.fromDataframes_no_panic fs hsz
  cases hb : Msg.fromDataframes fs with
  | ok _ => rfl
  | err _ => rfl
  | panic _ => rw [hb] at this; simp at this

end WS
