import Verif.Model.Codec
import Verif.Lemmas.Frame
/-! The async frame decoder follows the frame parser. -/

namespace WS

theorem readHeader_cursor (src : Bytes) :
    match parseHeader src with
    | .ok h rest => ∃ s', readHeader [.chunk src] = (.ok h, s') ∧ s'.flat = rest
    | .err e _ => ∃ s', readHeader [.chunk src] = (.err e, s')
    | .more => ∃ s', readHeader [.chunk src] = (.err .noData, s') := by
  by_cases h : src = []
  · subst h
    exact ⟨[], rfl⟩
  · obtain ⟨s', hs', h'⟩ := refines_header [.chunk src] ⟨h, trivial⟩
    simp only [Src.flat, List.append_nil] at h'
    cases hp : parseHeader src with
    | ok a rest => rw [hp] at h'; exact ⟨s', h'.1, h'.2⟩
    | err e rest => rw [hp] at h'; exact ⟨s', h'.1⟩
    | more => rw [hp] at h'; exact ⟨s', h'.1⟩

theorem parseHeader_rest {src rest : Bytes} {h : Header} (hp : parseHeader src = .ok h rest) :
    ∃ pre : Bytes, src = pre ++ rest ∧ 2 ≤ pre.length ∧ pre.length ≤ 14 := by
  obtain ⟨b0, b1, ext, rfl, hl, -⟩ := parseHeader_ok_iff.mp hp
  refine ⟨_, rfl, by simp, ?_⟩
  have : ext.length ≤ 8 := by
    generalize b1.toNat % 128 = m at hl
    cases hl <;> simp_all
  have : ((h.mask.map Key4.toBytes).getD []).length ≤ 4 := by
    cases h.mask <;> simp [Key4.toBytes]
  simp only [List.length_append, List.length_cons, List.length_nil]; omega

theorem parseLen_no_noData (b1 : UInt8) (bs : Bytes) (e : WsErr) (rest : Bytes)
    (h : parseLen b1 bs = .err e rest) : e = .dataFrame "Invalid data frame length" := by
  unfold parseLen at h
  split at h
  · simp at h
  · split at h
    · simp only [Ps.bind_def, Ps.pure_apply] at h
      cases ht : Ps.take 2 bs with
      | ok a r =>
        simp only [ht] at h
        split at h <;> simp at h
        exact h.1.symm
      | err e' r => unfold Ps.take at ht; split at ht <;> simp at ht
      | more => simp only [ht] at h; simp at h
    · simp only [Ps.bind_def, Ps.pure_apply] at h
      cases ht : Ps.take 8 bs with
      | ok a r =>
        simp only [ht] at h
        split at h <;> simp at h
        exact h.1.symm
      | err e' r => unfold Ps.take at ht; split at ht <;> simp at ht
      | more => simp only [ht] at h; simp at h

/-- The errors a header can have. -/
theorem parseHeader_err {bs rest : Bytes} {e : WsErr} (h : parseHeader bs = .err e rest) :
    e = .dataFrame "Invalid data frame length" ∨ e = .dataFrame "Control frame length too long" ∨
    e = .protocol "Illegal fragmented control frame" := by
  unfold parseHeader at h
  simp only [Ps.bind_def] at h
  cases bs with
  | nil => simp at h
  | cons b0 bs =>
    cases bs with
    | nil => simp at h
    | cons b1 bs =>
      simp only [Ps.u8_cons] at h
      cases hl : parseLen b1 bs with
      | more => simp only [hl] at h; simp at h
      | err e' r =>
        simp only [hl, PRes.err.injEq] at h
        rw [← h.1]; exact .inl (parseLen_no_noData _ _ _ _ hl)
      | ok n r =>
        simp only [hl] at h
        split at h
        · simp at h; exact .inr (.inl h.1.symm)
        · split at h
          · simp at h; exact .inr (.inr h.1.symm)
          · unfold parseMask at h
            split at h
            · exfalso
              rcases r with _ | ⟨_, _ | ⟨_, _ | ⟨_, _ | ⟨_, _⟩⟩⟩⟩ <;> simp [Ps.bind_def] at h
            · simp [Ps.bind_def] at h

/-- The error of an oversized frame in the async decoder. -/
def bigErr : WsErr := .protocol "Exceeded maximum incoming DataFrame size"

/-- The errors for a wrong mask direction. -/
def maskErr (server : Bool) : WsErr :=
  if server then .dataFrame "Expected masked data frame" else .dataFrame "Expected unmasked data frame"

theorem body_err {h : Header} {data : Bytes} {m : Bool} {e : WsErr}
    (hb : readDataframeBody h data m = .err e) : e = maskErr m := by
  unfold readDataframeBody at hb
  split at hb
  · simp at hb
  · cases hm : h.mask <;> cases m <;> simp [hm] at hb <;> simp [maskErr, ← hb]

/-- `DataFrameCodec::decode` in terms of the parser. -/
theorem DfCodec.decode_eq (c : DfCodec) (hc : c.maxDf ≤ u32Max) (src : Bytes) :
    match parseFrame c.isServer c.maxDf bigErr src with
    | .ok f rest => c.decode src = (.ok (some f), rest)
    | .more => c.decode src = (.ok none, src)
    | .err e rest => c.decode src = (.err e, if e = maskErr c.isServer then rest else src) := by
  have hu : u32Max = 4294967295 := rfl
  have hcur := readHeader_cursor src
  unfold parseFrame DfCodec.decode
  rw [Ps.bind_def]
  cases hp : parseHeader src with
  | more =>
    rw [hp] at hcur
    obtain ⟨s', hs⟩ := hcur
    simp [hs]
  | err e rest =>
    rw [hp] at hcur
    obtain ⟨s', hs⟩ := hcur
    rw [hs]
    rcases parseHeader_err hp with rfl | rfl | rfl <;> cases c.isServer <;> simp [maskErr]
  | ok h rest =>
    rw [hp] at hcur
    obtain ⟨s', hs, hf⟩ := hcur
    obtain ⟨pre, hpre, h2, h14⟩ := parseHeader_rest hp
    have hop := parseHeader_opcode hp
    simp only [hs, hf]
    have hbr : src.length - rest.length = pre.length := by rw [hpre, List.length_append]; omega
    rw [hbr]
    by_cases hbig : h.len > c.maxDf
    · cases c.isServer <;> simp [hbig, bigErr, maskErr]
    · simp only [if_neg hbig]
      rw [if_neg (by omega)]
      simp only [Ps.bind_def, Ps.take]
      by_cases hlen : h.len ≤ rest.length
      · simp only [if_pos hlen]
        have hsl : src.length = pre.length + rest.length := by rw [hpre, List.length_append]
        rw [if_neg (by omega), if_neg (by omega)]
        have hdrop : src.drop pre.length = rest := by rw [hpre, List.drop_left]
        rw [hdrop, if_neg (by omega)]
        unfold bodyPs
        have hn := readDataframeBody_no_panic h hop (rest.take h.len) c.isServer
        cases hb : readDataframeBody h (rest.take h.len) c.isServer with
        | ok f => simp
        | err e => simp [body_err hb]
        | panic m => rw [hb] at hn; simp at hn
      · simp only [if_neg hlen]
        have hsl : src.length = pre.length + rest.length := by rw [hpre, List.length_append]
        rw [if_pos (by omega)]

/-- A decoded frame takes at least two bytes off the buffer. -/
theorem DfCodec.decode_lt {c : DfCodec} {src rest : Bytes} {f : DataFrame}
    (h : c.decode src = (.ok (some f), rest)) : rest.length < src.length := by
  have hcur := readHeader_cursor src
  unfold DfCodec.decode at h
  cases hp : parseHeader src with
  | more =>
    rw [hp] at hcur
    obtain ⟨s', hs⟩ := hcur
    rw [hs] at h; simp at h
  | err e r =>
    rw [hp] at hcur
    obtain ⟨s', hs⟩ := hcur
    rw [hs] at h
    rcases parseHeader_err hp with rfl | rfl | rfl <;> simp at h
  | ok hd r =>
    rw [hp] at hcur
    obtain ⟨s', hs, hf⟩ := hcur
    obtain ⟨pre, hpre, h2, h14⟩ := parseHeader_rest hp
    simp only [hs, hf] at h
    have hsl : src.length = pre.length + r.length := by rw [hpre, List.length_append]
    split at h
    · simp at h
    · split at h
      · simp at h
      · split at h
        · simp at h
        · split at h
          · simp at h
          · split at h
            · simp at h
            · split at h
              · simp only [Prod.mk.injEq] at h
                rw [← h.2]
                simp only [List.length_drop]; omega
              · simp at h
              · simp at h

end WS
