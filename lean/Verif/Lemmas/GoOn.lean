import Verif.Lemmas.Blame
import Verif.Lemmas.Many
import Verif.Lemmas.Framed
import Verif.Spec.GoOn
/-! Receive calls that go on after an error do what the specification of `Spec/GoOn` says. -/

namespace WS
open Spec (IsFrame ControlOk Allowed Assembles Unreadable Refused Report Tape Meets Joins)

/-! ### A frame masked the wrong way -/

/-- A legal frame with the wrong mask direction is read to its end and refused. -/
theorem parseFrame_wrong {masked : Bool} {lim : Nat} (hlim : lim < 2 ^ 63) {big : WsErr} {f : Spec.Frame}
    {key : Option (List UInt8)} {bs : Bytes} (h : IsFrame f key bs) (hk : key.isSome ≠ masked)
    (hc : ControlOk f) (hl : f.payload.length ≤ lim) (x : Bytes) :
    parseFrame masked lim big (bs ++ x) = .err (maskErr masked) x := by
  obtain ⟨g, rfl, hg⟩ := parseFrame_isFrame (masked := key.isSome) hlim (big := big) h rfl hc hl x
  unfold parseFrame at hg ⊢
  rw [Ps.bind_ok_iff] at hg
  obtain ⟨hd, mid, hp, h2⟩ := hg
  obtain ⟨b0, b1, ext, -, -, -, hfl, ho, -⟩ := parseHeader_ok_iff.mp hp
  have h16 := parseHeader_opcode hp
  rw [Ps.bind_def, hp]
  simp only
  split at h2
  · simp at h2
  next hle =>
  rw [if_neg hle]
  rw [Ps.bind_ok_iff] at h2
  obtain ⟨d, mid', ht, hb⟩ := h2
  rw [Ps.bind_def, ht]
  simp only
  unfold bodyPs at hb ⊢
  have hn := readDataframeBody_no_panic hd h16 d masked
  cases hr : readDataframeBody hd d masked with
  | ok g' =>
    exfalso
    have h1 := ((body_ok_iff hd b0 hfl ho d _ _).mp hr).1
    split at hb
    · next g2 hg2 =>
      have h2 := ((body_ok_iff hd b0 hfl ho d _ _).mp hg2).1
      exact hk (h2.symm.trans h1)
    · simp at hb
    · simp at hb
  | err e =>
    simp only
    rw [body_err hr]
    split at hb
    · simp only [PRes.ok.injEq] at hb
      rw [hb.2]
    · simp at hb
    · simp at hb
  | panic w => rw [hr] at hn; simp at hn

/-! ### Refused messages -/

theorem collect_plain {first : Bool} {data out : Bytes} {fs : List DataFrame} (h : collectFrames first data (fs.map DataFrame.view) = .ok out) :
    ∀ f ∈ (specs fs).map Spec.Frame.fragment, f.reserved = false := by
  induction fs generalizing first data with
  | nil => simp [specs]
  | cons f fs ih =>
    simp only [List.map_cons] at h
    unfold collectFrames at h
    split at h
    · cases h
    · split at h
      · cases h
      · next hr =>
        intro g hg
        simp only [specs, List.map_cons, List.mem_cons] at hg
        rcases hg with rfl | hg
        · rw [fragment_reserved]
          have hr : ¬ (f.rsv1 = true ∨ f.rsv2 = true ∨ f.rsv3 = true) := hr
          simp only [not_or, Bool.not_eq_true] at hr
          simp [hr]
        · exact ih h g hg

/-- The error of frames received as one message, exactly. -/
theorem fromDataframes_refused {f : DataFrame} {fs : List DataFrame} {e : WsErr} (h : OwnedMsg.fromDataframes ((f :: fs).map DataFrame.view) = .err e)
    (h0 : ∀ g ∈ fs, g.opcode.toU8 = 0) : Refused e ((specs (f :: fs)).map Spec.Frame.fragment) := by
  refine ⟨fromDataframes_fault h h0, ?_⟩
  rintro ⟨g, hg, hgr⟩
  unfold OwnedMsg.fromDataframes Msg.fromDataframes at h
  simp only [List.map_cons] at h
  split at h
  · cases h
  rw [← List.map_cons (f := DataFrame.view)] at h
  cases hc : collectFrames true [] ((f :: fs).map DataFrame.view) with
  | panic w => rw [hc] at h; cases h
  | err e' =>
    rw [hc] at h
    simp only [Res.bind_err, Res.err.injEq] at h
    rw [← h]
    exact (collect_err hc (by simpa using h0)).1
  | ok data =>
    have := collect_plain hc g hg
    rw [hgr] at this; cases this

theorem Spec.refused_unique {e e' : WsErr} {fs : List Spec.Fragment} (h : Refused e fs) (h' : Refused e' fs) : e = e' := by
  obtain ⟨hu, hr⟩ := h
  obtain ⟨hu', hr'⟩ := h'
  by_cases hx : ∃ f ∈ fs, f.reserved = true
  · rw [hr hx, hr' hx]
  cases hu with
  | reserved h1 h2 => exact absurd ⟨_, h1, h2⟩ hx
  | opcode h1 =>
    cases hu' with
    | reserved g1 g2 => exact absurd ⟨_, g1, g2⟩ hx
    | opcode g1 => rfl
    | text g1 => rw [g1] at h1; exact absurd (by decide) h1
    | reason g1 => rw [g1] at h1; exact absurd (by decide) h1
    | halfCode g1 => rw [g1] at h1; exact absurd (by decide) h1
  | text h1 h2 =>
    cases hu' with
    | reserved g1 g2 => exact absurd ⟨_, g1, g2⟩ hx
    | opcode g1 => rw [h1] at g1; exact absurd (by decide) g1
    | text g1 => rfl
    | reason g1 => rfl
    | halfCode g1 => rw [h1] at g1; cases g1
  | reason h1 h2 h3 =>
    cases hu' with
    | reserved g1 g2 => exact absurd ⟨_, g1, g2⟩ hx
    | opcode g1 => rw [h1] at g1; exact absurd (by decide) g1
    | text g1 => rfl
    | reason g1 => rfl
    | halfCode g1 g2 => rw [h2] at g2; cases g2
  | halfCode h1 h2 =>
    cases hu' with
    | reserved g1 g2 => exact absurd ⟨_, g1, g2⟩ hx
    | opcode g1 => rw [h1] at g1; exact absurd (by decide) g1
    | text g1 => rw [h1] at g1; cases g1
    | reason g1 g2 => rw [h2] at g2; cases g2
    | halfCode g1 => rfl

theorem Spec.refused_assembles {e : WsErr} {fs : List Spec.Fragment} {m : Spec.Message} (h : Refused e fs) (h' : Assembles fs m) : False := by
  obtain ⟨hu, -⟩ := h
  obtain ⟨first, rest, rfl, hr, -, hm⟩ := h'
  cases hu with
  | reserved h1 h2 => rw [hr _ h1] at h2; cases h2
  | opcode h1 =>
    generalize hd : (first :: rest).flatMap Spec.Fragment.payload = d at hm
    generalize ho : first.opcode = o at hm h1
    cases hm <;> exact h1 (by decide)
  | text h1 h2 => rw [h1] at hm; cases hm with | text h => exact h2 h
  | reason h1 h2 h3 => rw [h1, h2] at hm; cases hm with | closeWith h => exact h3 h
  | halfCode h1 h2 => rw [h1, h2] at hm; cases hm

theorem Spec.refused_total {f : Spec.Fragment} {fs : List Spec.Fragment} (h0 : ∀ g ∈ fs, g.opcode = 0) :
    (∃ m, Assembles (f :: fs) m) ∨ ∃ e, Refused e (f :: fs) := by
  by_cases hx : ∃ g ∈ f :: fs, g.reserved = true
  · obtain ⟨g, h1, h2⟩ := hx
    exact .inr ⟨_, .reserved h1 h2, fun _ => rfl⟩
  have hp : ∀ g ∈ f :: fs, g.reserved = false := fun g hg => by
    cases hr : g.reserved
    · rfl
    · exact absurd ⟨g, hg, hr⟩ hx
  have mk : ∀ {m}, Spec.Means f.opcode ((f :: fs).flatMap Spec.Fragment.payload) m → Assembles (f :: fs) m :=
    fun hm => ⟨f, fs, rfl, hp, h0, hm⟩
  by_cases ho : f.opcode ∈ [1, 2, 8, 9, 10]
  · simp only [List.mem_cons, List.not_mem_nil, or_false] at ho
    rcases ho with ho | ho | ho | ho | ho
    · by_cases hu : Spec.IsUtf8 ((f :: fs).flatMap Spec.Fragment.payload)
      · exact .inl ⟨_, mk (by rw [ho]; exact Spec.Means.text hu)⟩
      · exact .inr ⟨_, .text ho hu, fun h => absurd h hx⟩
    · exact .inl ⟨_, mk (by rw [ho]; exact Spec.Means.binary)⟩
    · cases hd : (f :: fs).flatMap Spec.Fragment.payload with
      | nil => exact .inl ⟨_, mk (by rw [ho, hd]; exact .close)⟩
      | cons a d =>
        cases d with
        | nil => exact .inr ⟨_, .halfCode ho hd, fun h => absurd h hx⟩
        | cons b d =>
          by_cases hu : Spec.IsUtf8 d
          · exact .inl ⟨_, mk (by rw [ho, hd]; exact .closeWith hu)⟩
          · exact .inr ⟨_, .reason ho hd hu, fun h => absurd h hx⟩
    · exact .inl ⟨_, mk (by rw [ho]; exact Spec.Means.ping)⟩
    · exact .inl ⟨_, mk (by rw [ho]; exact Spec.Means.pong)⟩
  · exact .inr ⟨_, .opcode ho, fun h => absurd h hx⟩

/-- Frames that mean nothing are refused with that error. -/
theorem OwnedMsg.of_refused {f : DataFrame} {fs : List DataFrame} {e : WsErr} (h : Refused e ((specs (f :: fs)).map Spec.Frame.fragment))
    (h0 : ∀ g ∈ fs, g.opcode.toU8 = 0) (hsz : heldLen (f :: fs) ≤ isizeMax) : OwnedMsg.fromDataframes ((f :: fs).map DataFrame.view) = .err e := by
  have hsz' : (((f :: fs).map DataFrame.view).map FrameView.size).sum ≤ isizeMax := by
    simpa [heldLen, DataFrame.view, Function.comp_def] using hsz
  have hn := OwnedMsg.fromDataframes_no_panic _ hsz'
  cases hr : OwnedMsg.fromDataframes ((f :: fs).map DataFrame.view) with
  | ok m =>
    have := (OwnedMsg.fromDataframes_ok_iff _ hsz' m).mp hr
    rw [← specs_fragments] at this
    exact (Spec.refused_assembles h this).elim
  | err e' => rw [Spec.refused_unique (fromDataframes_refused hr h0) h]
  | panic w => rw [hr] at hn; cases hn

/-! ### One frame -/

/-- What the two per-frame steps do with each kind of frame. -/
structure StepRef (step : List DataFrame → Nat → DataFrame → Step) (over : List Spec.Frame → Nat → Prop) : Prop where
  control : ∀ b cur f, 8 ≤ f.spec.opcode → f.finished = true → step b cur f = .msg [f] b
  final : ∀ b cur f, Allowed (specs b) f.spec → f.finished = true → step b cur f = .msg (b ++ [f]) []
  orphan : ∀ cur f, f.spec.opcode = 0 → step [] cur f = .fail (.protocol "Unexpected continuation data frame opcode") []
  intruder : ∀ b cur f, b ≠ [] → f.spec.opcode ≠ 0 → f.spec.opcode < 8 → step b cur f = .fail (.protocol "Unexpected data frame opcode") b
  tooMany : ∀ b cur f, Allowed (specs b) f.spec → f.finished = false → 2 ^ 20 ≤ (specs b ++ [f.spec]).length →
    step b cur f = .fail (.protocol "Exceeded count of data frames in one WebSocket message") (b ++ [f])
  tooLong : ∀ b k f, Allowed (specs b) f.spec → f.finished = false → (specs b ++ [f.spec]).length < 2 ^ 20 → over (specs b ++ [f.spec]) (k + 1) →
    step b (heldLen b + 64 * k) f = .fail (.protocol "Exceeded maximum WebSocket message size") (b ++ [f])
  part : ∀ b k f, Allowed (specs b) f.spec → f.finished = false → (specs b ++ [f.spec]).length < 2 ^ 20 → ¬ over (specs b ++ [f.spec]) (k + 1) →
    step b (heldLen b + 64 * k) f = .next (b ++ [f]) (heldLen (b ++ [f]) + 64 * (k + 1))

theorem load_specs (b : List DataFrame) : Spec.load (specs b) = heldLen b := by
  simp [Spec.load, specs, heldLen, DataFrame.spec, Function.comp_def]

theorem load_append (a b : List Spec.Frame) : Spec.load (a ++ b) = Spec.load a + Spec.load b := by simp [Spec.load]
theorem load_cons (a : Spec.Frame) (b : List Spec.Frame) : Spec.load (a :: b) = a.payload.length + Spec.load b := by simp [Spec.load]
theorem load_nil : Spec.load [] = 0 := rfl

theorem load_snoc (b : List DataFrame) (f : DataFrame) : Spec.load (specs b ++ [f.spec]) = heldLen b + f.data.length := by
  rw [load_append, load_specs, load_cons]; rfl

theorem stepRef_sync (maxMsg : Nat) : StepRef (syncStep maxMsg) (Spec.OverBlocking maxMsg) where
  control := by
    intro b cur f hf hfin
    obtain ⟨a, b', c, d⟩ := control_ranges hf
    unfold syncStep
    by_cases hb : b = []
    · rw [if_pos hb, if_neg a, if_pos hfin, hb]
    · rw [if_neg hb, if_neg b', if_pos ⟨c, d⟩]
  final := by
    intro b cur f ha hfin
    unfold syncStep
    by_cases hb : b = []
    · subst hb
      rw [if_pos rfl, if_neg (allowed_nil ha).1, if_pos hfin]; rfl
    · rw [if_neg hb, if_pos (allowed_cons hb ha), if_pos hfin]
  orphan := by
    intro cur f h
    unfold syncStep
    have : f.opcode = .continuation := by
      have h : f.opcode.toU8.toNat = 0 := h
      cases ho : f.opcode <;> rw [ho] at h <;> first | rfl | (exact absurd h (by decide))
    rw [if_pos rfl, if_pos this]
  intruder := by
    intro b cur f hb h0 h8
    unfold syncStep
    rw [if_neg hb, if_neg (fun h => h0 (by show f.opcode.toU8.toNat = 0; rw [h]; rfl)),
      if_neg (by intro h; have := UInt8.le_iff_toNat_le.mp h.1; have h8 : f.opcode.toU8.toNat < 8 := h8; simp at this; omega)]
  tooMany := by
    intro b cur f ha hfin hn
    simp only [specs, List.length_append, List.length_map, List.length_singleton] at hn
    unfold syncStep
    have hb : b ≠ [] := by rintro rfl; simp at hn
    rw [if_neg hb, if_pos (allowed_cons hb ha), if_neg (by simp [hfin]),
      if_pos (by simp only [List.length_append, List.length_singleton, maxFrames]; omega)]
  tooLong := by
    intro b k f ha hfin hn ho
    obtain ⟨ho1, ho2⟩ := ho
    rw [load_snoc] at ho2
    simp only [specs, List.length_append, List.length_map, List.length_singleton] at hn ho1
    have hb : b ≠ [] := by rintro rfl; simp at ho1
    unfold syncStep
    rw [if_neg hb, if_pos (allowed_cons hb ha), if_neg (by simp [hfin]),
      if_neg (by simp only [List.length_append, List.length_singleton, maxFrames]; omega), if_pos (by simp only [overhead]; omega)]
  part := by
    intro b k f ha hfin hn ho
    unfold syncStep
    have hw : heldLen b + 64 * k + (f.data.length + overhead) = heldLen (b ++ [f]) + 64 * (k + 1) := by
      rw [heldLen_append, heldLen_single]; simp only [overhead]; omega
    by_cases hb : b = []
    · subst hb
      rw [if_pos rfl, if_neg (allowed_nil ha).1, if_neg (by simp [hfin]), hw]; rfl
    · have hl : 0 < b.length := List.length_pos_iff.mpr hb
      unfold Spec.OverBlocking at ho
      rw [load_snoc] at ho
      simp only [specs, List.length_append, List.length_map, List.length_singleton] at hn ho
      rw [if_neg hb, if_pos (allowed_cons hb ha), if_neg (by simp [hfin]),
        if_neg (by simp only [List.length_append, List.length_singleton, maxFrames]; omega), if_neg (by simp only [overhead]; omega), hw]

theorem async_front {b : List DataFrame} {f : DataFrame} (ha : Allowed (specs b) f.spec) :
    ¬ (f.opcode.toU8 = 0 ∧ b = []) ∧ ¬ (8 ≤ f.opcode.toU8 ∧ f.opcode.toU8 ≤ 15) ∧ ¬ (1 ≤ f.opcode.toU8 ∧ f.opcode.toU8 ≤ 7 ∧ b ≠ []) := by
  by_cases hb : b = []
  · subst hb
    obtain ⟨a1, a2, a3⟩ := allowed_nil ha
    exact ⟨by intro h; rw [h.1] at a2; exact a2 rfl, by intro h; have := UInt8.le_iff_toNat_le.mp h.1; simp at this; omega, by simp⟩
  · have h0 := allowed_cons hb ha
    exact ⟨by simp [hb], by rw [h0]; decide, by rw [h0]; simp⟩

theorem stepRef_async (maxMsg : Nat) : StepRef (asyncStep maxMsg) (Spec.OverAsync maxMsg) where
  control := by
    intro b cur f hf hfin
    obtain ⟨a, b', c, d⟩ := control_ranges hf
    unfold asyncStep
    rw [if_neg (by simp [b']), if_pos ⟨c, d⟩]
  final := by
    intro b cur f ha hfin
    obtain ⟨h1, h2, h3⟩ := async_front ha
    unfold asyncStep
    rw [if_neg h1, if_neg h2, if_neg h3, if_pos hfin]
  orphan := by
    intro cur f h
    unfold asyncStep
    rw [if_pos ⟨u8_eq_of_toNat h, rfl⟩]
  intruder := by
    intro b cur f hb h0 h8
    have h0' : f.opcode.toU8.toNat ≠ 0 := h0
    have h8' : f.opcode.toU8.toNat < 8 := h8
    unfold asyncStep
    rw [if_neg (by simp [hb]), if_neg (by intro h; have := UInt8.le_iff_toNat_le.mp h.1; simp at this; omega),
      if_pos ⟨UInt8.le_iff_toNat_le.mpr (by simp; omega), UInt8.le_iff_toNat_le.mpr (by simp; omega), hb⟩]
  tooMany := by
    intro b cur f ha hfin hn
    simp only [specs, List.length_append, List.length_map, List.length_singleton] at hn
    obtain ⟨h1, h2, h3⟩ := async_front ha
    unfold asyncStep
    rw [if_neg h1, if_neg h2, if_neg h3, if_neg (by simp [hfin]),
      if_pos (by simp only [List.length_append, List.length_singleton, maxFrames]; omega)]
  tooLong := by
    intro b k f ha hfin hn ho
    unfold Spec.OverAsync at ho
    rw [load_snoc] at ho
    simp only [specs, List.length_append, List.length_map, List.length_singleton] at hn
    obtain ⟨h1, h2, h3⟩ := async_front ha
    unfold asyncStep
    rw [if_neg h1, if_neg h2, if_neg h3, if_neg (by simp [hfin]),
      if_neg (by simp only [List.length_append, List.length_singleton, maxFrames]; omega), if_pos (by simp only [overhead]; omega)]
  part := by
    intro b k f ha hfin hn ho
    unfold Spec.OverAsync at ho
    rw [load_snoc] at ho
    simp only [specs, List.length_append, List.length_map, List.length_singleton] at hn
    obtain ⟨h1, h2, h3⟩ := async_front ha
    have hw : heldLen b + 64 * k + (f.data.length + overhead) = heldLen (b ++ [f]) + 64 * (k + 1) := by
      rw [heldLen_append, heldLen_single]; simp only [overhead]; omega
    unfold asyncStep
    rw [if_neg h1, if_neg h2, if_neg h3, if_neg (by simp [hfin]),
      if_neg (by simp only [List.length_append, List.length_singleton, maxFrames]; omega), if_neg (by simp only [overhead]; omega), hw]

/-! ### One call -/

/-- The answer of a call matches the report. -/
def Matches : Res OwnedMsg → Report → Prop
  | .ok m, .heard sm => m.spec = sm
  | .err e, .refused e' => e = e'
  | _, _ => False

/-- The outcome of the loop gives this report, keeps these fragments and leaves these bytes unread. -/
def Yields (masked : Bool) (o : POut) (rep : Report) (b' : List DataFrame) (rest : Bytes) : Prop :=
  match o with
  | .msg fs b r => Matches (OwnedMsg.fromDataframes (fs.map DataFrame.view)) rep ∧ b = b' ∧ r = rest
  | .fail e b r => rep = .refused e ∧ b = b' ∧ r = rest
  | .bad e b _ r => rep = .refused e ∧ e = maskErr masked ∧ b = b' ∧ r = rest
  | .more _ _ _ => False

theorem maskFault_eq (m : Bool) : Spec.maskFault m = maskErr m := by cases m <;> rfl

theorem tail_frames {b : List DataFrame} {f : DataFrame} (ht : Tail b) (ha : Allowed (specs b) f.spec) : Tail (b ++ [f]) :=
  tail_append ht (by
    rcases ha with ha | ha
    · exact .inl (specs_nil.mp ha.1)
    · exact .inr (u8_eq_of_toNat ha.2))

theorem allowed_control {held : List Spec.Frame} {f : Spec.Frame} (ha : Allowed held f) : ControlOk f := by
  intro h8
  rcases ha with ⟨_, _, h⟩ | ⟨_, h⟩ <;> omega

theorem refused_frames {b : List DataFrame} {f : DataFrame} {e : WsErr} (h : Refused e ((specs (b ++ [f])).map Spec.Frame.fragment))
    (ht : Tail (b ++ [f])) (hsz : heldLen (b ++ [f]) ≤ isizeMax) : OwnedMsg.fromDataframes ((b ++ [f]).map DataFrame.view) = .err e := by
  cases hb : b ++ [f] with
  | nil => simp at hb
  | cons g gs =>
    rw [hb] at h ht hsz
    exact OwnedMsg.of_refused h (by simpa [Tail] using ht) hsz

/-- One frame that ends the call. -/
theorem pLoop_meets {c : Cfg} {over : List Spec.Frame → Nat → Prop} (hc : StepRef c.step over) (hlim : c.lim < 2 ^ 63) {b : List DataFrame} {k : Nat}
    {f : Spec.Frame} {key : Option (List UInt8)} {bs x : Bytes} {rep : Report} {held' : List Spec.Frame}
    (h : Meets c.masked over (specs b) k (f, key.isSome) rep held') (hf : IsFrame f key bs) (hco : ControlOk f) (hl : f.payload.length ≤ c.lim)
    (ht : Tail b) (hsz : Spec.load (specs b ++ [f]) ≤ isizeMax) :
    ∃ b', specs b' = held' ∧ Tail b' ∧ Yields c.masked (pLoop c b (heldLen b + 64 * k) (bs ++ x)) rep b' x := by
  by_cases hm : key.isSome = c.masked
  · obtain ⟨g, rfl, hg⟩ := parseFrame_isFrame hlim (big := c.big) hf hm hco hl x
    rw [load_snoc] at hsz
    have hgsz : heldLen [g] ≤ isizeMax := by rw [heldLen_single]; omega
    have hbsz : heldLen (b ++ [g]) ≤ isizeMax := by rw [heldLen_append, heldLen_single]; omega
    have hb' : specs b ++ [g.spec] = specs (b ++ [g]) := (specs_snoc b g).symm
    rw [pLoop_ok hg]
    rw [hm] at h
    cases h with
    | wrongMask h => exact absurd rfl h
    | control h8 h =>
      obtain ⟨om, h1, h2⟩ := OwnedMsg.of_assembles (fs := [g]) hgsz (by simpa [specs] using h)
      rw [hc.control b _ g h8 (hco h8).2]
      exact ⟨b, rfl, ht, by rw [h2]; exact h1, rfl, rfl⟩
    | badControl h8 h =>
      rw [hc.control b _ g h8 (hco h8).2]
      refine ⟨b, rfl, ht, ?_, rfl, rfl⟩
      rw [OwnedMsg.of_refused (f := g) (fs := []) (by simpa [specs] using h) (by simp) hgsz]
      exact rfl
    | orphan h h0 =>
      rw [specs_nil] at h; subst h
      rw [hc.orphan _ g h0]
      exact ⟨[], rfl, ht, rfl, rfl, rfl⟩
    | intruder h h0 h8 =>
      rw [hc.intruder b _ g (fun hb => h (specs_nil.mpr hb)) h0 h8]
      exact ⟨b, rfl, ht, rfl, rfl, rfl⟩
    | tooMany ha hfin hn =>
      rw [hc.tooMany b _ g ha hfin hn]
      exact ⟨b ++ [g], specs_snoc b g, tail_frames ht ha, rfl, rfl, rfl⟩
    | tooLong ha hfin hn ho =>
      rw [hc.tooLong b k g ha hfin hn ho]
      exact ⟨b ++ [g], specs_snoc b g, tail_frames ht ha, rfl, rfl, rfl⟩
    | final ha hfin h =>
      rw [hc.final b _ g ha hfin]
      obtain ⟨om, h1, h2⟩ := OwnedMsg.of_assembles (fs := b ++ [g]) hbsz (by rw [← hb']; exact h)
      exact ⟨[], rfl, tail_nil, by rw [h2]; exact h1, rfl, rfl⟩
    | badFinal ha hfin h =>
      rw [hc.final b _ g ha hfin]
      refine ⟨[], rfl, tail_nil, ?_, rfl, rfl⟩
      rw [hb'] at h
      rw [refused_frames h (tail_frames ht ha) hbsz]
      exact rfl
  · rw [pLoop_err (parseFrame_wrong hlim hf hm hco hl x)]
    generalize key.isSome = m at h hm
    cases h with
    | wrongMask h => exact ⟨b, rfl, ht, by rw [maskFault_eq], rfl, rfl, rfl⟩
    | _ => exact absurd rfl hm

theorem meets_load {masked : Bool} {over : List Spec.Frame → Nat → Prop} {held : List Spec.Frame} {k : Nat} {f : Spec.Frame × Bool} {rep : Report}
    {held' : List Spec.Frame} (h : Meets masked over held k f rep held') : Spec.load held' ≤ Spec.load (held ++ [f.1]) := by
  cases h <;> simp [load_append, load_nil]

/-- One call. -/
theorem pLoop_call {c : Cfg} {over : List Spec.Frame → Nat → Prop} (hc : StepRef c.step over) (hlim : c.lim < 2 ^ 63) {held : List Spec.Frame} {k : Nat}
    {fs fs' : List (Spec.Frame × Bool)} {rep : Report} {held' : List Spec.Frame} (h : Spec.Call c.masked over held k fs rep held' fs')
    {b : List DataFrame} (hb : specs b = held) (ht : Tail b) (hl : ∀ f ∈ fs, f.1.payload.length ≤ c.lim)
    (hsz : Spec.load (held ++ fs.map Prod.fst) ≤ isizeMax) {bs : Bytes} (hw : Tape fs bs) (x : Bytes) :
    ∃ b' bs', specs b' = held' ∧ Tail b' ∧ Tape fs' bs' ∧ (∀ f ∈ fs', f.1.payload.length ≤ c.lim) ∧ Spec.load (held' ++ fs'.map Prod.fst) ≤ isizeMax ∧
      Yields c.masked (pLoop c b (heldLen b + 64 * k) (bs ++ x)) rep b' (bs' ++ x) := by
  induction h generalizing b bs with
  | @now held k f fs rep held' h =>
    cases hw with
    | @cons f fs key bs1 rest h1 h2 h3 =>
    subst hb
    have hsz' : Spec.load (specs b ++ [f]) ≤ isizeMax := by
      simp only [List.map_cons, load_append, load_cons, load_nil] at hsz ⊢; omega
    obtain ⟨b', g1, g2, g3⟩ := pLoop_meets (x := rest ++ x) hc hlim h h1 h2 (hl _ List.mem_cons_self) ht hsz'
    refine ⟨b', rest, g1, g2, h3, fun g hg => hl g (List.mem_cons_of_mem _ hg), ?_, by rw [List.append_assoc]; exact g3⟩
    have hle := meets_load h
    simp only [List.map_cons, load_append, load_cons, load_nil] at hsz hle ⊢; omega
  | @later held k f fs rep held' fs' h hr ih =>
    cases hw with
    | @cons f fs key bs1 rest h1 h2 h3 =>
    subst hb
    obtain ⟨j1, j2, j3, j4, j5⟩ := h
    simp only at j1 j2 j3 j4 j5
    obtain ⟨g, rfl, hg⟩ := parseFrame_isFrame hlim (big := c.big) h1 j1 h2 (hl _ List.mem_cons_self) (rest ++ x)
    have hb' : specs (b ++ [g]) = specs b ++ [g.spec] := specs_snoc b g
    obtain ⟨b', bs', e1, e2, e3, e4, e5, e6⟩ := ih hb' (tail_frames ht j2) (fun q hq => hl q (List.mem_cons_of_mem _ hq))
      (by simp only [List.map_cons, load_append, load_cons, load_nil] at hsz ⊢; omega) h3
    refine ⟨b', bs', e1, e2, e3, e4, e5, ?_⟩
    rw [List.append_assoc, pLoop_ok hg, hc.part b k g j2 j3 j4 j5]
    exact e6

/-! ### Several calls -/

/-- What a call told the program; nothing if it panicked. -/
def Res.report : Res OwnedMsg → Option Report
  | .ok m => some (.heard m.spec)
  | .err e => some (.refused e)
  | .panic _ => none

theorem report_matches {r : Res OwnedMsg} {rep : Report} (h : Matches r rep) : r.report = some rep := by
  cases r <;> cases rep <;> simp_all [Matches, Res.report]

theorem recvBytes_yields {r : Receiver} {bs rest : Bytes} {rep : Report} {b' : List DataFrame}
    (h : Yields r.mask (pLoop r.cfg r.buffer (heldLen r.buffer) bs) rep b' rest) :
    ∃ res, r.recvBytes bs = (res, { r with buffer := b' }, rest) ∧ res.report = some rep := by
  unfold Receiver.recvBytes
  cases hp : pLoop r.cfg r.buffer (heldLen r.buffer) bs with
  | msg fs b q => rw [hp] at h; obtain ⟨h1, rfl, rfl⟩ := h; exact ⟨_, rfl, report_matches h1⟩
  | fail e b q => rw [hp] at h; obtain ⟨rfl, rfl, rfl⟩ := h; exact ⟨_, rfl, rfl⟩
  | bad e b st q => rw [hp] at h; obtain ⟨rfl, -, rfl, rfl⟩ := h; exact ⟨_, rfl, rfl⟩
  | more b cur l => rw [hp] at h; exact h.elim

/-- Several calls on the bytes of a tape. -/
theorem recvManyBytes_calls {r : Receiver} (hr : r.maxDf < 2 ^ 63) {held : List Spec.Frame} {fs fs' : List (Spec.Frame × Bool)} {reps : List Report}
    {held' : List Spec.Frame} (h : Spec.Calls r.mask (Spec.OverBlocking r.maxMsg) held fs reps held' fs') {b : List DataFrame} (hb : specs b = held)
    (ht : Tail b) (hl : ∀ f ∈ fs, f.1.payload.length ≤ r.maxDf) (hsz : Spec.load (held ++ fs.map Prod.fst) ≤ isizeMax) {bs : Bytes} (hw : Tape fs bs)
    (x : Bytes) :
    ∃ res b' bs', Receiver.recvManyBytes reps.length { r with buffer := b } (bs ++ x) = (res, { r with buffer := b' }, bs' ++ x) ∧
      res.map Res.report = reps.map some ∧ specs b' = held' ∧ Tail b' ∧ Tape fs' bs' := by
  induction h generalizing b bs with
  | nil => exact ⟨[], b, bs, rfl, rfl, hb, ht, hw⟩
  | @cons held fs rep held₁ fs₁ reps held' fs' h hr' ih =>
    obtain ⟨b1, bs1, e1, e2, e3, e4, e5, e6⟩ := pLoop_call (c := Receiver.cfg { r with buffer := b }) (stepRef_sync r.maxMsg) hr h hb ht hl hsz hw x
    rw [Nat.mul_zero, Nat.add_zero] at e6
    obtain ⟨res, g1, g2⟩ := recvBytes_yields (r := { r with buffer := b }) e6
    obtain ⟨ress, b', bs', k1, k2, k3, k4, k5⟩ := ih e1 e2 e4 e5 e3
    refine ⟨res :: ress, b', bs', ?_, by simp [g2, k2], k3, k4, k5⟩
    simp only [List.length_cons, Receiver.recvManyBytes, g1, k1]

/-- What an item of the stream tells the program. -/
def Item.report : Item OwnedMsg → Option Report
  | .item m => some (.heard m.spec)
  | .err e => some (.refused e)
  | _ => none

theorem decNext_yields {c : MsgCodec} (hc : c.df.maxDf ≤ u32Max) {bs rest : Bytes} {rep : Report} {b' : List DataFrame}
    (h : Yields c.df.isServer (pLoop c.cfg c.buffer (heldLen c.buffer) bs) rep b' rest) :
    ∃ it, decNext msgDecoder c bs = (it, { c with buffer := b' }, rest) ∧ it.report = some rep ∧
      (rep ≠ .refused msgLimitErr → (msgDecoder c bs).1 ≠ .err msgLimitErr) := by
  have hd : msgDecoder c bs = c.decode bs := rfl
  unfold decNext
  rw [hd, MsgCodec.decode_eq c hc bs]
  cases hp : pLoop c.cfg c.buffer (heldLen c.buffer) bs with
  | msg fs b q =>
    rw [hp] at h
    obtain ⟨h1, rfl, rfl⟩ := h
    cases ho : OwnedMsg.fromDataframes (fs.map DataFrame.view) with
    | ok m => rw [ho] at h1; refine ⟨.item m, by simp [asyncOut, ho], ?_, by simp [asyncOut, ho]⟩; exact report_matches (r := .ok m) h1
    | err e =>
      rw [ho] at h1
      refine ⟨.err e, by simp [asyncOut, ho], report_matches (r := .err e) h1, ?_⟩
      intro hne
      cases rep with
      | heard m => exact h1.elim
      | refused e' => have : e = e' := h1; subst this; simpa [asyncOut, ho] using hne
    | panic w => rw [ho] at h1; cases rep <;> exact h1.elim
  | fail e b q => rw [hp] at h; obtain ⟨rfl, rfl, rfl⟩ := h; exact ⟨.err e, rfl, rfl, by intro h h'; simp at h'; exact h (by rw [h'])⟩
  | bad e b st q =>
    rw [hp] at h
    obtain ⟨rfl, rfl, rfl, rfl⟩ := h
    refine ⟨.err (maskErr c.df.isServer), by simp, rfl, ?_⟩
    intro h h'
    simp at h'
    exact h (by rw [h'])
  | more b cur l => rw [hp] at h; exact h.elim

theorem decMany_calls {c : MsgCodec} (hc : c.df.maxDf ≤ u32Max) {held : List Spec.Frame} {fs fs' : List (Spec.Frame × Bool)} {reps : List Report}
    {held' : List Spec.Frame} (h : Spec.Calls c.df.isServer (Spec.OverAsync c.maxMsg) held fs reps held' fs') {b : List DataFrame} (hb : specs b = held)
    (ht : Tail b) (hl : ∀ f ∈ fs, f.1.payload.length ≤ c.df.maxDf) (hsz : Spec.load (held ++ fs.map Prod.fst) ≤ isizeMax) {bs : Bytes} (hw : Tape fs bs)
    (x : Bytes) :
    ∃ its b' bs', decMany msgDecoder reps.length { c with buffer := b } (bs ++ x) = (its, { c with buffer := b' }, bs' ++ x) ∧
      its.map Item.report = reps.map some ∧ specs b' = held' ∧ Tail b' ∧ Tape fs' bs' ∧
      (Report.refused msgLimitErr ∉ reps → GoodMany msgDecoder (fun r => r ≠ .err msgLimitErr) reps.length { c with buffer := b } (bs ++ x)) := by
  induction h generalizing b bs with
  | nil => exact ⟨[], b, bs, rfl, rfl, hb, ht, hw, fun _ => trivial⟩
  | @cons held fs rep held₁ fs₁ reps held' fs' h hr' ih =>
    obtain ⟨b1, bs1, e1, e2, e3, e4, e5, e6⟩ := pLoop_call (c := MsgCodec.cfg { c with buffer := b }) (stepRef_async c.maxMsg)
      (Nat.lt_of_le_of_lt hc (by decide)) h hb ht hl hsz hw x
    rw [Nat.mul_zero, Nat.add_zero] at e6
    obtain ⟨it, g1, g2, g3⟩ := decNext_yields (c := { c with buffer := b }) hc e6
    obtain ⟨its, b', bs', k1, k2, k3, k4, k5, k6⟩ := ih e1 e2 e4 e5 e3
    refine ⟨it :: its, b', bs', ?_, by simp [g2, k2], k3, k4, k5, ?_⟩
    · simp only [List.length_cons, decMany, g1, k1]
    · intro hn
      simp only [List.mem_cons, not_or] at hn
      refine ⟨g3 (fun h => hn.1 h.symm), ?_⟩
      rw [g1]
      exact k6 hn.2

/-! ### The specification says exactly one thing -/

theorem meets_unique {masked : Bool} {over : List Spec.Frame → Nat → Prop} {held : List Spec.Frame} {k : Nat} {f : Spec.Frame × Bool} {rep rep' : Report}
    {held' held'' : List Spec.Frame} (hco : ControlOk f.1) (h : Meets masked over held k f rep held') (h' : Meets masked over held k f rep' held'') :
    rep = rep' ∧ held' = held'' := by
  have am : ∀ {fs : List Spec.Fragment} {m m' : Spec.Message}, Assembles fs m → Assembles fs m' → m = m' := by
    rintro fs m m' ⟨f1, r1, e1, -, -, h1⟩ ⟨f2, r2, e2, -, -, h2⟩
    rw [e1] at e2
    simp only [List.cons.injEq] at e2
    rw [← e2.1] at h2
    generalize fs.flatMap Spec.Fragment.payload = d at h1 h2
    generalize f1.opcode = o at h1 h2
    cases h1 <;> cases h2 <;> rfl
  have ca : ∀ {g : Spec.Frame}, 8 ≤ g.opcode → Allowed held g → False := by
    rintro g h8 (⟨-, -, h⟩ | ⟨-, h⟩) <;> omega
  have oa : ∀ {g : Spec.Frame}, held = [] → g.opcode = 0 → Allowed held g → False := by
    rintro g he h0 (⟨-, h, -⟩ | ⟨h, -⟩)
    · exact h h0
    · exact h he
  have ia : ∀ {g : Spec.Frame}, held ≠ [] → g.opcode ≠ 0 → Allowed held g → False := by
    rintro g he h0 (⟨h, -, -⟩ | ⟨-, h⟩)
    · exact he h
    · exact h0 h
  cases h with
  | wrongMask h =>
    cases h' with
    | wrongMask => exact ⟨rfl, rfl⟩
    | _ => exact absurd rfl h
  | control h8 h =>
    cases h' with
    | wrongMask h => exact absurd rfl h
    | control _ g => exact ⟨by rw [am h g], rfl⟩
    | badControl _ g => exact (Spec.refused_assembles g h).elim
    | orphan _ h0 => omega
    | intruder _ _ g8 => omega
    | tooMany ha => exact (ca h8 ha).elim
    | tooLong ha => exact (ca h8 ha).elim
    | final ha => exact (ca h8 ha).elim
    | badFinal ha => exact (ca h8 ha).elim
  | badControl h8 h =>
    cases h' with
    | wrongMask h => exact absurd rfl h
    | control _ g => exact (Spec.refused_assembles h g).elim
    | badControl _ g => exact ⟨by rw [Spec.refused_unique h g], rfl⟩
    | orphan _ h0 => omega
    | intruder _ _ g8 => omega
    | tooMany ha => exact (ca h8 ha).elim
    | tooLong ha => exact (ca h8 ha).elim
    | final ha => exact (ca h8 ha).elim
    | badFinal ha => exact (ca h8 ha).elim
  | orphan he h0 =>
    cases h' with
    | wrongMask h => exact absurd rfl h
    | control h8 => omega
    | badControl h8 => omega
    | orphan => exact ⟨rfl, rfl⟩
    | intruder g => exact absurd he g
    | tooMany ha => exact (oa he h0 ha).elim
    | tooLong ha => exact (oa he h0 ha).elim
    | final ha => exact (oa he h0 ha).elim
    | badFinal ha => exact (oa he h0 ha).elim
  | intruder he h0 h8 =>
    cases h' with
    | wrongMask h => exact absurd rfl h
    | control g8 => omega
    | badControl g8 => omega
    | orphan g => exact absurd g he
    | intruder => exact ⟨rfl, rfl⟩
    | tooMany ha => exact (ia he h0 ha).elim
    | tooLong ha => exact (ia he h0 ha).elim
    | final ha => exact (ia he h0 ha).elim
    | badFinal ha => exact (ia he h0 ha).elim
  | tooMany ha hf hn =>
    cases h' with
    | wrongMask h => exact absurd rfl h
    | control h8 => exact (ca h8 ha).elim
    | badControl h8 => exact (ca h8 ha).elim
    | orphan he h0 => exact (oa he h0 ha).elim
    | intruder he h0 => exact (ia he h0 ha).elim
    | tooMany => exact ⟨rfl, rfl⟩
    | tooLong _ _ g => omega
    | final _ g => rw [hf] at g; cases g
    | badFinal _ g => rw [hf] at g; cases g
  | tooLong ha hf hn ho =>
    cases h' with
    | wrongMask h => exact absurd rfl h
    | control h8 => exact (ca h8 ha).elim
    | badControl h8 => exact (ca h8 ha).elim
    | orphan he h0 => exact (oa he h0 ha).elim
    | intruder he h0 => exact (ia he h0 ha).elim
    | tooMany _ _ g => omega
    | tooLong => exact ⟨rfl, rfl⟩
    | final _ g => rw [hf] at g; cases g
    | badFinal _ g => rw [hf] at g; cases g
  | final ha hf h =>
    cases h' with
    | wrongMask h => exact absurd rfl h
    | control h8 => exact (ca h8 ha).elim
    | badControl h8 => exact (ca h8 ha).elim
    | orphan he h0 => exact (oa he h0 ha).elim
    | intruder he h0 => exact (ia he h0 ha).elim
    | tooMany _ g => rw [hf] at g; cases g
    | tooLong _ g => rw [hf] at g; cases g
    | final _ _ g => exact ⟨by rw [am h g], rfl⟩
    | badFinal _ _ g => exact (Spec.refused_assembles g h).elim
  | badFinal ha hf h =>
    cases h' with
    | wrongMask h => exact absurd rfl h
    | control h8 => exact (ca h8 ha).elim
    | badControl h8 => exact (ca h8 ha).elim
    | orphan he h0 => exact (oa he h0 ha).elim
    | intruder he h0 => exact (ia he h0 ha).elim
    | tooMany _ g => rw [hf] at g; cases g
    | tooLong _ g => rw [hf] at g; cases g
    | final _ _ g => exact (Spec.refused_assembles h g).elim
    | badFinal _ _ g => exact ⟨by rw [Spec.refused_unique h g], rfl⟩

theorem meets_not_joins {masked : Bool} {over : List Spec.Frame → Nat → Prop} {held : List Spec.Frame} {k : Nat} {f : Spec.Frame × Bool} {rep : Report}
    {held' : List Spec.Frame} (h : Meets masked over held k f rep held') (h' : Joins masked over held k f) : False := by
  obtain ⟨j1, j2, j3, j4, j5⟩ := h'
  cases h with
  | wrongMask h => exact h j1
  | control h8 => rcases j2 with ⟨-, -, h⟩ | ⟨-, h⟩ <;> simp only at h <;> omega
  | badControl h8 => rcases j2 with ⟨-, -, h⟩ | ⟨-, h⟩ <;> simp only at h <;> omega
  | orphan he h0 =>
    rcases j2 with ⟨-, h, -⟩ | ⟨h, -⟩
    · exact h h0
    · exact h he
  | intruder he h0 =>
    rcases j2 with ⟨h, -, -⟩ | ⟨-, h⟩
    · exact he h
    · exact h0 h
  | tooMany _ _ h => simp only at j4; omega
  | tooLong _ _ _ h => exact j5 h
  | final _ h => simp only at j3; rw [h] at j3; cases j3
  | badFinal _ h => simp only at j3; rw [h] at j3; cases j3

/-- The held frames after the first are continuations. -/
def Spec.Rest (held : List Spec.Frame) : Prop := ∀ g ∈ held.drop 1, g.opcode = 0

theorem rest_snoc {held : List Spec.Frame} {f : Spec.Frame} (h : Spec.Rest held) (ha : Allowed held f) : Spec.Rest (held ++ [f]) := by
  cases held with
  | nil => intro g hg; simp at hg
  | cons a b =>
    intro g hg
    simp only [List.cons_append, List.drop_succ_cons, List.drop_zero, List.mem_append, List.mem_singleton] at hg
    rcases hg with hg | rfl
    · exact h g (by simpa using hg)
    · rcases ha with ⟨h, -⟩ | ⟨-, h⟩
      · cases h
      · exact h

theorem meets_or_joins (masked : Bool) (over : List Spec.Frame → Nat → Prop) {held : List Spec.Frame} (k : Nat) (f : Spec.Frame × Bool)
    (hr : Spec.Rest held) : (∃ rep held', Meets masked over held k f rep held' ∧ Spec.Rest held') ∨ (Joins masked over held k f ∧ Spec.Rest (held ++ [f.1])) := by
  obtain ⟨f, m⟩ := f
  have hnil : Spec.Rest [] := by intro g hg; simp at hg
  by_cases hm : m = masked
  · subst hm
    by_cases h8 : 8 ≤ f.opcode
    · rcases Spec.refused_total (f := f.fragment) (fs := []) (by simp) with ⟨x, h⟩ | ⟨e, h⟩
      · exact .inl ⟨_, _, .control h8 h, hr⟩
      · exact .inl ⟨_, _, .badControl h8 h, hr⟩
    by_cases ha : Allowed held f
    · by_cases hf : f.fin = true
      · have hrs := rest_snoc hr ha
        have : (∃ x, Assembles ((held ++ [f]).map Spec.Frame.fragment) x) ∨ ∃ e, Refused e ((held ++ [f]).map Spec.Frame.fragment) := by
          cases hh : held ++ [f] with
          | nil => simp at hh
          | cons a b =>
            rw [hh] at hrs
            refine Spec.refused_total ?_
            intro g hg
            simp only [List.mem_map] at hg
            obtain ⟨q, hq, rfl⟩ := hg
            exact hrs q (by simpa using hq)
        rcases this with ⟨x, h⟩ | ⟨e, h⟩
        · exact .inl ⟨_, _, .final ha hf h, hnil⟩
        · exact .inl ⟨_, _, .badFinal ha hf h, hnil⟩
      · have hf : f.fin = false := by simpa using hf
        by_cases hn : 2 ^ 20 ≤ (held ++ [f]).length
        · exact .inl ⟨_, _, .tooMany ha hf hn, rest_snoc hr ha⟩
        · by_cases ho : over (held ++ [f]) (k + 1)
          · exact .inl ⟨_, _, .tooLong ha hf (by omega) ho, rest_snoc hr ha⟩
          · exact .inr ⟨⟨rfl, ha, hf, by simp only; omega, ho⟩, rest_snoc hr ha⟩
    · unfold Spec.Allowed at ha
      by_cases he : held = []
      · by_cases h0 : f.opcode = 0
        · exact .inl ⟨_, _, .orphan he h0, hr⟩
        · exact absurd (.inl ⟨he, h0, by omega⟩) ha
      · by_cases h0 : f.opcode = 0
        · exact absurd (.inr ⟨he, h0⟩) ha
        · exact .inl ⟨_, _, .intruder he h0 (by omega), hr⟩
  · exact .inl ⟨_, _, .wrongMask hm, hr⟩

theorem call_unique {masked : Bool} {over : List Spec.Frame → Nat → Prop} {held : List Spec.Frame} {k : Nat} {fs fs₁ fs₂ : List (Spec.Frame × Bool)}
    {r₁ r₂ : Report} {h₁ h₂ : List Spec.Frame} (hco : ∀ f ∈ fs, ControlOk f.1) (a : Spec.Call masked over held k fs r₁ h₁ fs₁)
    (b : Spec.Call masked over held k fs r₂ h₂ fs₂) : r₁ = r₂ ∧ h₁ = h₂ ∧ fs₁ = fs₂ := by
  induction a with
  | now h =>
    cases b with
    | now g => obtain ⟨rfl, rfl⟩ := meets_unique (hco _ List.mem_cons_self) h g; exact ⟨rfl, rfl, rfl⟩
    | later g => exact (meets_not_joins h g).elim
  | later h hr ih =>
    cases b with
    | now g => exact (meets_not_joins g h).elim
    | later g gr => exact ih (fun f hf => hco f (List.mem_cons_of_mem _ hf)) gr

theorem call_rest {masked : Bool} {over : List Spec.Frame → Nat → Prop} {held : List Spec.Frame} {k : Nat} {fs fs' : List (Spec.Frame × Bool)}
    {r : Report} {held' : List Spec.Frame} (a : Spec.Call masked over held k fs r held' fs') : ∃ taken, taken ≠ [] ∧ fs = taken ++ fs' := by
  induction a with
  | @now held k f fs _ _ h => exact ⟨[f], by simp, rfl⟩
  | @later held k f fs _ _ fs' h hr ih =>
    obtain ⟨t, -, rfl⟩ := ih
    exact ⟨f :: t, by simp, rfl⟩

theorem call_total (masked : Bool) (over : List Spec.Frame → Nat → Prop) {held : List Spec.Frame} (k : Nat) (fs : List (Spec.Frame × Bool))
    (hr : Spec.Rest held) : (∃ r held' fs', Spec.Call masked over held k fs r held' fs' ∧ Spec.Rest held') ∨
      ¬ ∃ r held' fs', Spec.Call masked over held k fs r held' fs' := by
  induction fs generalizing held k with
  | nil => exact .inr (by rintro ⟨_, _, _, h⟩; cases h)
  | cons f fs ih =>
    rcases meets_or_joins masked over k f hr with ⟨rep, held', h, h2⟩ | ⟨h, h2⟩
    · exact .inl ⟨_, _, _, .now h, h2⟩
    · rcases ih (k + 1) h2 with ⟨r, held', fs', h3, h4⟩ | h3
      · exact .inl ⟨_, _, _, .later h h3, h4⟩
      · refine .inr ?_
        rintro ⟨r, held', fs', h4⟩
        cases h4 with
        | now g => exact meets_not_joins g h
        | later g gr => exact h3 ⟨_, _, _, gr⟩

theorem calls_total (masked : Bool) (over : List Spec.Frame → Nat → Prop) (n : Nat) {held : List Spec.Frame} (fs : List (Spec.Frame × Bool))
    (hn : fs.length ≤ n) (hr : Spec.Rest held) : ∃ reps held' fs', Spec.Calls masked over held fs reps held' fs' ∧
      ¬ ∃ r h f, Spec.Call masked over held' 0 fs' r h f := by
  induction n generalizing held fs with
  | zero =>
    have : fs = [] := List.length_eq_zero_iff.mp (by omega)
    subst this
    exact ⟨[], held, [], .nil, by rintro ⟨_, _, _, h⟩; cases h⟩
  | succ n ih =>
    rcases call_total masked over 0 fs hr with ⟨r, held', fs', h1, h2⟩ | h
    · obtain ⟨t, ht, rfl⟩ := call_rest h1
      have : 0 < t.length := List.length_pos_iff.mpr ht
      obtain ⟨reps, h3, f3, g1, g2⟩ := ih fs' (by simp at hn; omega) h2
      exact ⟨r :: reps, h3, f3, .cons h1 g1, g2⟩
    · exact ⟨[], held, fs, .nil, h⟩

/-! ### Frames the async decoder cannot get past -/

/-- The errors after which the decoder has not moved. -/
def Spec.blocking : List WsErr :=
  [.dataFrame "Invalid data frame length", .dataFrame "Control frame length too long", .protocol "Illegal fragmented control frame",
    .protocol "Exceeded maximum incoming DataFrame size"]

theorem collect_other {first : Bool} {data : Bytes} {fs : List FrameView} {e : WsErr} (h : collectFrames first data fs = .err e) : e ∉ Spec.blocking := by
  induction fs generalizing first data with
  | nil => cases h
  | cons f fs ih =>
    unfold collectFrames at h
    split at h
    · cases h; decide
    · split at h
      · cases h; decide
      · exact ih h

theorem fromDataframes_other {fs : List FrameView} {e : WsErr} (h : OwnedMsg.fromDataframes fs = .err e) : e ∉ Spec.blocking := by
  have h' : Msg.fromDataframes fs = .err e := by
    unfold OwnedMsg.fromDataframes at h
    cases hm : Msg.fromDataframes fs with
    | ok m => rw [hm] at h; cases h
    | err e' => rw [hm] at h; simp only [Res.bind_err, Res.err.injEq] at h; rw [h]
    | panic w => rw [hm] at h; cases h
  cases fs with
  | nil => cases h'; decide
  | cons f fs =>
    unfold Msg.fromDataframes at h'
    simp only at h'
    split at h'
    · cases h'
    cases hc : collectFrames true [] (f :: fs) with
    | panic w => rw [hc] at h'; cases h'
    | err e' => rw [hc] at h'; cases h'; exact collect_other hc
    | ok d =>
      rw [hc] at h'
      simp only [Res.bind_ok] at h'
      repeat' split at h'
      all_goals first | cases h'; decide | cases h'

theorem asyncStep_other {maxMsg cur : Nat} {b b' : List DataFrame} {f : DataFrame} {e : WsErr} (h : asyncStep maxMsg b cur f = .fail e b') :
    e ∉ Spec.blocking := by
  unfold asyncStep at h
  repeat' split at h
  all_goals first | cases h; decide | cases h

/-- The decoder gives one of these errors only for the frame that stands first in what it leaves. -/
theorem pLoop_blocking {c : Cfg} (hs : ∀ b cur f e b', c.step b cur f = .fail e b' → e ∉ Spec.blocking) {b : List DataFrame} {cur : Nat} {bs : Bytes} :
    (∀ e b' rest, pLoop c b cur bs = .fail e b' rest → e ∉ Spec.blocking) ∧
    (∀ e b' start rest, pLoop c b cur bs = .bad e b' start rest → parseFrame c.masked c.lim c.big start = .err e rest) := by
  fun_induction pLoop c b cur bs with
  | case1 buffer cur bs f rest h fs b hstep => exact ⟨by simp, by simp⟩
  | case2 buffer cur bs f rest h e b hstep =>
    refine ⟨?_, by simp⟩
    intro e' b' rest' he
    simp only [POut.fail.injEq] at he
    obtain ⟨rfl, -, -⟩ := he
    exact hs _ _ _ _ _ hstep
  | case3 buffer cur bs f rest h b cur' hstep ih => exact ih
  | case4 buffer cur bs e rest h =>
    refine ⟨by simp, ?_⟩
    intro e' b' start' rest' he
    simp only [POut.bad.injEq] at he
    obtain ⟨rfl, -, rfl, rfl⟩ := he
    exact h
  | case5 buffer cur bs h => exact ⟨by simp, by simp⟩

theorem maskErr_other (m : Bool) : maskErr m ∉ Spec.blocking := by cases m <;> decide

theorem decode_blocking {c c' : MsgCodec} (hc : c.df.maxDf ≤ u32Max) {bs rest : Bytes} {e : WsErr} (h : c.decode bs = (.err e, c', rest))
    (he : e ∈ Spec.blocking) : c'.df = c.df ∧ ∀ x, c'.decode (rest ++ x) = (.err e, c', rest ++ x) := by
  rw [MsgCodec.decode_eq c hc bs] at h
  have hpl := pLoop_blocking (c := c.cfg) (fun b cur f e b' h => asyncStep_other h) (b := c.buffer) (cur := heldLen c.buffer) (bs := bs)
  cases hp : pLoop c.cfg c.buffer (heldLen c.buffer) bs with
  | msg fs b q =>
    rw [hp] at h
    simp only [Prod.mk.injEq] at h
    obtain ⟨h, -⟩ := h
    unfold asyncOut at h
    cases ho : OwnedMsg.fromDataframes (fs.map DataFrame.view) with
    | ok m => rw [ho] at h; cases h
    | err e' => rw [ho] at h; cases h; exact absurd he (fromDataframes_other ho)
    | panic w => rw [ho] at h; cases h
  | fail e' b q =>
    rw [hp] at h; simp only [Prod.mk.injEq, Res.err.injEq] at h
    obtain ⟨rfl, -⟩ := h
    exact absurd he (hpl.1 _ _ _ hp)
  | bad e' b st q =>
    rw [hp] at h; simp only [Prod.mk.injEq, Res.err.injEq] at h
    obtain ⟨rfl, rfl, hr⟩ := h
    have hne : e' ≠ maskErr c.df.isServer := fun hx => maskErr_other _ (hx ▸ he)
    rw [if_neg hne] at hr
    subst hr
    refine ⟨rfl, fun x => ?_⟩
    have h1 := (stable_frame _ _ _ st x).2 _ _ (hpl.2 _ _ _ _ hp)
    rw [MsgCodec.decode_eq { c with buffer := b } hc, pLoop_err (c := MsgCodec.cfg { c with buffer := b }) h1]
    simp only [if_neg hne]
  | more b cur l => rw [hp] at h; simp at h

/-- A stream that is stuck at a frame. -/
def StuckAt (fr : Framed MsgCodec) (e : WsErr) : Prop := fr.readable = true ∧ ∀ x, fr.codec.decode (fr.buf ++ x) = (.err e, fr.codec, fr.buf ++ x)

theorem stuck_poll {fr : Framed MsgCodec} {e : WsErr} (h : StuckAt fr e) (s : Src) : fr.poll msgDecoder s = (.ready (.err e), fr, s) := by
  obtain ⟨h1, h2⟩ := h
  have h3 : msgDecoder fr.codec fr.buf = (.err e, fr.codec, fr.buf) := by have := h2 []; simpa [msgDecoder] using this
  unfold Framed.poll Framed.pollEof
  rw [if_pos h1, h3]
  split <;> rfl

theorem stuck_nextMany {fr : Framed MsgCodec} {e : WsErr} (h : StuckAt fr e) (n : Nat) (s : Src) :
    fr.nextMany msgDecoder n s = (List.replicate n (.err e), fr, s) := by
  induction n with
  | zero => rfl
  | succ n ih =>
    have hn : fr.next msgDecoder s = (.err e, fr, s) := by
      rw [Framed.next]
      split
      · next x fr' s' hp => rw [stuck_poll h] at hp; cases hp; rfl
      · next fr' s' hp => rw [stuck_poll h] at hp; cases hp
    unfold Framed.nextMany
    simp only [hn, ih, List.replicate_succ]

theorem decode_keeps_df (c : MsgCodec) (hc : c.df.maxDf ≤ u32Max) (bs : Bytes) : (c.decode bs).2.1.df = c.df := by
  rw [MsgCodec.decode_eq c hc bs]
  split <;> rfl

theorem pollEof_stuck {fr fr' : Framed MsgCodec} (hc : fr.codec.df.maxDf ≤ u32Max) (hr : fr.readable = true) {e : WsErr} (he : e ∈ Spec.blocking)
    (h : fr.pollEof msgDecoder = (.err e, fr')) : StuckAt fr' e := by
  unfold Framed.pollEof at h
  split at h
  · simp at h
  · next c b hd =>
    simp only [Prod.mk.injEq] at h
    obtain ⟨h, -⟩ := h
    split at h
    · cases h
    · cases h; exact absurd he (by decide)
  · next e' c b hd =>
    simp only [Prod.mk.injEq, Item.err.injEq] at h
    obtain ⟨rfl, rfl⟩ := h
    exact ⟨hr, (decode_blocking hc hd he).2⟩
  · simp at h

theorem pollRead_stuck {fr fr' : Framed MsgCodec} (hc : fr.codec.df.maxDf ≤ u32Max) {s s' : Src} {e : WsErr} (he : e ∈ Spec.blocking)
    (h : fr.pollRead msgDecoder s = (.ready (.err e), fr', s')) : StuckAt fr' e := by
  induction s generalizing fr with
  | nil =>
    unfold Framed.pollRead at h
    simp only [Prod.mk.injEq, Poll.ready.injEq] at h
    exact pollEof_stuck (fr := { fr with eof := true, readable := true }) hc rfl he (Prod.ext h.1 h.2.1)
  | cons ev rest ih =>
    cases ev with
    | error k =>
      unfold Framed.pollRead at h
      split at h
      · cases h
      · simp only [Prod.mk.injEq, Poll.ready.injEq, Item.err.injEq] at h
        obtain ⟨rfl, -⟩ := h
        cases k <;> exact absurd he (by decide)
    | chunk b =>
      unfold Framed.pollRead at h
      split at h
      · simp only [Prod.mk.injEq, Poll.ready.injEq] at h
        exact pollEof_stuck (fr := { fr with eof := true, readable := true }) hc rfl he (Prod.ext h.1 h.2.1)
      · split at h
        · cases h
        · next c b' hd =>
          refine ih (fr := { fr with codec := c, buf := b', readable := false }) ?_ h
          have := decode_keeps_df fr.codec hc (fr.buf ++ b)
          have hd : fr.codec.decode (fr.buf ++ b) = (.ok none, c, b') := hd
          rw [hd] at this
          show c.df.maxDf ≤ u32Max
          rw [this]; exact hc
        · next e' c b' hd =>
          simp only [Prod.mk.injEq, Poll.ready.injEq, Item.err.injEq] at h
          obtain ⟨rfl, rfl, -⟩ := h
          exact ⟨rfl, (decode_blocking hc hd he).2⟩
        · cases h

theorem poll_stuck {fr fr' : Framed MsgCodec} (hc : fr.codec.df.maxDf ≤ u32Max) {s s' : Src} {e : WsErr} (he : e ∈ Spec.blocking)
    (h : fr.poll msgDecoder s = (.ready (.err e), fr', s')) : StuckAt fr' e := by
  unfold Framed.poll at h
  split at h
  · next hr =>
    split at h
    · simp only [Prod.mk.injEq, Poll.ready.injEq] at h
      exact pollEof_stuck hc hr he (Prod.ext h.1 h.2.1)
    · split at h
      · cases h
      · next c b' hd =>
        refine pollRead_stuck (fr := { fr with codec := c, buf := b', readable := false }) ?_ he h
        have := decode_keeps_df fr.codec hc fr.buf
        have hd : fr.codec.decode fr.buf = (.ok none, c, b') := hd
        rw [hd] at this
        show c.df.maxDf ≤ u32Max
        rw [this]; exact hc
      · next e' c b' hd =>
        simp only [Prod.mk.injEq, Poll.ready.injEq, Item.err.injEq] at h
        obtain ⟨rfl, rfl, -⟩ := h
        exact ⟨hr, (decode_blocking hc hd he).2⟩
      · cases h
  · exact pollRead_stuck hc he h

theorem pollRead_keeps_df {fr : Framed MsgCodec} (hc : fr.codec.df.maxDf ≤ u32Max) (s : Src) : (fr.pollRead msgDecoder s).2.1.codec.df = fr.codec.df := by
  have hE : ∀ fr : Framed MsgCodec, fr.codec.df.maxDf ≤ u32Max → (fr.pollEof msgDecoder).2.codec.df = fr.codec.df := by
    intro fr hc
    have := decode_keeps_df fr.codec hc fr.buf
    unfold Framed.pollEof msgDecoder
    split <;> next hd => rw [hd] at this; exact this
  induction s generalizing fr with
  | nil => unfold Framed.pollRead; exact hE { fr with eof := true, readable := true } hc
  | cons ev rest ih =>
    cases ev with
    | error k => unfold Framed.pollRead; split <;> rfl
    | chunk b =>
      unfold Framed.pollRead
      split
      · exact hE { fr with eof := true, readable := true } hc
      · have := decode_keeps_df fr.codec hc (fr.buf ++ b)
        split
        · next hd => have hd : fr.codec.decode (fr.buf ++ b) = _ := hd; rw [hd] at this; exact this
        · next c b' hd =>
          have hd : fr.codec.decode (fr.buf ++ b) = _ := hd
          rw [hd] at this
          have this : c.df = fr.codec.df := this
          rw [ih (fr := { fr with codec := c, buf := b', readable := false }) (by show c.df.maxDf ≤ u32Max; rw [this]; exact hc)]
          exact this
        · next hd => have hd : fr.codec.decode (fr.buf ++ b) = _ := hd; rw [hd] at this; exact this
        · next hd => have hd : fr.codec.decode (fr.buf ++ b) = _ := hd; rw [hd] at this; exact this

theorem next_stuck {fr fr' : Framed MsgCodec} (hc : fr.codec.df.maxDf ≤ u32Max) {s s' : Src} {e : WsErr} (he : e ∈ Spec.blocking)
    (h : fr.next msgDecoder s = (.err e, fr', s')) : StuckAt fr' e := by
  fun_induction Framed.next msgDecoder fr s with
  | case1 fr s x fr1 s1 hp =>
    simp only [Prod.mk.injEq] at h
    obtain ⟨rfl, rfl, rfl⟩ := h
    exact poll_stuck hc he hp
  | case2 fr s fr1 s1 hp ih =>
    refine ih ?_ h
    have : fr1.codec.df = fr.codec.df := by
      have h0 : (fr.poll msgDecoder s).2.1 = fr1 := by rw [hp]
      rw [← h0]
      unfold Framed.poll at hp ⊢
      split at hp
      · next hr =>
        rw [if_pos hr]
        split at hp
        · cases hp
        · next he' =>
          rw [if_neg he']
          split at hp
          · cases hp
          · next c b' hd =>
            have := decode_keeps_df fr.codec hc fr.buf
            have hd' : fr.codec.decode fr.buf = (.ok none, c, b') := hd
            rw [hd'] at this
            have this : c.df = fr.codec.df := this
            rw [pollRead_keeps_df (fr := { fr with codec := c, buf := b', readable := false }) (by show c.df.maxDf ≤ u32Max; rw [this]; exact hc)]
            exact this
          · cases hp
          · cases hp
      · next hr => rw [if_neg hr]; exact pollRead_keeps_df hc s
    rw [this]; exact hc

end WS
