import Verif.Lemmas.Recv
import Verif.Lemmas.Message
import Verif.Spec.Session
/-! The receive loop delivers what the specification says a stream of frames delivers. -/

namespace WS
open Spec (IsFrame ControlOk Wire Allowed Delivers Assembles weight)

theorem opcode_exists {n : Nat} (h : n < 16) : ∃ o : Opcode, o.toU8.toNat = n := by
  match n, h with
  | 0, _ => exact ⟨.continuation, rfl⟩
  | 1, _ => exact ⟨.text, rfl⟩
  | 2, _ => exact ⟨.binary, rfl⟩
  | 3, _ => exact ⟨.nonControl1, rfl⟩
  | 4, _ => exact ⟨.nonControl2, rfl⟩
  | 5, _ => exact ⟨.nonControl3, rfl⟩
  | 6, _ => exact ⟨.nonControl4, rfl⟩
  | 7, _ => exact ⟨.nonControl5, rfl⟩
  | 8, _ => exact ⟨.close, rfl⟩
  | 9, _ => exact ⟨.ping, rfl⟩
  | 10, _ => exact ⟨.pong, rfl⟩
  | 11, _ => exact ⟨.control1, rfl⟩
  | 12, _ => exact ⟨.control2, rfl⟩
  | 13, _ => exact ⟨.control3, rfl⟩
  | 14, _ => exact ⟨.control4, rfl⟩
  | 15, _ => exact ⟨.control5, rfl⟩
  | n + 16, h => omega

/-- A frame of the specification as a model frame. -/
theorem frame_exists {f : Spec.Frame} (h : f.opcode < 16) : ∃ g : DataFrame, g.spec = f := by
  obtain ⟨o, ho⟩ := opcode_exists h
  exact ⟨⟨f.fin, f.rsv1, f.rsv2, f.rsv3, o, f.payload⟩, by simp [DataFrame.spec, ho]⟩

theorem key4_exists {k : List UInt8} (h : k.length = 4) : ∃ q : Key4, q.toBytes = k := by
  match k, h with
  | [a, b, c, d], _ => exact ⟨⟨a, b, c, d⟩, rfl⟩

/-- A legal frame at the front of the input is read. -/
theorem parseFrame_isFrame {masked : Bool} {lim : Nat} (hlim : lim < 2 ^ 63) {big : WsErr} {f : Spec.Frame}
    {key : Option (List UInt8)} {bs : Bytes} (h : IsFrame f key bs) (hk : key.isSome = masked)
    (hc : ControlOk f) (hl : f.payload.length ≤ lim) (x : Bytes) :
    ∃ g : DataFrame, g.spec = f ∧ parseFrame masked lim big (bs ++ x) = .ok g x := by
  have h' := h
  obtain ⟨_, _, _, _, _, _, ho, _, _, _, hk4, _⟩ := h'
  obtain ⟨g, rfl⟩ := frame_exists ho
  refine ⟨g, rfl, (parseFrame_ok_iff hlim).mpr ⟨hl, hc, ?_⟩⟩
  cases key with
  | none => exact ⟨none, bs, rfl, hk, h⟩
  | some k =>
    obtain ⟨q, hq⟩ := key4_exists (hk4 k rfl)
    exact ⟨some q, bs, rfl, hk, by simpa [hq] using h⟩

/-- A proper prefix of a legal frame is recognised as incomplete. -/
theorem parseFrame_prefix {masked : Bool} {lim : Nat} (hlim : lim < 2 ^ 63) {big : WsErr} {f : Spec.Frame}
    {key : Option (List UInt8)} {p q : Bytes} (h : IsFrame f key (p ++ q)) (hq : q ≠ [])
    (hk : key.isSome = masked) (hc : ControlOk f) (hl : f.payload.length ≤ lim) :
    parseFrame masked lim big p = .more := by
  obtain ⟨g, -, hg⟩ := parseFrame_isFrame hlim (big := big) h hk hc hl []
  rw [List.append_nil] at hg
  have hs := stable_frame masked lim big p q
  cases hp : parseFrame masked lim big p with
  | ok a rest =>
    have := hs.1 _ _ hp
    rw [hg] at this
    simp only [PRes.ok.injEq] at this
    have := congrArg List.length this.2
    simp only [List.length_nil, List.length_append] at this
    exact absurd (List.length_eq_zero_iff.mp (by omega)) hq
  | err e rest =>
    have := hs.2 _ _ hp
    rw [hg] at this
    simp at this
  | more => rfl

theorem parseFrame_nil {masked : Bool} {lim : Nat} {big : WsErr} : parseFrame masked lim big [] = .more := rfl

/-- Frames of the specification as the receiver holds them. -/
def specs (fs : List DataFrame) : List Spec.Frame := fs.map DataFrame.spec

theorem specs_nil {fs : List DataFrame} : specs fs = [] ↔ fs = [] := by simp [specs]
theorem specs_append (a b : List DataFrame) : specs (a ++ b) = specs a ++ specs b := by simp [specs]

theorem specs_fragments (fs : List DataFrame) :
    (specs fs).map Spec.Frame.fragment = (fs.map DataFrame.view).map FrameView.fragment := by
  simp [specs, DataFrame.spec, Spec.Frame.fragment, FrameView.fragment, DataFrame.view]

theorem heldLen_append (a b : List DataFrame) : heldLen (a ++ b) = heldLen a + heldLen b := by
  simp [heldLen]

@[simp] theorem heldLen_nil : heldLen [] = 0 := rfl
@[simp] theorem heldLen_single (f : DataFrame) : heldLen [f] = f.data.length := by simp [heldLen]

theorem weight_specs (fs : List DataFrame) : weight (specs fs) = heldLen fs + 64 * fs.length := by
  induction fs with
  | nil => rfl
  | cons f fs ih =>
    have : weight (specs (f :: fs)) = (f.data.length + 64) + weight (specs fs) := by
      simp [weight, specs, DataFrame.spec]
    rw [this, ih]
    simp only [heldLen, List.map_cons, List.sum_cons, List.length_cons]
    omega

/-- Every meaning is an owned message. -/
theorem OwnedMsg.exists_of_means {n : Nat} {d : Bytes} {sm : Spec.Message} (hm : Spec.Means n d sm) :
    ∃ m : OwnedMsg, m.spec = sm := by
  obtain ⟨m, hs⟩ := Msg.exists_spec hm
  exact ⟨m.toOwned, (Msg.toOwned_spec hs (Msg.spec_of_fields hs hm)).1⟩

/-- Frames that assemble to a message are turned into it. -/
theorem OwnedMsg.of_assembles {fs : List DataFrame} (hsz : heldLen fs ≤ isizeMax) {sm : Spec.Message}
    (h : Assembles ((specs fs).map Spec.Frame.fragment) sm) :
    ∃ m : OwnedMsg, m.spec = sm ∧ OwnedMsg.fromDataframes (fs.map DataFrame.view) = .ok m := by
  have h' := h
  obtain ⟨_, _, _, _, _, hm⟩ := h'
  obtain ⟨m, rfl⟩ := OwnedMsg.exists_of_means hm
  refine ⟨m, rfl, (OwnedMsg.fromDataframes_ok_iff _ ?_ m).mpr (specs_fragments fs ▸ h)⟩
  simpa [heldLen, DataFrame.view, Function.comp_def] using hsz

/-- A receiver that holds unfinished messages satisfying `fits`. -/
structure StepOk (c : Cfg) (fits : List Spec.Frame → Prop) : Prop where
  lim : c.lim ≤ u32Max
  control : ∀ buffer cur f, 8 ≤ f.spec.opcode → f.finished = true → c.step buffer cur f = .msg [f] buffer
  final : ∀ buffer cur f, Allowed (specs buffer) f.spec → f.finished = true →
    c.step buffer cur f = .msg (buffer ++ [f]) []
  part : ∀ buffer cur f, Allowed (specs buffer) f.spec → f.finished = false →
    fits (specs (buffer ++ [f])) → cur ≤ weight (specs buffer) →
    c.step buffer cur f = .next (buffer ++ [f]) (cur + (f.data.length + 64))
  size : ∀ buffer : List DataFrame, (∀ f ∈ buffer, f.data.length ≤ u32Max) → fits (specs buffer) →
    heldLen buffer ≤ u32Max

/-- What the loop has to do for the frames at hand: either no message is complete and it goes on,
or the first message is delivered and the others remain. -/
theorem pLoop_delivers {c : Cfg} {fits : List Spec.Frame → Prop} (hc : StepOk c fits)
    {held frames : List Spec.Frame} {ms : List Spec.Message} {held' : List Spec.Frame}
    (hd : Delivers fits held frames ms held') (hlen : ∀ f ∈ frames, f.payload.length ≤ c.lim)
    (buffer : List DataFrame) (hb : specs buffer = held) (hfit : held = [] ∨ fits held)
    (hbl : ∀ f ∈ buffer, f.data.length ≤ u32Max)
    (cur : Nat) (hcur : cur ≤ weight held) {bs : Bytes} (hw : Wire c.masked frames bs) (x : Bytes) :
    match (generalizing := false) ms with
    | [] => ∃ b cur', specs b = held' ∧ (held' = [] ∨ fits held') ∧ (∀ f ∈ b, f.data.length ≤ u32Max) ∧
        heldLen b ≤ weight held' ∧ cur' ≤ weight held' ∧
        pLoop c buffer cur (bs ++ x) = pLoop c b cur' x
    | m :: ms' => ∃ fs b frames1 bs1 om, pLoop c buffer cur (bs ++ x) = .msg fs b (bs1 ++ x) ∧
        OwnedMsg.fromDataframes (fs.map DataFrame.view) = .ok om ∧ om.spec = m ∧
        (specs b = [] ∨ fits (specs b)) ∧ (∀ f ∈ b, f.data.length ≤ u32Max) ∧
        (∀ f ∈ frames1, f.payload.length ≤ c.lim) ∧ Wire c.masked frames1 bs1 ∧
        Delivers fits (specs b) frames1 ms' held' := by
  have hl63 : c.lim < 2 ^ 63 := Nat.lt_of_le_of_lt hc.lim (by decide)
  have hsz : ∀ b : List DataFrame, (∀ f ∈ b, f.data.length ≤ u32Max) → (specs b = [] ∨ fits (specs b)) →
      heldLen b ≤ u32Max := by
    intro b h1 h2
    rcases h2 with h2 | h2
    · rw [specs_nil] at h2; subst h2; simp
    · exact hc.size b h1 h2
  induction hd generalizing buffer cur bs with
  | nil =>
    cases hw
    refine ⟨buffer, cur, hb, hfit, hbl, ?_, hcur, rfl⟩
    rw [← hb, weight_specs]; omega
  | @control held f fs m ms held' hop hok hm hr ih =>
    cases hw with
    | @cons _ _ key bs1 rest hf hk hrest =>
    rw [List.append_assoc]
    obtain ⟨g, rfl, hg⟩ := parseFrame_isFrame hl63 (big := c.big) hf hk hok (hlen f (by simp)) (rest ++ x)
    obtain ⟨om, h1, h2⟩ := OwnedMsg.of_assembles (fs := [g])
      (by have h1 : g.data.length ≤ c.lim := hlen g.spec List.mem_cons_self
          have h2 := hc.lim
          have h3 : u32Max ≤ isizeMax := by decide
          rw [heldLen_single]; omega) (by simpa [specs] using hm)
    refine ⟨[g], buffer, fs, rest, om, ?_, h2, h1, hb ▸ hfit, hbl, ?_, hrest, hb ▸ hr⟩
    · rw [pLoop_ok hg, hc.control buffer cur g hop (hok hop).2]
    · intro f hf; exact hlen f (by simp [hf])
  | @part held f fs ms held' ha hf hfits hr ih =>
    cases hw with
    | @cons _ _ key bs1 rest hff hk hrest =>
    rw [List.append_assoc]
    have hok : ControlOk f := by
      intro h8
      rcases ha with ⟨_, _, h⟩ | ⟨_, h⟩ <;> omega
    obtain ⟨g, rfl, hg⟩ := parseFrame_isFrame hl63 (big := c.big) hff hk hok (hlen f (by simp)) (rest ++ x)
    have hgl : g.data.length ≤ u32Max := Nat.le_trans (hlen g.spec List.mem_cons_self) hc.lim
    have hb' : specs (buffer ++ [g]) = held ++ [g.spec] := by rw [specs_append, hb]; rfl
    rw [pLoop_ok hg, hc.part buffer cur g (hb ▸ ha) hf (hb' ▸ hfits) (hb ▸ hcur)]
    refine ih (fun f hf => hlen f (by simp [hf])) (buffer ++ [g]) hb' (.inr hfits) ?_ _ ?_ hrest
    · intro f hf
      rcases List.mem_append.mp hf with hf | hf
      · exact hbl f hf
      · rw [List.mem_singleton.mp hf]; exact hgl
    · simp only [weight, List.map_append, List.sum_append, List.map_cons, List.map_nil, List.sum_cons, List.sum_nil]
      have : g.spec.payload.length = g.data.length := rfl
      unfold weight at hcur
      omega
  | @final held f fs m ms held' ha hf hm hr ih =>
    cases hw with
    | @cons _ _ key bs1 rest hff hk hrest =>
    rw [List.append_assoc]
    have hok : ControlOk f := by
      intro h8
      rcases ha with ⟨_, _, h⟩ | ⟨_, h⟩ <;> omega
    obtain ⟨g, rfl, hg⟩ := parseFrame_isFrame hl63 (big := c.big) hff hk hok (hlen f (by simp)) (rest ++ x)
    have hgl : g.data.length ≤ u32Max := Nat.le_trans (hlen g.spec List.mem_cons_self) hc.lim
    have hb' : specs (buffer ++ [g]) = held ++ [g.spec] := by rw [specs_append, hb]; rfl
    have h1 := hsz buffer hbl (hb ▸ hfit)
    obtain ⟨om, h2, h3⟩ := OwnedMsg.of_assembles (fs := buffer ++ [g])
      (by rw [heldLen_append, heldLen_single]
          have : u32Max + u32Max ≤ isizeMax := by decide
          omega) (by rw [hb']; exact hm)
    refine ⟨buffer ++ [g], [], fs, rest, om, ?_, h3, h2, .inl rfl, by simp, ?_, hrest, hr⟩
    · rw [pLoop_ok hg, hc.final buffer cur g (hb ▸ ha) hf]
    · intro f hf; exact hlen f (by simp [hf])

theorem allowed_nil {f : DataFrame} (h : Allowed (specs []) f.spec) :
    f.opcode ≠ .continuation ∧ f.opcode.toU8.toNat ≠ 0 ∧ f.opcode.toU8.toNat < 8 := by
  rcases h with ⟨_, h0, h8⟩ | ⟨h, _⟩
  · exact ⟨fun h => h0 (by simp [DataFrame.spec, h, Opcode.toU8]), h0, h8⟩
  · exact absurd rfl h

theorem allowed_cons {f : DataFrame} {b : List DataFrame} (hb : b ≠ []) (h : Allowed (specs b) f.spec) :
    f.opcode.toU8 = 0 := by
  rcases h with ⟨h, _⟩ | ⟨_, h⟩
  · exact absurd (specs_nil.mp h) hb
  · exact u8_eq_of_toNat h

theorem control_ranges {f : DataFrame} (h : 8 ≤ f.spec.opcode) :
    f.opcode ≠ .continuation ∧ f.opcode.toU8 ≠ 0 ∧ 8 ≤ f.opcode.toU8 ∧ f.opcode.toU8 ≤ 15 := by
  have h16 := opcode_toU8_lt f.opcode
  have h8 : 8 ≤ f.opcode.toU8.toNat := h
  refine ⟨?_, ?_, UInt8.le_iff_toNat_le.mpr h8, UInt8.le_iff_toNat_le.mpr (by simp; omega)⟩
  · intro hc; rw [hc] at h8; simp [Opcode.toU8] at h8
  · intro hc; rw [hc] at h8; simp at h8

theorem heldLen_le {b : List DataFrame} {n : Nat} (h : weight (specs b) ≤ n) : heldLen b ≤ n := by
  rw [weight_specs] at h; omega

theorem stepOk_sync (r : Receiver) (h1 : r.maxDf ≤ u32Max) (h2 : r.maxMsg ≤ u32Max) :
    StepOk r.cfg (Spec.FitsBlocking r.maxMsg) where
  lim := h1
  control := by
    intro buffer cur f hf hfin
    obtain ⟨a, b, c, d⟩ := control_ranges hf
    show syncStep r.maxMsg buffer cur f = _
    unfold syncStep
    by_cases hb : buffer = []
    · rw [if_pos hb, if_neg a, if_pos hfin, hb]
    · rw [if_neg hb, if_neg b, if_pos ⟨c, d⟩]
  final := by
    intro buffer cur f ha hfin
    show syncStep r.maxMsg buffer cur f = _
    unfold syncStep
    by_cases hb : buffer = []
    · subst hb
      rw [if_pos rfl, if_neg (allowed_nil ha).1, if_pos hfin]; rfl
    · rw [if_neg hb, if_pos (allowed_cons hb ha), if_pos hfin]
  part := by
    intro buffer cur f ha hfin hfit hcur
    show syncStep r.maxMsg buffer cur f = _
    unfold syncStep
    have hfin' : ¬ f.finished = true := by simp [hfin]
    by_cases hb : buffer = []
    · subst hb
      rw [if_pos rfl, if_neg (allowed_nil ha).1, if_neg hfin']; rfl
    · rw [if_neg hb, if_pos (allowed_cons hb ha), if_neg hfin']
      obtain ⟨hf1, hf2⟩ := hfit
      simp only [specs, List.length_map, List.length_append, List.length_singleton] at hf1 hf2
      have : 0 < buffer.length := List.length_pos_iff.mpr hb
      rw [if_neg (by simp only [List.length_append, List.length_singleton, maxFrames]; omega)]
      have hw : weight (List.map DataFrame.spec (buffer ++ [f])) = weight (specs buffer) + (f.data.length + 64) := by
        have := weight_specs (buffer ++ [f])
        unfold specs at this
        rw [this, weight_specs, heldLen_append, heldLen_single]
        simp only [List.length_append, List.length_singleton]
        omega
      rw [hw] at hf2
      rw [if_neg (by simp only [overhead]; omega)]
      rfl
  size := by
    intro buffer hl ⟨hf1, hf2⟩
    rcases hf2 with hf2 | hf2
    · simp only [specs, List.length_map] at hf2
      match buffer, hf2 with
      | [g], _ => simpa using hl g (by simp)
    · exact heldLen_le (by omega)

theorem stepOk_async (c : MsgCodec) (h1 : c.df.maxDf ≤ u32Max) (h2 : c.maxMsg ≤ u32Max) :
    StepOk c.cfg (Spec.FitsAsync c.maxMsg) where
  lim := h1
  control := by
    intro buffer cur f hf hfin
    obtain ⟨a, b, cc, d⟩ := control_ranges hf
    show asyncStep c.maxMsg buffer cur f = _
    unfold asyncStep
    rw [if_neg (by simp [b]), if_pos ⟨cc, d⟩]
  final := by
    intro buffer cur f ha hfin
    show asyncStep c.maxMsg buffer cur f = _
    unfold asyncStep
    by_cases hb : buffer = []
    · subst hb
      obtain ⟨a1, a2, a3⟩ := allowed_nil ha
      rw [if_neg (by intro h; rw [h.1] at a2; exact a2 rfl),
        if_neg (by intro h; have := UInt8.le_iff_toNat_le.mp h.1; simp at this; omega),
        if_neg (by simp), if_pos hfin]
    · have h0 := allowed_cons hb ha
      rw [if_neg (by simp [hb]), if_neg (by rw [h0]; decide), if_neg (by rw [h0]; simp), if_pos hfin]
  part := by
    intro buffer cur f ha hfin hfit hcur
    show asyncStep c.maxMsg buffer cur f = _
    unfold asyncStep
    have hfin' : ¬ f.finished = true := by simp [hfin]
    obtain ⟨hf1, hf2⟩ := hfit
    simp only [specs, List.length_map, List.length_append, List.length_singleton] at hf1
    rw [weight_specs, heldLen_append, heldLen_single] at hf2
    rw [weight_specs] at hcur
    simp only [List.length_append, List.length_singleton] at hf2
    have e1 : ¬ (buffer ++ [f]).length ≥ maxFrames := by
      simp only [List.length_append, List.length_singleton, maxFrames]; omega
    have e2 : ¬ cur + (f.data.length + overhead) > c.maxMsg := by simp only [overhead]; omega
    by_cases hb : buffer = []
    · subst hb
      obtain ⟨a1, a2, a3⟩ := allowed_nil ha
      rw [if_neg (by intro h; rw [h.1] at a2; exact a2 rfl),
        if_neg (by intro h; have := UInt8.le_iff_toNat_le.mp h.1; simp at this; omega),
        if_neg (by simp), if_neg hfin', if_neg e1, if_neg e2]
      rfl
    · have h0 := allowed_cons hb ha
      rw [if_neg (by simp [hb]), if_neg (by rw [h0]; decide), if_neg (by rw [h0]; simp), if_neg hfin',
        if_neg e1, if_neg e2]
      rfl
  size := by
    intro buffer hl ⟨hf1, hf2⟩
    exact heldLen_le (by omega)

end WS
