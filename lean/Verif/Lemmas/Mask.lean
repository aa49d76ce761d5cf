import Verif.Lemmas.U8
/-! Lemmas about masking. -/

namespace WS

/-- Masking as a position-indexed map. -/
def maskFrom (k : Key4) : Nat → Bytes → Bytes
  | _, [] => []
  | pos, b :: bs => (b ^^^ k.at (pos % 4)) :: maskFrom k (pos + 1) bs

theorem maskFrom_length (k : Key4) (p : Nat) (d : Bytes) : (maskFrom k p d).length = d.length := by
  induction d generalizing p with
  | nil => rfl
  | cons b bs ih => simp [maskFrom, ih]

theorem maskFrom_append (k : Key4) (p : Nat) (a b : Bytes) :
    maskFrom k p (a ++ b) = maskFrom k p a ++ maskFrom k (p + a.length) b := by
  induction a generalizing p with
  | nil => simp [maskFrom]
  | cons x xs ih => simp [maskFrom, ih, Nat.add_assoc, Nat.add_comm 1]

theorem maskFrom_mod (k : Key4) (p q : Nat) (h : p % 4 = q % 4) (d : Bytes) :
    maskFrom k p d = maskFrom k q d := by
  induction d generalizing p q with
  | nil => rfl
  | cons b bs ih => simp [maskFrom, h, ih (p + 1) (q + 1) (by omega)]

theorem maskFrom_maskFrom (k : Key4) (p : Nat) (d : Bytes) : maskFrom k p (maskFrom k p d) = d := by
  induction d generalizing p with
  | nil => rfl
  | cons b bs ih => simp [maskFrom, ih, u8_xor_xor]

theorem maskFrom_getElem? (k : Key4) (p : Nat) (d : Bytes) (i : Nat) :
    (maskFrom k p d)[i]? = d[i]?.map (fun b => b ^^^ k.at ((p + i) % 4)) := by
  induction d generalizing p i with
  | nil => simp [maskFrom]
  | cons b bs ih =>
    cases i with
    | zero => simp [maskFrom]
    | succ i => simp [maskFrom, ih, Nat.add_assoc, Nat.add_comm 1]

theorem maskLoop_eq (k : Key4) (p : Nat) (hp : p < 4) (d : Bytes) :
    maskLoop k p d = (maskFrom k p d, (p + d.length) % 4) := by
  induction d generalizing p with
  | nil => simp [maskLoop, maskFrom, Nat.mod_eq_of_lt hp]
  | cons b bs ih =>
    simp only [maskLoop, maskFrom, ih ((p + 1) % 4) (Nat.mod_lt _ (by decide)), Nat.mod_eq_of_lt hp,
      maskFrom_mod k ((p + 1) % 4) (p + 1) (by omega), List.length_cons, Prod.mk.injEq, true_and]
    omega

theorem key_at_eq (k : Key4) (i : Nat) : k.toBytes[i % 4]? = some (k.at (i % 4)) := by
  have : i % 4 = 0 ∨ i % 4 = 1 ∨ i % 4 = 2 ∨ i % 4 = 3 := by omega
  rcases this with h | h | h | h <;> rw [h] <;> rfl

theorem maskCycle_eq (k : Key4) (d : Bytes) :
    maskCycle k.toBytes k.toBytes d = maskFrom k 0 d ∧
    maskCycle k.toBytes [k.k1, k.k2, k.k3] d = maskFrom k 1 d ∧
    maskCycle k.toBytes [k.k2, k.k3] d = maskFrom k 2 d ∧
    maskCycle k.toBytes [k.k3] d = maskFrom k 3 d ∧
    maskCycle k.toBytes [] d = maskFrom k 0 d := by
  induction d with
  | nil => simp [maskCycle, maskFrom]
  | cons b bs ih =>
    obtain ⟨h0, h1, h2, h3, h4⟩ := ih
    simp only [Key4.toBytes] at *
    simp only [maskCycle, maskFrom, h1, h2, h3, h4, Key4.at, List.cons.injEq]
    refine ⟨trivial, trivial, trivial, ⟨trivial, ?_⟩, trivial⟩
    exact maskFrom_mod k 0 4 rfl bs

theorem maskData_eq (k : Key4) (d : Bytes) : maskData k d = maskFrom k 0 d := (maskCycle_eq k d).1

theorem Masker.writeAll_vec (k : Key4) (pos : Nat) (hp : pos < 4) (out d : Bytes) :
    Masker.writeAll d ⟨k, pos, ⟨out, []⟩⟩ =
      (.ok (), ⟨k, (pos + d.length) % 4, ⟨out ++ maskFrom k pos d, []⟩⟩) := by
  unfold Masker.writeAll
  by_cases h : d = []
  · subst h; simp [maskFrom, Nat.mod_eq_of_lt hp]
  · simp [h, Masker.write, maskLoop_eq k pos hp, Sink.write]

theorem maskerWrites_vec (k : Key4) (pos : Nat) (hp : pos < 4) (out : Bytes) (ws : List Bytes) :
    maskerWrites ⟨k, pos, ⟨out, []⟩⟩ ws =
      (.ok (), ⟨k, (pos + ws.flatten.length) % 4, ⟨out ++ maskFrom k pos ws.flatten, []⟩⟩) := by
  induction ws generalizing pos out with
  | nil => simp [maskerWrites, maskFrom, Nat.mod_eq_of_lt hp]
  | cons b bs ih =>
    simp only [maskerWrites, Masker.writeAll_vec k pos hp]
    rw [ih _ (Nat.mod_lt _ (by decide))]
    simp only [List.flatten_cons, List.length_append, maskFrom_append, List.append_assoc]
    rw [maskFrom_mod k ((pos + b.length) % 4) (pos + b.length) (by omega)]
    simp only [Prod.mk.injEq, Masker.mk.injEq, true_and, and_true]
    omega

/-- Masking if there is a key. -/
def maskOpt : Option Key4 → Bytes → Bytes
  | some k, d => maskFrom k 0 d
  | none, d => d

theorem maskOpt_length (k : Option Key4) (d : Bytes) : (maskOpt k d).length = d.length := by
  cases k <;> simp [maskOpt, maskFrom_length]

theorem vecWrites_eq (out : Bytes) (ws : List Bytes) : vecWrites out ws = out ++ ws.flatten := by
  induction ws generalizing out with
  | nil => simp [vecWrites]
  | cons b bs ih => simp [vecWrites, ih]

end WS
