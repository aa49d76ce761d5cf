import Verif.Model.Http
/-!
# A concrete head parser

A `HeadParser` in full, so that the laws it lists are known to be consistent and statements about
all parsers can be tried out on bytes. It follows httparse 1 (leading empty lines skipped, lines
end in CR LF or LF, at most 100 headers, the character classes of `LegalLine`), except that request
methods other than GET are kept as they are and an illegal character is reported only when the head is complete.
-/

namespace WS

/-- httparse `skip_empty_lines`. -/
def skipNl : Bytes → Bytes
  | 13 :: 10 :: t => skipNl t
  | 10 :: t => skipNl t
  | b => b

/-- The lines up to the first empty one, and how many bytes they take; `cur` is the reversed
beginning of the current line. -/
def headLines : Bytes → Bytes → Option (List Bytes × Nat)
  | cur, 13 :: 10 :: t =>
    if cur = [] then some ([], 2)
    else (headLines [] t).map fun r => (cur.reverse :: r.1, r.2 + 2)
  | cur, 10 :: t =>
    if cur = [] then some ([], 1)
    else (headLines [] t).map fun r => (cur.reverse :: r.1, r.2 + 1)
  | cur, c :: t => (headLines (c :: cur) t).map fun r => (r.1, r.2 + 1)
  | _, [] => none

def versionOf (s : Bytes) : Option HttpVersion :=
  if s = ascii "HTTP/1.1" then some .http11 else if s = ascii "HTTP/1.0" then some .http10 else none

def parseReqLine (l : Bytes) : Option (HttpVersion × ReqSubject) :=
  match splitOn 32 l with
  | [m, u, v] =>
    match versionOf v with
    | some v =>
      if m ≠ [] ∧ m.all isTchar ∧ u ≠ [] ∧ u.all (fun c => 33 ≤ c && c ≤ 126) then
        some (v, ⟨if m = ascii "GET" then .get else .other m, u⟩)
      else none
    | none => none
  | _ => none

def isDigit (c : UInt8) : Bool := 48 ≤ c && c ≤ 57

def parseResLine (l : Bytes) : Option (HttpVersion × ResSubject) :=
  match versionOf (l.take 8), l.drop 8 with
  | some v, 32 :: a :: b :: c :: 32 :: reason =>
    if isDigit a && isDigit b && isDigit c && reason.all (fun c => 32 ≤ c && c ≤ 126) then
      some (v, ⟨(a.toNat - 48) * 100 + (b.toNat - 48) * 10 + (c.toNat - 48), reason⟩)
    else none
  | _, _ => none

/-- `name: value`. -/
def parseHeaderLine (l : Bytes) : Option (Bytes × Bytes) :=
  let name := l.takeWhile (· ≠ 58)
  match l.dropWhile (· ≠ 58) with
  | [] => none
  | _ :: v =>
    let value := v.dropWhile (· = 32)
    if name ≠ [] ∧ name.all isTchar ∧ value.all (fun c => (32 ≤ c && c ≠ 127) || c = 9) then some (name, value) else none

def parseHeaders : List Bytes → Option (List (Bytes × Bytes))
  | [] => some []
  | l :: ls =>
    match parseHeaderLine l, parseHeaders ls with
    | some e, some es => some (e :: es)
    | _, _ => none

/-- The parser, given one for start lines. -/
def parseWith {σ} (start : Bytes → Option (HttpVersion × σ)) (b : Bytes) : Parsed σ :=
  let b' := skipNl b
  match headLines [] b' with
  | none => .part
  | some ([], _) => .error
  | some (l :: ls, n) =>
    match start l, parseHeaders ls with
    | some (v, s), some hs =>
      if hs.length ≤ maxHeaders then .complete ⟨v, s, .fromRaw hs⟩ (b.length - b'.length + n) else .error
    | _, _ => .error

/-! ## The laws -/

theorem headLines_len {cur b : Bytes} {ls : List Bytes} {n : Nat} (h : headLines cur b = some (ls, n)) : 0 < n ∧ n ≤ b.length := by
  fun_induction headLines cur b generalizing ls n with
  | case1 t => simp at h; simp [← h.2]
  | case2 cur t hc ih =>
    cases hr : headLines [] t with
    | none => simp [hr] at h
    | some r =>
      rw [hr] at h; simp at h
      have := ih (ls := r.1) (n := r.2) hr
      simp only [List.length_cons]; omega
  | case3 t => simp at h; simp [← h.2]
  | case4 cur t hc ih =>
    cases hr : headLines [] t with
    | none => simp [hr] at h
    | some r =>
      rw [hr] at h; simp at h
      have := ih (ls := r.1) (n := r.2) hr
      simp only [List.length_cons]; omega
  | case5 cur c t hx hy ih =>
    cases hr : headLines (c :: cur) t with
    | none => simp [hr] at h
    | some r =>
      rw [hr] at h; simp at h
      have := ih (ls := r.1) (n := r.2) hr
      simp only [List.length_cons]; omega
  | case6 => cases h

theorem headLines_mono {cur b : Bytes} {r : List Bytes × Nat} (h : headLines cur b = some r) (t : Bytes) :
    headLines cur (b ++ t) = some r := by
  fun_induction headLines cur b generalizing r with
  | case1 => rw [List.cons_append, List.cons_append, headLines]; simpa using h
  | case2 cur t' hc ih =>
    rw [List.cons_append, List.cons_append, headLines, if_neg hc]
    cases hr : headLines [] t' with
    | none => simp [hr] at h
    | some r' => rw [ih hr]; rw [hr] at h; exact h
  | case3 => rw [List.cons_append, headLines]; simpa using h
  | case4 cur t' hc ih =>
    rw [List.cons_append, headLines, if_neg hc]
    cases hr : headLines [] t' with
    | none => simp [hr] at h
    | some r' => rw [ih hr]; rw [hr] at h; exact h
  | case5 cur c t' hx hy ih =>
    cases hr : headLines (c :: cur) t' with
    | none => simp [hr] at h
    | some r' =>
      rw [List.cons_append, headLines]
      · rw [ih hr]; rw [hr] at h; exact h
      · intro t2 hc ht
        cases t' with
        | nil => simp [headLines] at hr
        | cons x t3 =>
          rw [List.cons_append, List.cons.injEq] at ht
          exact hx t3 hc (by rw [ht.1])
      · exact hy
  | case6 => cases h

theorem skipNl_len (b : Bytes) : (skipNl b).length ≤ b.length := by
  fun_induction skipNl b <;> simp_all <;> omega

theorem skipNl_mono (b t : Bytes) (h : 2 ≤ (skipNl b).length) : skipNl (b ++ t) = skipNl b ++ t := by
  fun_induction skipNl b with
  | case1 t' ih => rw [List.cons_append, List.cons_append, skipNl]; exact ih h
  | case2 t' ih => rw [List.cons_append, skipNl]; exact ih h
  | case3 b h1 h2 =>
    rw [skipNl]
    · intro t' he
      cases b with
      | nil => simp at h
      | cons x b =>
        cases b with
        | nil => simp at h
        | cons y b => simp at he; exact h1 b (by rw [he.1, he.2.1])
    · intro t' he
      cases b with
      | nil => simp at h
      | cons x b => simp at he; exact h2 b (by rw [he.1])

theorem skipNl_head (b : Bytes) : (skipNl b).head? ≠ some 10 := by
  fun_induction skipNl b with
  | case1 t ih => exact ih
  | case2 t ih => exact ih
  | case3 b h1 h2 =>
    cases b with
    | nil => simp
    | cons x b => intro h; simp at h; exact h2 b (by rw [h])

theorem parseWith_some {σ} {start : Bytes → Option (HttpVersion × σ)} {b : Bytes} {r : List Bytes × Nat}
    (h : headLines [] (skipNl b) = some r) (t : Bytes) : parseWith start (b ++ t) = parseWith start b := by
  have hl := headLines_len (ls := r.1) (n := r.2) h
  have h2 : 2 ≤ (skipNl b).length := by
    cases hb : skipNl b with
    | nil => rw [hb] at h; cases h
    | cons x b' =>
      cases b' with
      | nil =>
        have hx : x ≠ 10 := fun hx => skipNl_head b (by rw [hb, hx]; rfl)
        rw [hb] at h
        rw [headLines] at h
        · simp [headLines] at h
        · intro t _ ht; cases ht
        · exact hx
      | cons y b' => simp
  unfold parseWith
  simp only [skipNl_mono b t h2, headLines_mono h t, h]
  have he : (b ++ t).length - (skipNl b ++ t).length = b.length - (skipNl b).length := by
    simp only [List.length_append]; omega
  rw [he]

theorem headLines_line {line : Bytes} (h : 13 ∉ line) (h' : 10 ∉ line) (cur rest : Bytes) (hne : cur.reverse ++ line ≠ []) :
    headLines cur (line ++ 13 :: 10 :: rest) =
      (headLines [] rest).map fun r => ((cur.reverse ++ line) :: r.1, r.2 + line.length + 2) := by
  induction line generalizing cur with
  | nil =>
    rw [List.nil_append, headLines, if_neg (by intro h; subst h; simp at hne)]
    simp
  | cons c t ih =>
    simp only [List.mem_cons, not_or] at h h'
    rw [List.cons_append, headLines, ih h.2 h'.2 (c :: cur) (by simp)]
    · cases headLines [] rest <;> simp
      omega
    · intro t2 hc _; exact h.1 hc.symm
    · intro hc; exact h'.1 hc.symm

theorem headLines_all (lines : List Bytes) (h : ∀ l ∈ lines, l ≠ [] ∧ 13 ∉ l ∧ 10 ∉ l) (rest : Bytes) :
    headLines [] (lines.flatMap (fun l => l ++ [13, 10]) ++ 13 :: 10 :: rest) =
      some (lines, (lines.flatMap (fun l => l ++ [13, 10])).length + 2) := by
  induction lines with
  | nil => simp [headLines]
  | cons l ls ih =>
    have := h l (by simp)
    simp only [List.flatMap_cons, List.append_assoc, List.cons_append, List.nil_append]
    rw [headLines_line this.2.1 this.2.2 [] _ (by simpa using this.1), ih (fun x hx => h x (List.mem_cons_of_mem _ hx))]
    simp
    omega

theorem tchar_lt {c : UInt8} (h : isTchar c = true) : 32 < c ∧ c ≠ 58 := by
  constructor
  · have : ∀ n < 256, isTchar (UInt8.ofNat n) = true → 32 < UInt8.ofNat n := by decide +kernel
    have := this c.toNat c.toNat_lt
    rw [UInt8.ofNat_toNat] at this
    exact this h
  · rintro rfl; exact absurd h (by decide)

theorem takeWhile_colon {x : Bytes} (h : 58 ∉ x) (r : Bytes) :
    (x ++ 58 :: r).takeWhile (· ≠ 58) = x ∧ (x ++ 58 :: r).dropWhile (· ≠ 58) = 58 :: r := by
  induction x with
  | nil => simp
  | cons a t ih =>
    simp only [List.mem_cons, not_or] at h
    rw [List.cons_append, List.takeWhile_cons_of_pos (by simpa using Ne.symm h.1),
      List.dropWhile_cons_of_pos (by simpa using Ne.symm h.1), (ih h.2).1, (ih h.2).2]
    exact ⟨rfl, rfl⟩

theorem parseHeaderLine_fmt {e : Bytes × Bytes} (h : LegalLine e) :
    parseHeaderLine (e.1 ++ [58, 32] ++ e.2) = some e := by
  obtain ⟨h1, h2, h3, h4, h5⟩ := h
  have hc : (58 : UInt8) ∉ e.1 := fun hm => (tchar_lt (h2 _ hm)).2 rfl
  unfold parseHeaderLine
  have hh : e.1 ++ [58, 32] ++ e.2 = e.1 ++ 58 :: (32 :: e.2) := by simp
  simp only [hh, (takeWhile_colon hc _).1, (takeWhile_colon hc _).2]
  have hd : (32 :: e.2 : Bytes).dropWhile (· = 32) = e.2 := by
    rw [List.dropWhile_cons_of_pos (by simp)]
    cases hv : e.2 with
    | nil => rfl
    | cons x t => rw [List.dropWhile_cons_of_neg (by simpa using h4 x (by rw [hv]; rfl))]
  simp only [hd]
  rw [if_pos]
  refine ⟨h1, List.all_eq_true.mpr fun x hx => h2 x hx, List.all_eq_true.mpr fun x hx => ?_⟩
  have := h3 x hx
  simp [this.1, this.2]

theorem parseHeaders_fmt (es : List (Bytes × Bytes)) (h : ∀ e ∈ es, LegalLine e) :
    parseHeaders (es.map fun e => e.1 ++ [58, 32] ++ e.2) = some es := by
  induction es with
  | nil => rfl
  | cons e es ih =>
    rw [List.map_cons, parseHeaders, parseHeaderLine_fmt (h e (by simp)), ih (fun x hx => h x (List.mem_cons_of_mem _ hx))]

theorem wire_flat (h : Headers) :
    h.fmt = (h.wire.map fun e => e.1 ++ [58, 32] ++ e.2).flatMap (fun l => l ++ [13, 10]) := by
  unfold Headers.fmt Headers.wire
  induction h with
  | nil => rfl
  | cons e t ih =>
    simp only [List.flatMap_cons, List.map_append, List.flatMap_append]
    rw [ih]
    congr 1
    generalize e.2.lines = ls
    induction ls with
    | nil => rfl
    | cons l ls ih2 => simp only [List.flatMap_cons, List.map_cons, ih2]

theorem skipNl_id {b : Bytes} (h1 : b.head? ≠ some 10) (h2 : b.head? ≠ some 13) : skipNl b = b := by
  unfold skipNl
  split
  · simp at h2
  · simp at h1
  · rfl

/-- A start line parser that understands its lines gives a head parser. -/
def mkParser {σ} (line : HttpVersion → σ → Bytes) (ok : HttpVersion → σ → Prop) (start : Bytes → Option (HttpVersion × σ))
    (hs : ∀ v s, ok v s → start (line v s) = some (v, s) ∧ line v s ≠ [] ∧ ∀ c ∈ line v s, 32 ≤ c) : HeadParser σ line ok where
  parse := parseWith start
  parse_nil := rfl
  complete_len := by
    intro b m n h
    unfold parseWith at h
    simp only at h
    have hl := skipNl_len b
    split at h
    · cases h
    · cases h
    · next l ls k hh =>
      have := headLines_len hh
      split at h
      · split at h
        · simp only [Parsed.complete.injEq] at h; omega
        · cases h
      · cases h
  complete_mono := by
    intro b m n t h
    have : ∃ r, headLines [] (skipNl b) = some r := by
      cases hx : headLines [] (skipNl b) with
      | some r => exact ⟨r, rfl⟩
      | none => unfold parseWith at h; simp [hx] at h
    obtain ⟨r, hr⟩ := this
    rw [parseWith_some hr, h]
  error_mono := by
    intro b t h
    have : ∃ r, headLines [] (skipNl b) = some r := by
      cases hx : headLines [] (skipNl b) with
      | some r => exact ⟨r, rfl⟩
      | none => unfold parseWith at h; simp [hx] at h
    obtain ⟨r, hr⟩ := this
    rw [parseWith_some hr, h]
  parse_fmt := by
    intro m hok hsend
    obtain ⟨h1, h2, h3⟩ := hs m.version m.subject hok
    have hl : ∀ l ∈ line m.version m.subject :: (m.headers.wire.map fun e => e.1 ++ [58, 32] ++ e.2), l ≠ [] ∧ 13 ∉ l ∧ 10 ∉ l := by
      intro l hl
      rcases List.mem_cons.mp hl with rfl | hl
      · exact ⟨h2, fun hc => absurd (h3 13 hc) (by decide), fun hc => absurd (h3 10 hc) (by decide)⟩
      · obtain ⟨e, he, rfl⟩ := List.mem_map.mp hl
        obtain ⟨g1, g2, g3, -⟩ := hsend.1 e he
        refine ⟨by simp, fun hc => ?_, fun hc => ?_⟩
        all_goals
          simp only [List.mem_append, List.mem_cons, List.not_mem_nil, or_false] at hc
          rcases hc with (hc | hc) | hc
          · exact absurd (tchar_lt (g2 _ hc)).1 (by decide)
          · rcases hc with hc | hc <;> exact absurd hc (by decide)
          · exact absurd (g3 _ hc).1 (by decide)
    have he : m.fmt line = (line m.version m.subject :: (m.headers.wire.map fun e => e.1 ++ [58, 32] ++ e.2)).flatMap
        (fun l => l ++ [13, 10]) ++ 13 :: 10 :: [] := by
      unfold HttpHead.fmt crlf
      rw [List.flatMap_cons, wire_flat]
    have hsk : skipNl (m.fmt line) = m.fmt line := by
      have hh : (m.fmt line).head? = (line m.version m.subject).head? := by
        rw [he, List.flatMap_cons]
        cases hx : line m.version m.subject with
        | nil => exact absurd hx h2
        | cons x t => rfl
      have hx : ∀ c, (line m.version m.subject).head? = some c → 32 ≤ c := by
        intro c hc
        exact h3 c (List.mem_of_mem_head? hc)
      refine skipNl_id ?_ ?_ <;> (rw [hh]; intro hc; exact absurd (hx _ hc) (by decide))
    unfold parseWith
    simp only [hsk]
    rw [he, headLines_all _ hl]
    simp only [h1, parseHeaders_fmt _ hsend.1, if_pos hsend.2]
    simp
    omega

theorem lineSplit_free {c : UInt8} {x : Bytes} (h : c ∉ x) : splitOn c x = [x] := by
  induction x with
  | nil => rfl
  | cons a t ih =>
    simp only [List.mem_cons, not_or] at h
    unfold splitOn
    rw [if_neg (Ne.symm h.1), ih h.2]

theorem lineSplit_append {c : UInt8} {x : Bytes} (h : c ∉ x) (r : Bytes) : splitOn c (x ++ c :: r) = x :: splitOn c r := by
  induction x with
  | nil => rw [List.nil_append, splitOn, if_pos rfl]
  | cons a t ih =>
    simp only [List.mem_cons, not_or] at h
    rw [List.cons_append, splitOn, if_neg (Ne.symm h.1), ih h.2]

theorem version_facts {v : HttpVersion} (h : v = .http10 ∨ v = .http11) :
    versionOf v.fmt = some v ∧ 32 ∉ v.fmt ∧ (∀ c ∈ v.fmt, (32 : UInt8) ≤ c) ∧ v.fmt.length = 8 := by
  rcases h with rfl | rfl <;> decide +kernel

theorem reqLine_ok (v : HttpVersion) (s : ReqSubject) (h : okReq v s) :
    parseReqLine (reqLine v s) = some (v, s) ∧ reqLine v s ≠ [] ∧ ∀ c ∈ reqLine v s, 32 ≤ c := by
  obtain ⟨hv, h1, h2, h3⟩ := h
  obtain ⟨f1, f2, f3, -⟩ := version_facts hv
  have hu : (32 : UInt8) ∉ s.uri := fun hc => absurd (h2 _ hc).1 (by decide)
  have hm : (32 : UInt8) ∉ (Method.get).fmt := by decide +kernel
  refine ⟨?_, ?_, ?_⟩
  · unfold parseReqLine reqLine
    have : s.method.fmt ++ [32] ++ s.uri ++ [32] ++ v.fmt = (Method.get).fmt ++ 32 :: (s.uri ++ 32 :: v.fmt) := by rw [h3]; simp
    rw [this, lineSplit_append hm, lineSplit_append hu, lineSplit_free f2]
    simp only [f1]
    rw [if_pos]
    · have : (Method.get).fmt = ascii "GET" := rfl
      rw [if_pos this, ← h3]
    · refine ⟨by decide +kernel, by decide +kernel, h1, List.all_eq_true.mpr fun x hx => ?_⟩
      have := h2 x hx
      simp [this.1, this.2]
  · unfold reqLine; simp
  · intro c hc
    unfold reqLine at hc
    rw [h3] at hc
    simp only [List.mem_append, List.mem_cons, List.not_mem_nil, or_false] at hc
    rcases hc with (((hc | hc) | hc) | hc) | hc
    · have : ∀ c ∈ (Method.get).fmt, (32 : UInt8) ≤ c := by decide +kernel
      exact this c hc
    · rw [hc]; decide
    · exact UInt8.le_trans (by decide) (h2 c hc).1
    · rw [hc]; decide
    · exact f3 c hc

/-- Three decimal digits. -/
def digits3 (n : Nat) : Bytes := [UInt8.ofNat (48 + n / 100), UInt8.ofNat (48 + n / 10 % 10), UInt8.ofNat (48 + n % 10)]

theorem decimal3 : ∀ n < 1000, 100 ≤ n → decimal n = digits3 n ∧
    (digits3 n).all isDigit = true ∧
    ((UInt8.ofNat (48 + n / 100)).toNat - 48) * 100 + ((UInt8.ofNat (48 + n / 10 % 10)).toNat - 48) * 10 +
      ((UInt8.ofNat (48 + n % 10)).toNat - 48) = n := by decide +kernel

theorem resLine_ok (v : HttpVersion) (s : ResSubject) (h : okRes v s) :
    parseResLine (resLine v s) = some (v, s) ∧ resLine v s ≠ [] ∧ ∀ c ∈ resLine v s, 32 ≤ c := by
  obtain ⟨hv, h1, h2, h3⟩ := h
  obtain ⟨f1, f2, f3, f4⟩ := version_facts hv
  obtain ⟨d1, d2, d3⟩ := decimal3 s.code h2 h1
  have he : resLine v s = v.fmt ++ (32 :: (digits3 s.code ++ 32 :: s.reason)) := by
    unfold resLine; rw [d1]; simp
  refine ⟨?_, ?_, ?_⟩
  · unfold parseResLine
    rw [he, List.take_left' f4, List.drop_left' f4, f1]
    simp only [digits3, List.cons_append, List.nil_append]
    rw [if_pos, d3]
    simp only [digits3, List.all_cons, List.all_nil, Bool.and_true, Bool.and_eq_true] at d2
    simp only [Bool.and_eq_true]
    refine ⟨⟨⟨d2.1, d2.2.1⟩, d2.2.2⟩, List.all_eq_true.mpr fun x hx => ?_⟩
    have := h3 x hx
    simp [this.1, this.2]
  · rw [he]; simp
  · rw [he]
    intro c hc
    simp only [List.mem_append, List.mem_cons] at hc
    rcases hc with hc | hc | hc | hc | hc
    · exact f3 c hc
    · rw [hc]; decide
    · have := List.all_eq_true.mp d2 c hc
      unfold isDigit at this
      simp only [Bool.and_eq_true, decide_eq_true_eq] at this
      exact UInt8.le_trans (by decide) this.1
    · rw [hc]; decide
    · exact (h3 c hc).1

/-- A request parser. -/
def reqParser : ReqParser := mkParser reqLine okReq parseReqLine reqLine_ok
/-- A response parser. -/
def resParser : ResParser := mkParser resLine okRes parseResLine resLine_ok

end WS
