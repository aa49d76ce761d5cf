import Verif.Lemmas.Bureau
import Verif.Props.Desk
/-!
# C89: examples/async-server.rs, and everybody who calls

What a peer gets, and that it gets it, does not depend on the others.
-/

namespace WS
open Spec

section
variable [B64] {preq : ReqParser} {keys : Nat → Nat → Key4} {extra : Nat → Nat}

/-- C89: each connection is as if there were no other: what has become of it is what becomes of it alone (Model/Desk) when its own peer does what it has done. -/
theorem C89_alone (es : List Occasion) (i : Nat) : ∃ ds, brought ds = broughtBy i es ∧ endedBy ds = leftBy i es ∧
    ((Bureau.start keys extra).endures preq es).conns i = (Desk.start (keys i) (extra i)).endures preq ds := by
  obtain ⟨ds, h1, h2⟩ := (lonely_run (preq := preq) (keys := keys) (extra := extra) es).alone i
  obtain ⟨h3, h4⟩ := brought_acts ds
  rw [h1] at h3 h4
  exact ⟨ds, h3.symm, h4.symm, h2⟩

/-- C89: whatever all the others do, at any time a peer has been written no more than it is owed for its own bytes. Missing: bytes that are not `Unmistakable` (C23, C42). -/
theorem C89_written_partial (es : List Occasion) (i : Nat) (hB : Unmistakable preq (broughtBy i es)) :
    MayHaveGot (((Bureau.start keys extra).endures preq es).conns i).task.out.wire (leftBy i es) (asyncReception preq (broughtBy i es)) := by
  obtain ⟨ds, h1, h2, h3⟩ := C89_alone (preq := preq) (keys := keys) (extra := extra) es i
  rw [h3, ← h1, ← h2]
  rw [← h1] at hB
  exact C88_written_partial (keys i) (extra i) ds hB

/-- C89: and nobody is let go of because of somebody else. Missing: as above. -/
theorem C89_gone_partial (es : List Occasion) (i : Nat) (hB : Unmistakable preq (broughtBy i es)) (h : (((Bureau.start keys extra).endures preq es).conns i).gone = true) :
    LetGoOf (((Bureau.start keys extra).endures preq es).conns i).task.out.wire (leftBy i es) (asyncReception preq (broughtBy i es)) := by
  obtain ⟨ds, h1, h2, h3⟩ := C89_alone (preq := preq) (keys := keys) (extra := extra) es i
  rw [h3] at h ⊢
  rw [← h1, ← h2]
  rw [← h1] at hB
  have := C88_gone_partial (keys i) (extra i) ds hB h
  cases hr : asyncReception preq (brought ds) with
  | waits => rw [hr] at this; exact this
  | drops => rw [hr] at this; exact this
  | rejects x => rw [hr] at this; exact this
  | serves written rest =>
    rw [hr] at this
    obtain ⟨ms, out, k1, k2 | ⟨k2, k3, k4, k5, -⟩⟩ := this
    · exact ⟨ms, out, k1, .inl k2⟩
    · exact ⟨ms, out, k1, .inr ⟨k2, k3, k4, k5⟩⟩

/-- C89: and what `C88_greets_partial` says holds for each of them: nobody whose request is granted is let go of before the answer to it and the greeting have been written. Missing: as above. -/
theorem C89_greets_partial (es : List Occasion) (i : Nat) (hB : Unmistakable preq (broughtBy i es)) (written rest : Bytes) (hr : asyncReception preq (broughtBy i es) = .serves written rest)
    (h : (((Bureau.start keys extra).endures preq es).conns i).gone = true) :
    written ++ ([0x81, 12] ++ ascii "Hello World!") <+: (((Bureau.start keys extra).endures preq es).conns i).task.out.wire := by
  obtain ⟨ds, h1, h2, h3⟩ := C89_alone (preq := preq) (keys := keys) (extra := extra) es i
  rw [h3] at h ⊢
  rw [← h1] at hB hr
  exact C88_greets_partial (keys i) (extra i) ds hB written rest hr h

/-- C89: nobody has to wait for anybody else. As soon as the main future and the task of its connection have been polled often enough, a peer has got what it is owed for its own bytes, whatever all the
others do before, in between and after: send nothing, send anything, hang up, come in numbers (compare `C86_blocked`). Missing: bytes that are not `Unmistakable` (C23, C42). -/
theorem C89_served_partial (es : List Occasion) (i : Nat) (hi : i < visitors es) (hB : Unmistakable preq (broughtBy i es)) (rs : Nat → List Occasion) (hr : ∀ j, Attention i (rs j)) :
    ∃ N, ∀ j, N ≤ j →
      let y := ((Bureau.start keys extra).endures preq (es ++ roundsOf rs j)).conns i
      Quits y.task.out.wire y.gone (leftBy i es) (asyncReception preq (broughtBy i es)) := by
  have hl := lonely_run (preq := preq) (keys := keys) (extra := extra) es
  obtain ⟨ds, h1, h2, h3⟩ := C89_alone (preq := preq) (keys := keys) (extra := extra) es i
  have hd := (desk_inv (preq := preq) (keys i) (extra i) ds (by rw [h1]; exact hB)).1
  rw [← h3, h1] at hd
  obtain ⟨N, y, k1, k2⟩ := bureau_settles hB i _ _ rfl hd (by rw [hl.made]; exact hi) rs hr
  refine ⟨N, fun j hj => ?_⟩
  obtain ⟨ds', g1, g2, g3⟩ := C89_alone (preq := preq) (keys := keys) (extra := extra) (es ++ roundsOf rs j) i
  obtain ⟨q1, q2⟩ := rounds_quiet hr es j
  rw [q1] at g1
  rw [q2] at g2
  have hy : ((Bureau.start keys extra).endures preq (es ++ roundsOf rs j)).conns i = y := by rw [bureau_append]; exact k2 j hj
  intro z
  have hz : z = y := hy
  obtain ⟨M, hM⟩ := C88_does_partial (preq := preq) (keys i) (extra i) ds' (by rw [g1]; exact hB) (fun _ => (1, 1)) (fun _ => ⟨Nat.one_pos, Nat.one_pos⟩)
  have := hM M (Nat.le_refl _)
  have he : (Desk.start (keys i) (extra i)).endures preq (ds' ++ polledBy (fun _ => (1, 1)) M) = y := by
    have : (Desk.start (keys i) (extra i)).endures preq (ds' ++ polledBy (fun _ => (1, 1)) M) = ((Desk.start (keys i) (extra i)).endures preq ds').endures preq (polledBy (fun _ => (1, 1)) M) := List.foldl_append
    rw [this, ← g3, hy, rest_endures k1]
  rw [he, g1, g2] at this
  rw [hz]
  exact this

theorem quits_once {r : Reception} {a b : Bytes} {p q fin : Bool} (hm : ∀ written rest, r = .serves written rest → ∃ ms, Course (deskHears rest) ms ∧ (Parted ms ∨ deskHears rest ms.length = .ended))
    (h : Quits a p fin r) (h' : Quits b q fin r) : a = b ∧ p = q := by
  cases r with
  | waits => exact ⟨h.1.trans h'.1.symm, h.2.trans h'.2.symm⟩
  | drops => exact ⟨h.1.trans h'.1.symm, h.2.trans h'.2.symm⟩
  | rejects z => exact ⟨h.1.trans h'.1.symm, h.2.trans h'.2.symm⟩
  | serves written rest =>
    obtain ⟨ms₀, c0, e0⟩ := hm _ _ rfl
    obtain ⟨ms, out, h1, h2, h3⟩ := h
    obtain ⟨ms', out', k1, k2, k3⟩ := h'
    obtain rfl := course_once h1 k1 h2 k2
    obtain rfl := course_once c0 h1 (by rcases e0 with e0 | e0; exact .inl e0; exact .inr (by rw [e0]; nofun)) h2
    rcases h3 with ⟨g, b1, b2, b3, b4⟩ | ⟨g, b2, b3, b4⟩ | ⟨g, b2, b3, b4⟩
    · rcases k3 with ⟨g', d1, d2, d3, d4⟩ | ⟨g', d2, d3, d4⟩ | ⟨g', d2, d3, d4⟩
      · obtain rfl := says_once b3 d3
        exact ⟨b4.trans d4.symm, g.trans g'.symm⟩
      · rcases d2 with d2 | ⟨-, d2⟩
        · exact absurd d2 b2
        · rw [b1] at d2; cases d2
      · rcases e0 with e0 | e0
        · exact absurd e0 b2
        · rw [e0] at d3; cases d3
    · rcases k3 with ⟨g', d1, d2, d3, d4⟩ | ⟨g', d2, d3, d4⟩ | ⟨g', d2, d3, d4⟩
      · rcases b2 with b2 | ⟨-, b2⟩
        · exact absurd b2 d2
        · rw [d1] at b2; cases b2
      · obtain rfl := says_once b3 d3
        exact ⟨b4.trans d4.symm, g.trans g'.symm⟩
      · rcases e0 with e0 | e0
        · exact absurd e0 d2
        · rw [e0] at d3; cases d3
    · rcases e0 with e0 | e0
      · exact absurd e0 b2
      · rw [e0] at b3; cases b3

/-- C89: so what a peer gets in the end depends on nothing but its own bytes and whether it hung up, if all that is behind its request is messages up to a Close or to the end: not on what the others do, on
how everything is cut and timed, and on when the executor polls which future. Missing: bytes with something in them that is no message (`C89_refuted_lost`), and bytes that are not `Unmistakable`. -/
theorem C89_deterministic_partial {keys' : Nat → Nat → Key4} {extra' : Nat → Nat} (es es' : List Occasion) (i i' : Nat) (hi : i < visitors es) (hi' : i' < visitors es')
    (hb : broughtBy i es = broughtBy i' es') (he : leftBy i es = leftBy i' es') (hB : Unmistakable preq (broughtBy i es))
    (hm : ∀ written rest, asyncReception preq (broughtBy i es) = .serves written rest → ∃ ms, Course (deskHears rest) ms ∧ (Parted ms ∨ deskHears rest ms.length = .ended))
    (rs rs' : Nat → List Occasion) (hr : ∀ j, Attention i (rs j)) (hr' : ∀ j, Attention i' (rs' j)) :
    ∃ N, ∀ j j', N ≤ j → N ≤ j' →
      let y := ((Bureau.start keys extra).endures preq (es ++ roundsOf rs j)).conns i
      let y' := ((Bureau.start keys' extra').endures preq (es' ++ roundsOf rs' j')).conns i'
      y.task.out.wire = y'.task.out.wire ∧ y.gone = y'.gone := by
  obtain ⟨N, h⟩ := C89_served_partial (keys := keys) (extra := extra) es i hi hB rs hr
  obtain ⟨N', h'⟩ := C89_served_partial (keys := keys') (extra := extra') es' i' hi' (hb ▸ hB) rs' hr'
  refine ⟨N + N', fun j j' h1 h2 => ?_⟩
  have a := h j (by omega)
  have b := h' j' (by omega)
  rw [← hb, ← he] at b
  exact quits_once hm a b

end

/-! ## Concrete cases -/

def keys89 : Nat → Nat → Key4 := fun _ => keys88

/-- Three connect; the first sends half a head and nothing more, the second something else, and the third is served. -/
def lobby : List Occasion := [.connects, .connects, .bytes 0 caller1, .main [(0, 900), (1, 3)], .bytes 1 rudeBytes, .connects, .task 1 5 5, .bytes 2 caller1, .main [(2, 3), (2, 8)], .bytes 2 caller2,
  .main [(1, 7)], .bytes 2 caller3, .bytes 2 caller4]

theorem lobby_brought : broughtBy 2 lobby = callerBytes ∧ broughtBy 0 lobby = caller1 ∧ leftBy 0 lobby = false ∧ leftBy 2 lobby = false := by
  refine ⟨?_, ?_, ?_, ?_⟩ <;> simp [broughtBy, leftBy, visitsOf, lobby, brought, endedBy, callerBytes]

/-- In each round somebody else connects and somebody sends. -/
def bustle (_ : Nat) : List Occasion := [.connects, .main [(0, 4), (2, 500), (1, 90)], .bytes 0 [120], .task 2 500 90, .bytes 3 [1, 2], .task 1 0 0]

theorem bustle_attends (j : Nat) : Attention 2 (bustle j) := by
  refine ⟨fun e he => ?_, ⟨_, List.mem_cons_of_mem _ List.mem_cons_self, 500, by simp⟩, ⟨500, 90, by simp [bustle]⟩, fun ps n h h' => ?_, fun n k h => ?_⟩
  · simp only [bustle, List.mem_cons, List.not_mem_nil, or_false] at he
    rcases he with rfl | rfl | rfl | rfl | rfl | rfl <;> exact ⟨fun b hb => (by cases hb), fun hb => (by cases hb)⟩
  · simp only [bustle, List.mem_cons, List.not_mem_nil, or_false, Occasion.main.injEq, reduceCtorEq, false_or] at h
    subst h
    simp only [List.mem_cons, List.not_mem_nil, or_false, Prod.mk.injEq] at h'
    omega
  · simp only [bustle, List.mem_cons, List.not_mem_nil, or_false, Occasion.task.injEq, reduceCtorEq, false_or] at h
    omega

example : ∃ N : Nat, ∀ j, N ≤ j → ∃ ms out, Course (deskHears (caller3 ++ caller4)) ms ∧ Exhausted (deskHears (caller3 ++ caller4)) ms ∧
    ((@Bureau.endures B64.strict reqParser (Bureau.start keys89 fun _ => 0) (lobby ++ roundsOf bustle j)).conns 2).task.out.wire <+: callerAnswer ++ out := by
  generalize hes : lobby = es
  have hb : broughtBy 2 es = callerBytes := by rw [← hes]; exact lobby_brought.1
  obtain ⟨N, h⟩ := @C89_served_partial B64.strict reqParser keys89 (fun _ => 0) es 2 (by rw [← hes]; decide) (by rw [hb]; exact caller_unmistakable) bustle bustle_attends
  refine ⟨N, fun j hj => ?_⟩
  have := h j hj
  rw [hb, caller_asyncReception] at this
  obtain ⟨ms, out, h1, h2, ⟨-, -, -, -, h3⟩ | ⟨-, -, -, h3⟩ | ⟨-, -, -, -, h3⟩⟩ := this
  · exact ⟨ms, out, h1, h2, by rw [h3]; exact List.prefix_refl _⟩
  · exact ⟨ms, out, h1, h2, by rw [h3]; exact List.prefix_refl _⟩
  · exact ⟨ms, out, h1, h2, h3⟩

/-- What becomes of them: the first is waited for, the second has been let go of, and the third has got all it is owed. -/
theorem lobby_end : (let x := @Bureau.endures B64.strict reqParser (Bureau.start keys89 fun _ => 0) (lobby ++ roundsOf bustle 20)
      ((x.conns 0).task.out.wire, (x.conns 0).gone, (x.conns 1).task.out.wire, (x.conns 1).gone, (x.conns 2).task.out.wire, (x.conns 2).gone)) =
    ([], false, [], true, callerAnswer ++ callerGets, true) := by decide +kernel

set_option maxRecDepth 8000 in
example := @C89_alone B64.strict reqParser keys89 (fun _ => 0) lobby 2
set_option maxRecDepth 8000 in
example := @C89_written_partial B64.strict reqParser keys89 (fun _ => 0) lobby 2 (by rw [lobby_brought.1]; exact caller_unmistakable)

theorem lobby_gone : ((@Bureau.endures B64.strict reqParser (Bureau.start keys89 fun _ => 0) (lobby ++ roundsOf bustle 20)).conns 2).gone = true := by decide +kernel

set_option maxRecDepth 8000 in
example := @C89_gone_partial B64.strict reqParser keys89 (fun _ => 0) (lobby ++ roundsOf bustle 20) 2 (by rw [(rounds_quiet bustle_attends lobby 20).1, lobby_brought.1]; exact caller_unmistakable) lobby_gone

example : callerAnswer ++ ([0x81, 12] ++ ascii "Hello World!") <+: ((@Bureau.endures B64.strict reqParser (Bureau.start keys89 fun _ => 0) (lobby ++ roundsOf bustle 20)).conns 2).task.out.wire := by
  have hg := lobby_gone
  have hb : broughtBy 2 (lobby ++ roundsOf bustle 20) = callerBytes := by rw [(rounds_quiet bustle_attends lobby 20).1, lobby_brought.1]
  generalize lobby ++ roundsOf bustle 20 = es at hg hb ⊢
  exact @C89_greets_partial B64.strict reqParser keys89 (fun _ => 0) es 2 (by rw [hb]; exact caller_unmistakable) _ _ (by rw [hb]; exact caller_asyncReception) hg

/-- The same caller alone gets the same. -/
theorem alone_attends (_ : Nat) : Attention 0 [.main [(0, 1)], .task 0 2 1] := by
  refine ⟨fun e he => ?_, ⟨_, List.mem_cons_self, 1, by simp⟩, ⟨2, 1, by simp⟩, fun ps n h h' => ?_, fun n k h => ?_⟩
  · simp only [List.mem_cons, List.not_mem_nil, or_false] at he
    rcases he with rfl | rfl <;> exact ⟨fun b hb => (by cases hb), fun hb => (by cases hb)⟩
  · simp only [List.mem_cons, List.not_mem_nil, or_false, Occasion.main.injEq, reduceCtorEq] at h
    subst h
    simp only [List.mem_cons, List.not_mem_nil, or_false, Prod.mk.injEq] at h'
    omega
  · simp only [List.mem_cons, List.not_mem_nil, or_false, Occasion.task.injEq, reduceCtorEq, false_or] at h
    omega

set_option maxRecDepth 8000 in
example := @C89_deterministic_partial B64.strict reqParser keys89 (fun _ => 0) keys89 (fun _ => 1) lobby [.connects, .bytes 0 callerBytes] 2 0 (by decide) (by decide)
  (by rw [lobby_brought.1]; simp [broughtBy, visitsOf, brought]) (by rw [lobby_brought.2.2.2]; simp [leftBy, visitsOf, endedBy]) (by rw [lobby_brought.1]; exact caller_unmistakable)
  (fun written rest hr => by
    rw [lobby_brought.1, caller_asyncReception, Reception.serves.injEq] at hr
    rw [← hr.2]
    exact ⟨_, caller_course.1, .inl caller_course.2⟩)
  bustle _ bustle_attends alone_attends

/-- The full claim is false, as it is for one connection alone (C88): two peers of one server send the same bytes, and both are let go of; what the first gets has one message more. -/
theorem C89_refuted_lost : ∃ es : List Occasion, broughtBy 0 es = broughtBy 1 es ∧ leftBy 0 es = leftBy 1 es ∧ @Unmistakable B64.strict reqParser (broughtBy 0 es) ∧
    (let x := @Bureau.endures B64.strict reqParser (Bureau.start keys89 fun _ => 0) es
     ((x.conns 0).task.out.wire, (x.conns 0).gone, (x.conns 1).task.out.wire, (x.conns 1).gone)) =
    (callerAnswer ++ ([0x81, 12] ++ ascii "Hello World!" ++ [0x81, 2, 104, 105]), true, callerAnswer ++ ([0x81, 12] ++ ascii "Hello World!"), true) := by
  refine ⟨[.connects, .connects, .bytes 0 (caller1 ++ caller2 ++ rough88), .bytes 1 (caller1 ++ caller2 ++ rough88 ++ rougher88), .main [(0, 1000), (1, 1000)]] ++
    (List.replicate 9 [.task 0 1000 1000, .task 1 1000 1000]).flatten ++ [.bytes 0 rougher88, .task 0 1000 1000], ?_, ?_, ?_, ?_⟩
  · simp [broughtBy, visitsOf, brought, List.replicate]
  · simp [leftBy, visitsOf, endedBy, List.replicate]
  · have hb : broughtBy 0 ([.connects, .connects, .bytes 0 (caller1 ++ caller2 ++ rough88), .bytes 1 (caller1 ++ caller2 ++ rough88 ++ rougher88), .main [(0, 1000), (1, 1000)]] ++
        (List.replicate 9 [.task 0 1000 1000, .task 1 1000 1000]).flatten ++ [.bytes 0 rougher88, .task 0 1000 1000]) = 71 :: (caller1.tail ++ caller2 ++ rough88 ++ rougher88) := by
      decide +kernel
    rw [hb]
    exact @C88_unmistakable B64.strict 71 _ (by decide) (by decide) (by decide +kernel)
  · decide +kernel

end WS
