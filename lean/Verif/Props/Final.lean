import Verif.Props.Hall
import Verif.Lemmas.Final
/-!
# C88, C89, C90: nothing is taken back, and nothing comes behind the end

These hold for all bytes, without the conditions `Unmistakable` and `Unclouded` of the other theorems.
-/

namespace WS
open Spec

section
variable [B64] {preq : ReqParser}

theorem endures_later (es : List Befalls) : ∀ x : Desk, Succeeds x (x.endures preq es) := by
  induction es with
  | nil => exact fun x => Succeeds.refl x
  | cons e es ih => exact fun x => (meets_later x e).trans (ih _)

/-- C88: what has been written to the peer stays written, whatever happens then. -/
theorem C88_keeps (keys : Nat → Key4) (extra : Nat) (es fs : List Befalls) :
    ((Desk.start keys extra).endures preq es).task.out.wire <+: ((Desk.start keys extra).endures preq (es ++ fs)).task.out.wire := by
  rw [show (Desk.start keys extra).endures preq (es ++ fs) = ((Desk.start keys extra).endures preq es).endures preq fs from List.foldl_append]
  exact (endures_later fs _).keeps

/-- C88: when the server has let go of the peer, that is final: nothing more is written, whatever happens then. -/
theorem C88_final (keys : Nat → Key4) (extra : Nat) (es fs : List Befalls) (h : ((Desk.start keys extra).endures preq es).gone = true) :
    ((Desk.start keys extra).endures preq (es ++ fs)).gone = true ∧
    ((Desk.start keys extra).endures preq (es ++ fs)).task.out.wire = ((Desk.start keys extra).endures preq es).task.out.wire := by
  rw [show (Desk.start keys extra).endures preq (es ++ fs) = ((Desk.start keys extra).endures preq es).endures preq fs from List.foldl_append]
  exact (endures_later fs _).final ((endures_later es _).sound nofun) h

variable {keys : Nat → Nat → Key4} {extra : Nat → Nat}

/-- C89: what has been written to a peer stays written, whatever anybody does then. -/
theorem C89_keeps (es fs : List Occasion) (i : Nat) :
    (((Bureau.start keys extra).endures preq es).conns i).task.out.wire <+: (((Bureau.start keys extra).endures preq (es ++ fs)).conns i).task.out.wire := by
  rw [bureau_append]
  exact (bureau_later fs _ i).keeps

/-- C89: when the server has let go of a peer, that is final: nothing more is written to it, whatever anybody does then. -/
theorem C89_final (es fs : List Occasion) (i : Nat) (h : (((Bureau.start keys extra).endures preq es).conns i).gone = true) :
    (((Bureau.start keys extra).endures preq (es ++ fs)).conns i).gone = true ∧
    (((Bureau.start keys extra).endures preq (es ++ fs)).conns i).task.out.wire = (((Bureau.start keys extra).endures preq es).conns i).task.out.wire := by
  rw [bureau_append]
  exact (bureau_later fs _ i).final ((bureau_later es _ i).sound nofun) h

/-- C90: what has been written to a peer stays written, whatever anybody does then. -/
theorem C90_keeps (es fs : List Occasion) (i : Nat) :
    (((Hall.start keys extra).endures preq es).conns i).task.out.wire <+: (((Hall.start keys extra).endures preq (es ++ fs)).conns i).task.out.wire := by
  rw [hall_append]
  exact (hall_later fs _ i).keeps

/-- C90: when the server has let go of a peer, that is final: nothing more is written to it, whatever anybody does then. -/
theorem C90_final (es fs : List Occasion) (i : Nat) (h : (((Hall.start keys extra).endures preq es).conns i).gone = true) :
    (((Hall.start keys extra).endures preq (es ++ fs)).conns i).gone = true ∧
    (((Hall.start keys extra).endures preq (es ++ fs)).conns i).task.out.wire = (((Hall.start keys extra).endures preq es).conns i).task.out.wire := by
  rw [hall_append]
  exact (hall_later fs _ i).final ((hall_later es _ i).sound nofun) h

end

/-! ## Concrete cases -/

set_option maxRecDepth 8000 in
example (fs : List Befalls) := @C88_keeps B64.strict reqParser keys88 0 visits88 fs

example (fs : List Befalls) : (@Desk.endures B64.strict reqParser (Desk.start keys88 0) (visits88 ++ List.replicate 20 (.poll 40 30) ++ fs)).gone = true := by
  have he := visits_end
  generalize visits88 ++ List.replicate 20 (.poll 40 30) = es at he ⊢
  exact (@C88_final B64.strict reqParser keys88 0 es fs (congrArg Prod.snd he)).1

set_option maxRecDepth 8000 in
example (fs : List Occasion) := @C89_keeps B64.strict reqParser keys89 (fun _ => 0) lobby fs 2

example (fs : List Occasion) : ((@Bureau.endures B64.strict reqParser (Bureau.start keys89 fun _ => 0) (lobby ++ roundsOf bustle 20 ++ fs)).conns 2).gone = true := by
  have hg := lobby_gone
  generalize lobby ++ roundsOf bustle 20 = es at hg ⊢
  exact (@C89_final B64.strict reqParser keys89 (fun _ => 0) es fs 2 hg).1

set_option maxRecDepth 8000 in
example (fs : List Occasion) := @C90_keeps B64.strict reqParser keys89 (fun _ => 0) foyer fs 2

/-- Whatever anybody does afterwards, this is all that the third caller ever gets. -/
example (fs : List Occasion) : ((@Hall.endures B64.strict reqParser (Hall.start keys89 fun _ => 0) (foyer ++ roundsOf stir 20 ++ fs)).conns 2).task.out.wire =
    plainAnswer ++ [0x8a, 1, 7, 0x81, 2, 104, 105, 0x88, 0] := by
  have hg := foyer_gone
  have hw := congrArg (fun q => q.2.2.2.1) foyer_end
  generalize foyer ++ roundsOf stir 20 = es at hg hw ⊢
  exact (@C90_final B64.strict reqParser keys89 (fun _ => 0) es fs 2 hg).2.trans hw

end WS
