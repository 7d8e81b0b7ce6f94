import Verif.Props.Order
import Verif.Props.RunExamples

set_option linter.unusedSectionVars false
set_option linter.unusedSimpArgs false
set_option linter.unusedVariables false

/-!
# C107: the order in which walls and objects are added
-/

namespace Verif.Props
open Verif Matrix

section spec
variable {d : ℕ}

open Classical in
/-- Spec: at every point, those of the walls (objects) that cover it are listed in the same order. -/
def SameOrder {α : Type*} (inside : α → (Fin d → ℝ) → Prop) (l l' : List α) : Prop :=
  ∀ X, l'.filter (fun a => inside a X) = l.filter (fun a => inside a X)

/-- Spec: the walls after some steps (each with its length and time). -/
def movedWalls (ops : PlateOps d) (frameDt : ℝ) (plates : List (Plate d)) : List (ℝ × ℝ) → List (Plate d)
  | [] => plates
  | m :: ms => movedWalls ops frameDt (plates.map fun p => ops.move p m.1 frameDt m.2) ms

/-- The world with the walls listed in another order. -/
def reorderWalls (o : List ℕ) (w : World d) : World d := { w with plates := pick o w.plates }

end spec

section order
variable {d : ℕ} {R : Setup (d + 2)}

open Classical in
lemma collidePlates_filter (inside : Plate d → (Fin d → ℝ) → Prop)
    (rel : PlateType → BC → ℝ → (Fin d → ℝ) → (Fin d → ℝ)) (fr : ℝ → ℝ) (X : Fin d → ℝ) (plates : List (Plate d)) (v : Fin d → ℝ) :
    collidePlates inside rel fr X (plates.filter fun a => inside a X) v = collidePlates inside rel fr X plates v := by
  unfold collidePlates
  induction plates generalizing v with
  | nil => rfl
  | cons p ps ih =>
    by_cases h : inside p X
    · rw [List.filter_cons_of_pos (by simpa using h), List.foldl_cons, List.foldl_cons, ih]
    · rw [List.filter_cons_of_neg (by simpa using h), List.foldl_cons, if_neg h, ih]

open Classical in
lemma collideObjects_filter (fr : ℝ → ℝ) (X : Fin d → ℝ) (objs : List (GenObject d)) (v : Fin d → ℝ) :
    collideObjects fr X (objs.filter fun a => a.inside X) v = collideObjects fr X objs v := by
  unfold collideObjects
  induction objs generalizing v with
  | nil => rfl
  | cons p ps ih =>
    by_cases h : p.inside X
    · rw [List.filter_cons_of_pos (by simpa using h), List.foldl_cons, List.foldl_cons, ih]
    · rw [List.filter_cons_of_neg (by simpa using h), List.foldl_cons, if_neg h, ih]

lemma boundaryCollision_order {ops : PlateOps d} {plates plates' : List (Plate d)} (hp : SameOrder ops.inside plates plates')
    {objs objs' : List (GenObject d)} (ho : SameOrder GenObject.inside objs objs') (mibf : Bool) (gf : ℕ → ℝ) (dt : ℝ) :
    boundaryCollision ops mibf gf dt objs' plates' = boundaryCollision ops mibf gf dt objs plates := by
  funext l X v
  simp only [boundaryCollision]
  rw [← collidePlates_filter _ _ _ _ plates', hp, collidePlates_filter, ← collideObjects_filter _ _ objs', ho, collideObjects_filter]

lemma physStep_walls {o : List ℕ} {w : World (d + 2)} (h : SameOrder R.ops.inside w.plates (pick o w.plates)) (dt : ℝ)
    (g : Fin (d + 2) → ℝ) (t : ℝ) (n : ℕ) :
    physStep R (reorderWalls o w) dt g t n = (physStep R w dt g t n).map (Prod.map (reorderWalls o) id) := by
  have hb := boundaryCollision_order h (objs := R.objs) (objs' := R.objs) (fun _ => rfl) R.S.P.useMibf
  rw [physStep_eq, physStep_eq]
  simp only [reorderWalls]
  cases chooseGrid R.S ⟨w.ps, w.box, w.g, n⟩ with
  | none => rfl
  | some bg =>
    simp only [Option.bind_some]
    split_ifs with hm
    · rfl
    · cases P2G R.S.P bg.2 (R.sched n (w.ps ++ ghosts R.S.P.dx (R.S.L 0) 4 w.ps)) with
      | none => rfl
      | some arr =>
        simp only [Option.bind_some, afterP2G, hb, Option.map_bind, Function.comp_def, Option.map_some, Prod.map_apply, id_eq, reorderWalls, pick_map]
    · rfl
    · cases P2G R.S.P bg.2 (R.sched n (w.ps ++ [])) with
      | none => rfl
      | some arr =>
        simp only [Option.bind_some, afterP2G, hb, Option.map_bind, Function.comp_def, Option.map_some, Prod.map_apply, id_eq, reorderWalls, pick_map]

/-- **C107** Walls may be added in another order (or twice, or left out) as long as this does not change, at any point and at any
time, the order of the walls that cover the point: the run is the same. -/
theorem C107_walls {o : List ℕ} {s : LoopState (d + 2) (World (d + 2))}
    (h : ∀ ms, SameOrder R.ops.inside (movedWalls R.ops R.C.frameDt s.w.plates ms)
      (movedWalls R.ops R.C.frameDt (pick o s.w.plates) ms)) (i e : Bool) (fuel : ℕ) :
    runProgram R i e fuel (s.map (reorderWalls o) id) = (runProgram R i e fuel s).map (reorderWalls o) id := by
  unfold runProgram
  split_ifs with ha
  · have e1 : ∀ w : World (d + 2), fillMuI R.m R.S.P.useMibf (reorderWalls o w) = reorderWalls o (fillMuI R.m R.S.P.useMibf w) := by
      intro w
      unfold fillMuI reorderWalls
      split_ifs <;> rfl
    have e2 : (fillMuI R.m R.S.P.useMibf s.w).plates = s.w.plates := by unfold fillMuI; split_ifs <;> rfl
    have := simulate_map (C := R.C) (ph := physics R) (ph' := physics R) (f := reorderWalls o) (γ := LinearMap.id)
      (Inv := fun w => ∀ ms, SameOrder R.ops.inside (movedWalls R.ops R.C.frameDt w.plates ms)
        (movedWalls R.ops R.C.frameDt (pick o w.plates) ms))
      (fun w hw => rfl)
      (fun w dt g t n hw => physStep_walls (hw []) dt g t n)
      (fun w dt g t n w' hw h ms => by
        have hpl : w'.plates = w.plates.map fun p => R.ops.move p dt R.C.frameDt t := physStep_plates h
        have := hw ((dt, t) :: ms)
        rw [hpl, pick_map]
        exact this)
      i R.m.elastic R.m.plastic e fuel { s with w := fillMuI R.m R.S.P.useMibf s.w } (by rw [e2]; exact h)
    simp only [LoopState.map, e1] at this ⊢
    exact this
  · rfl

/-- **C107** The same for the objects. -/
theorem C107_objects {objs' : List (GenObject (d + 2))} (h : SameOrder GenObject.inside R.objs objs') (i e : Bool) (fuel : ℕ)
    (s : LoopState (d + 2) (World (d + 2))) :
    runProgram { R with objs := objs' } i e fuel s = runProgram R i e fuel s := by
  have hs : physStep { R with objs := objs' } = physStep R := by
    funext w dt g t n
    rw [physStep_eq, physStep_eq]
    congr 1
    funext bg
    congr 1
    congr 1
    funext arr
    have hb := boundaryCollision_order (ops := R.ops) (plates := w.plates) (plates' := w.plates) (fun _ => rfl) h R.S.P.useMibf
      (fun l => (arr l).friction) dt
    simp only [afterP2G, hb]
    rfl
  have : physics { R with objs := objs' } = physics R := by simp only [physics, hs]
  simp only [runProgram, this]

end order

namespace RunEx

/-- A wall on the left that does not move, and one on the right. -/
noncomputable def leftWall : Plate 2 := ⟨-1, .left, .slipStick, 1 / 2, -5, 5, 0, 0, 1, 0⟩
@[inherit_doc leftWall] noncomputable def rightWall : Plate 2 := ⟨2, .right, .slipFree, 1 / 2, -5, 5, 0, 0, 1, 0⟩

/-- Nothing is on both sides of the box. -/
lemma box_order (f : ℝ) : ∀ ms, SameOrder plateOps2.inside (movedWalls plateOps2 f [leftWall, rightWall] ms)
    (movedWalls plateOps2 f (pick [1, 0] [leftWall, rightWall]) ms) := by
  have hmove : ∀ ms, ∃ v w, movedWalls plateOps2 f [leftWall, rightWall] ms = [{ leftWall with vel := v }, { rightWall with vel := w }] ∧
      movedWalls plateOps2 f [rightWall, leftWall] ms = [{ rightWall with vel := w }, { leftWall with vel := v }] := by
    have key : ∀ (ms : List (ℝ × ℝ)) (v w : Fin 2 → ℝ), ∃ v' w',
        movedWalls plateOps2 f [{ leftWall with vel := v }, { rightWall with vel := w }] ms =
          [{ leftWall with vel := v' }, { rightWall with vel := w' }] ∧
        movedWalls plateOps2 f [{ rightWall with vel := w }, { leftWall with vel := v }] ms =
          [{ rightWall with vel := w' }, { leftWall with vel := v' }] := by
      intro ms
      induction ms with
      | nil => exact fun v w => ⟨v, w, rfl, rfl⟩
      | cons m ms ih =>
        intro v w
        have h1 : ∀ v, ∃ v', plateOps2.move { leftWall with vel := v } m.1 f m.2 = { leftWall with vel := v' } := by
          intro v
          exact ⟨![0, 0], by simp [plateOps2, Plate.move2, leftWall]⟩
        have h2 : ∀ v, ∃ v', plateOps2.move { rightWall with vel := v } m.1 f m.2 = { rightWall with vel := v' } := by
          intro v
          exact ⟨![0, 0], by simp [plateOps2, Plate.move2, rightWall]⟩
        obtain ⟨v', hv⟩ := h1 v
        obtain ⟨w', hw⟩ := h2 w
        simp only [movedWalls, List.map_cons, List.map_nil, hv, hw]
        exact ih v' w'
    exact fun ms => key ms 0 0
  intro ms X
  obtain ⟨v, w, h1, h2⟩ := hmove ms
  rw [show pick [1, 0] [leftWall, rightWall] = [rightWall, leftWall] from rfl, h1, h2]
  by_cases hl : plateOps2.inside { leftWall with vel := v } X <;> by_cases hr : plateOps2.inside { rightWall with vel := w } X
  · simp only [plateOps2, Plate.inside2, leftWall, rightWall] at hl hr
    linarith [hl.2.2, hr.2.2]
  all_goals simp [List.filter_cons, hl, hr]

/-- Two particles in a box. -/
example (fuel : ℕ) : runProgram (d := 0) (setup true 1 .vm) true false fuel (start pair ![3, -10] [rightWall, leftWall]) =
    (runProgram (d := 0) (setup true 1 .vm) true false fuel (start pair ![3, -10] [leftWall, rightWall])).map
      (reorderWalls [1, 0]) id :=
  C107_walls (d := 0) (R := setup true 1 .vm) (o := [1, 0]) (s := start pair ![3, -10] [leftWall, rightWall]) (box_order _) true false fuel

/-- A wall on the left where nothing slips, moving up with speed one, and a floor where nothing slips. -/
noncomputable def belt : Plate 2 := ⟨0, .left, .noSlip, 0, -5, 5, ![0, 1], ![0, 1], 1, 0⟩
@[inherit_doc belt] noncomputable def ground : Plate 2 := ⟨0, .bottom, .noSlip, 0, -5, 5, 0, 0, 1, 0⟩

end RunEx

/-- **C107** Where walls overlap the order matters: in the corner of a moving and a fixed wall where nothing slips, the wall that was
added last decides. -/
theorem C107_corner_false (gf : ℕ → ℝ) (l : ℕ) (v : Fin 2 → ℝ) :
    boundaryCollision plateOps2 false gf 0 [] [RunEx.ground, RunEx.belt] l ![-1, -1] v = ![0, 1] ∧
    boundaryCollision plateOps2 false gf 0 [] [RunEx.belt, RunEx.ground] l ![-1, -1] v = ![0, 0] := by
  have hX : (![-1, -1] + (0 : ℝ) • v : Fin 2 → ℝ) = ![-1, -1] := by rw [zero_smul, add_zero]
  have h1 : plateOps2.inside RunEx.belt (![-1, -1] + (0 : ℝ) • v) := by
    rw [hX]; simp only [plateOps2, Plate.inside2, RunEx.belt]; norm_num
  have h2 : plateOps2.inside RunEx.ground (![-1, -1] + (0 : ℝ) • v) := by
    rw [hX]; simp only [plateOps2, Plate.inside2, RunEx.ground]; norm_num
  constructor <;>
  · simp only [boundaryCollision, collideObjects, collidePlates, List.foldl_cons, List.foldl_nil, if_pos h1, if_pos h2]
    simp [plateOps2, plateRel2, RunEx.belt, RunEx.ground]

end Verif.Props
