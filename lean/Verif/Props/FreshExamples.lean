import Verif.Props.Fresh
import Verif.Props.LimitsExamples

set_option linter.unusedSectionVars false
set_option linter.unusedSimpArgs false
set_option linter.unusedVariables false

/-!
# C130: concrete runs
-/

namespace Verif.Props.RunEx
open Verif Matrix
noncomputable section

/-- The initial state of `start`, with remains of another run: a grid with masses, velocities and friction coefficients, a box,
interpolated velocities and (unless `aff`) affine matrices. -/
def littered (aff : Bool) (ps : List (Particle 2 ℝ)) (g : Fin 2 → ℝ) : LoopState 2 (World 2) :=
  ⟨⟨ps.map fun p => { p with pic := ![1, 2], flip := ![3, 4], Bmat := if aff then p.Bmat else !![1, 2; 3, 4] },
    some fun _ => ⟨0, 0, 0, 5⟩, fun _ => [0, 1, 2], [], fun _ => 7, fun _ => ![1, 1], fun _ => 1 / 2⟩, 0, 0, 0, g, []⟩

/-- `C130_run`, `C130_first` with AFLIP: the run from the littered state is the run from the clean one. -/
example (musl : Bool) (g : Fin 2 → ℝ) : ∃ r,
    runProgram (d := 0) (setup musl 1 .vm) true false 10 (start stretched g) =
        after (firstFiles (setup musl 1 .vm).C (start stretched g).w) r ∧
      runProgram (d := 0) (setup musl 1 .vm) true false 10 (littered true stretched g) =
        after (firstFiles (setup musl 1 .vm).C (littered true stretched g).w) r :=
  C130_run (d := 0) (R := setup musl 1 .vm) (s := start stretched g) (s' := littered true stretched g) (fuel := 9)
    (fun _ _ => by simp [setup]) rfl
    ⟨by simp [start, littered, setup, unhelped, Function.comp_def], rfl, fun h => by simp [setup] at h⟩ rfl rfl rfl
    (by simp [setup, cfg, exConfig])

/-- The set-up with FLIP. -/
def flipped (musl : Bool) : Setup 2 :=
  { setup musl 1 .vm with S := ⟨mkTransferParams .two 1 (19 / 20) false 3 1, musl, false, false, 1, none⟩ }

/-- `C130_run` with FLIP: here the affine matrices of the two initial states differ, too. -/
example (musl : Bool) (g : Fin 2 → ℝ) : ∃ r,
    runProgram (d := 0) (flipped musl) true false 10 (start stretched g) =
        after (firstFiles (flipped musl).C (start stretched g).w) r ∧
      runProgram (d := 0) (flipped musl) true false 10 (littered false stretched g) =
        after (firstFiles (flipped musl).C (littered false stretched g).w) r :=
  C130_run (d := 0) (R := flipped musl) (s := start stretched g) (s' := littered false stretched g) (fuel := 9)
    (fun _ _ => by simp [flipped, setup]) rfl
    ⟨by
      have h : ¬ (flipped musl).S.P.flipRatio < 0 := by simp [flipped, mkTransferParams]; norm_num
      simp [start, littered, unhelped, Function.comp_def, h], rfl, fun h => by simp [flipped] at h⟩ rfl rfl rfl
    (by simp [flipped, setup, cfg, exConfig])

end
end Verif.Props.RunEx

namespace Verif.Props
open Verif Matrix

/-- **C130** With a negative `flip_ratio` the affine matrix is really read: two particles that differ only in it give different
momenta to a node (unless the particle is at the node or the weight is zero). -/
theorem C130_affine {d : ℕ} {P : TransferParams ℝ} (hP : P.flipRatio < 0) (hD : P.apicDinverse ≠ 0) (p : Particle d ℝ)
    (s : Stencil d ℝ) (c : Fin d → Fin 4) (hw : s.weight c ≠ 0) (hx : s.nodePos c ≠ p.x) :
    (contribution P { p with Bmat := 1 } s c).v ≠ (contribution P { p with Bmat := 0 } s c).v := by
  intro h
  simp only [contribution, if_pos hP, one_mulVec, zero_mulVec, smul_zero, add_zero, add_eq_left] at h
  rcases smul_eq_zero.mp h with h | h
  · exact (mul_ne_zero hD hw) h
  · exact hx (sub_eq_zero.mp h)

/-- A particle halfway between two nodes. -/
example : ∃ (P : TransferParams ℝ) (p : Particle 1 ℝ) (s : Stencil 1 ℝ) (c : Fin 1 → Fin 4),
    P.flipRatio < 0 ∧ P.apicDinverse ≠ 0 ∧ s.weight c ≠ 0 ∧ s.nodePos c ≠ p.x :=
  ⟨mkTransferParams .two 1 (-19 / 20) false 3 1, { Particle.init with x := ![1 / 2] },
    ⟨fun _ => 0, fun _ i => (i : ℝ) - 1, fun _ _ => 1 / 2, fun _ _ => 0⟩, fun _ => 1,
    by simp [mkTransferParams]; norm_num, by simp [mkTransferParams], by simp [Stencil.weight], fun h => by
      have := congrFun h 0
      simp [Stencil.nodePos] at this⟩

end Verif.Props
