import Verif.Props.RunExamples
import Verif.Model.Sampling

set_option linter.unusedSectionVars false
set_option linter.unusedSimpArgs false
set_option linter.unusedVariables false

/-!
# C132: simulations without particles
-/

namespace Verif.Props
open Verif Matrix
noncomputable section

section run
variable {d : ℕ} {R : Setup (d + 2)} {s : LoopState (d + 2) (World (d + 2))} {i e : Bool} {fuel : ℕ}

/-- **C132** An accepted simulation of at least one frame without particles has undefined behaviour (in `updateDt`, the maximum of
an empty range is dereferenced). -/
theorem C132_empty (ha : accepted i R.m.elastic R.m.plastic e = true) (hf : 0 < R.C.endFrame) (hs : s.w.ps = []) :
    runProgram R i e (fuel + 1) s = .ub := by
  have hw : (fillMuI R.m R.S.P.useMibf s.w).ps = [] := by
    unfold fillMuI; split_ifs <;> simp [hs]
  unfold runProgram
  rw [if_pos ha, simulate_eq ha]
  have hfr : (startState R.C { s with w := fillMuI R.m R.S.P.useMibf s.w }).frame < R.C.endFrame := by rw [start_frame]; exact hf
  have hps : (startState R.C { s with w := fillMuI R.m R.S.P.useMibf s.w }).w.ps = [] := by
    unfold startState; split_ifs <;> exact hw
  unfold loop
  rw [if_pos hfr]
  have hv : (physics R).velocities (startState R.C { s with w := fillMuI R.m R.S.P.useMibf s.w }).w = [] := by
    simp [physics, hps]
  simp only [loopBody, hv, updateDt, maxSpeed, maxElement, Option.map_none]

/-- **C132** With particles, the first time step and the first grid are defined, wherever the particles are and however fast. -/
theorem C132_first (hdx : 0 < R.S.P.dx) (hL : ∀ a, 0 ≤ R.S.L a) {w : World (d + 2)} (hne : w.ps ≠ []) (gf g : Fin (d + 2) → ℝ)
    (frame : ℕ) (time : ℝ) :
    (∃ r, updateDt R.C gf frame time ((physics R).velocities w) g = some r) ∧
      ∃ bg, chooseGrid R.S ⟨w.ps, w.box, w.g, 0⟩ = some bg := by
  constructor
  · cases hp : w.ps with
    | nil => exact absurd hp hne
    | cons p ps => simp [updateDt, maxSpeed, physics, hp, maxElement]
  · unfold chooseGrid
    by_cases hpb : R.S.pbc = true
    · obtain ⟨g, hg, -⟩ := periodic_grid (dx := R.S.P.dx) (L := R.S.L) hdx hL
      simp [hpb, hg]
    · obtain ⟨r, hr, -⟩ := C13_first_step .two hdx R.S.ref hne
      simp only [hpb, Bool.false_eq_true, if_false, if_true, hr, Option.map_some]
      exact ⟨_, rfl⟩

end run

/-- **C132** It can happen: regular sampling of a box that is narrower than the particle spacing gives no particles. -/
theorem C132_thin {rho dx ppc Lx Ly : ℝ} (hdx : 0 < dx) (hppc : 0 < ppc) (hx0 : 0 ≤ Lx) (hx : Lx < dx / √ppc) (hy0 : 0 ≤ Ly)
    (hy : Ly < 2 ^ 31 * (dx / √ppc)) (crop : ℕ) : ∃ s, regular2 rho dx ppc Lx Ly crop = some s ∧ s.ps = [] := by
  have hr : 0 < √ppc := Real.sqrt_pos.mpr hppc
  have hh : 0 < dx / √ppc := div_pos hdx hr
  have e1 : fsqrt ppc = some √ppc := by simp [fsqrt, not_lt.mpr hppc.le]
  have e2 : fdiv dx √ppc = some (dx / √ppc) := by simp [fdiv, hr.ne']
  have q0 : 0 ≤ Lx / (dx / √ppc) := div_nonneg hx0 hh.le
  have q1 : Lx / (dx / √ppc) < 1 := (div_lt_one hh).mpr hx
  have r0 : 0 ≤ Ly / (dx / √ppc) := div_nonneg hy0 hh.le
  have r1 : Ly / (dx / √ppc) < 2 ^ 31 := (div_lt_iff₀ hh).mpr hy
  have e3 : pointCount Lx (dx / √ppc) = some 0 := by
    have hfl : ⌊Lx / (dx / √ppc)⌋ = 0 := Int.floor_eq_zero_iff.mpr ⟨q0, q1⟩
    have hc : -(2 ^ 31 + 1) < Lx / (dx / √ppc) ∧ Lx / (dx / √ppc) < 2 ^ 31 := ⟨by linarith, by linarith⟩
    simp only [pointCount, fdiv, hh.ne', if_false, Option.bind_some, castInt, if_pos hc, if_pos q0, hfl]
  have e4 : pointCount Ly (dx / √ppc) = some ⌊Ly / (dx / √ppc)⌋ := by
    have hc : -(2 ^ 31 + 1) < Ly / (dx / √ppc) ∧ Ly / (dx / √ppc) < 2 ^ 31 := ⟨by linarith, r1⟩
    simp only [pointCount, fdiv, hh.ne', if_false, Option.bind_some, castInt, if_pos hc, if_pos r0]
  refine ⟨_, by simp only [regular2, e1, e2, e3, e4, Option.bind_eq_bind, Option.bind_some]; rfl, ?_⟩
  simp [points2, crop2, keep, mkParticles]

/-- A box of width 1/25 and height 1 with grid spacing 1/10 and 4 particles per cell (spacing 1/20). -/
example : ∃ s, regular2 1000 (1 / 10) 4 (1 / 25) 1 0 = some s ∧ s.ps = [] := by
  have h : √(4 : ℝ) = 2 := by rw [show (4 : ℝ) = 2 ^ 2 by norm_num]; exact Real.sqrt_sq (by norm_num)
  exact C132_thin (by norm_num) (by norm_num) (by norm_num) (by rw [h]; norm_num) (by norm_num) (by rw [h]; norm_num) 0

end
end Verif.Props

namespace Verif.Props.RunEx
open Verif

/-- `C132_empty`. -/
example (musl : Bool) (g : Fin 2 → ℝ) : runProgram (d := 0) (setup musl 1 .vm) true false 10 (start [] g) = .ub :=
  C132_empty (d := 0) rfl (by simp [setup, cfg, exConfig]) rfl

/-- `C132_first`. -/
example (musl : Bool) (g : Fin 2 → ℝ) :=
  C132_first (d := 0) (R := setup musl 1 .vm) (w := (start pair g).w) (by simp [setup, mkTransferParams])
    (by intro a; simp [setup]) (by simp [start, pair]) g g 0 0

end Verif.Props.RunEx
