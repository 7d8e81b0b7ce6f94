import Verif.Props.MuiLimit
import Verif.Props.LimitsExamples

set_option linter.unusedSectionVars false
set_option linter.unusedSimpArgs false
set_option linter.unusedVariables false

/-!
# C128: concrete runs
-/

namespace Verif.Props.RunEx
open Verif Matrix
noncomputable section

/-- A sand with grains of one millimetre. -/
def grit : Material := { Ex.mat .dp with iRef := 3 / 10, grainDiameter := 1 / 1000, rhoS := 2500 }

lemma grit_ok : MatOk grit 2 := ⟨(Ex.mat_ok .dp).hd, (Ex.mat_ok .dp).hK, (Ex.mat_ok .dp).hmu, (Ex.mat_ok .dp).hq, (Ex.mat_ok .dp).hel⟩

/-- `C128_run` for a crushed particle. -/
example (musl : Bool) (g : Fin 2 → ℝ) :
    (runProgram (d := 0) (made musl (muiDP grit)) true false 10 (start (lone crushed) g)).map (bareWorld false) id =
      (runProgram (d := 0) (made musl (inviscidDP grit)) true false 10 (start (lone crushed) g)).map (bareWorld false) id :=
  C128_run (d := 0) (R := setup musl 1 .vm) (m := grit) grit_ok (by norm_num [grit, Ex.mat]) (by norm_num [grit]) (by norm_num [grit])
    (by norm_num [grit]) (by norm_num [setup, cfg, exConfig]) (fun _ _ => by simp [setup]) rfl

/-- The update of a state under pressure and shear. -/
example (dt : ℝ) (hdt : 0 < dt) :
    (updated abs someSvd (muiDP grit) dt { Particle.init with F := crushed }).map (Prod.map (bare false) id) =
      (updated abs someSvd (inviscidDP grit) dt { Particle.init with F := crushed }).map (Prod.map (bare false) id) :=
  mui_visc (m := grit) grit_ok (by unfold Material.facQ; simp only [grit]; positivity) (by norm_num [grit, Ex.mat]) hdt

/-- **C128** The saved rates are not the same: `DPMui` keeps the rate of the last step (without MUSL) if the particle does not
flow, `DPVisc` sets it to zero. -/
theorem C128_rate_false (m : Material) (hM : 0 < m.M) (hc : 0 ≤ m.qCohesion) (hpr : m.usePradhana = false) (cabs : ℝ → ℝ) (dt : ℝ) :
    ∃ (svd : Matrix (Fin 2) (Fin 2) ℝ → Svd 2) (q : Particle 2 ℝ), IsSvd q.F (svd q.F) ∧
      (updated cabs svd (muiDP m) dt q).map (·.1.deltaGamma) = some 1 ∧
      (updated cabs svd (inviscidDP m) dt q).map (·.1.deltaGamma) = some 0 := by
  have hs : IsSvd (1 : Matrix (Fin 2) (Fin 2) ℝ) ⟨1, fun _ => 1, 1⟩ := by
    constructor <;> simp [diagonal_one]
  let q : Particle 2 ℝ := { Particle.init with F := 1, deltaGamma := 1 }
  have ht : (mkTrial (d := 2) (Svd.hencky ⟨1, fun _ => 1, 1⟩)) = ⟨0, 0, 0, 0⟩ := by
    have h0 : Svd.hencky (d := 2) ⟨1, fun _ => 1, 1⟩ = 0 := by
      funext i; simp only [Svd.hencky, abs_one]; norm_num
    rw [h0]
    have hn : vnorm (0 : Fin 2 → ℝ) = 0 := by simp [vnorm]
    simp only [mkTrial, Pi.zero_apply, Finset.sum_const_zero, zero_div, sub_zero]
    have h1 : (fun _ : Fin 2 => (0 : ℝ)) = 0 := rfl
    simp only [h1, hn, lt_irrefl, gt_iff_lt, if_false]
  have htip : ¬ ((0 : ℝ) < -m.qCohesion / m.M) := not_lt.mpr (div_nonpos_of_nonpos_of_nonneg (by linarith) hM.le)
  have e1 : (muiDP m).plastic = .dpMui := rfl
  have e2 : (muiDP m).usePradhana = false := hpr
  have e3 : (muiDP m).mu1 = m.M := rfl
  have e4 : (muiDP m).stressTol = 0 := rfl
  have e5 : (muiDP m).qCohesion = m.qCohesion := rfl
  have f1 : (inviscidDP m).plastic = .dpVisc := rfl
  have f2 : (inviscidDP m).usePradhana = false := hpr
  have f3 : (inviscidDP m).M = m.M := rfl
  have f4 : (inviscidDP m).qCohesion = m.qCohesion := rfl
  refine ⟨fun _ => ⟨1, fun _ => 1, 1⟩, q, hs, ?_, ?_⟩
  all_goals
    simp only [updated, plasticity, plastModel, e1, e2, e3, e4, e5, f1, f2, f3, f4, ht, plastDPMui, plastDPVisc, Option.bind_eq_bind,
      Option.bind_some, Option.map_some, mul_zero, add_zero, zero_add, Bool.false_eq_true, if_false, htip, gt_iff_lt,
      not_lt.mpr hc, and_false]
  rfl

end
end Verif.Props.RunEx
