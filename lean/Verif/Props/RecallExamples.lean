import Verif.Props.Recall
import Verif.Props.MuiLimitExamples

set_option linter.unusedSectionVars false
set_option linter.unusedSimpArgs false
set_option linter.unusedVariables false

/-!
# C129: concrete runs
-/

namespace Verif.Props.RunEx
open Verif Matrix
noncomputable section

/-- The crushed particle with a history: plastic strains and records of an earlier run. -/
def aged : List (Particle 2 ℝ) :=
  (lone crushed).map fun p => { p with epsPlDev := 3, epsPlVol := -1 / 2, epsPlVolPradhana := 1, deltaGamma := 7, viscosity := 2, muI := 1 / 2 }

/-- The run of the Drucker-Prager material with `use_mibf`. -/
def rough (musl : Bool) : Setup 2 :=
  let R := made musl grit
  { R with S := { R.S with P := { R.S.P with useMibf := true } } }

/-- `C129_run`: the history does not matter for the Drucker-Prager material. -/
example (musl : Bool) (g : Fin 2 → ℝ) :
    (runProgram (d := 0) (made musl grit) true false 10 (start aged g)).map (keptWorld ⟨false, false, false, false⟩) id =
      (runProgram (d := 0) (made musl grit) true false 10 (start (lone crushed) g)).map
        (keptWorld ⟨false, false, false, false⟩) id :=
  C129_run (d := 0) (R := made musl grit) (fun _ _ => by simp [made, withMaterial, setup]) rfl
    (by simp [LoopState.map, start, keptWorld, aged, kept, Function.comp_def, memory, made, withMaterial, setup, grit, Ex.mat])
    rfl

/-- `C129_run` with `use_mibf`: the friction coefficient `1 / 2` of the aged particle is replaced at the start, and the
friction coefficients of the two runs agree. -/
example (musl : Bool) (g : Fin 2 → ℝ) :
    (runProgram (d := 0) (rough musl) true false 10 (start aged g)).map (keptWorld ⟨false, false, false, true⟩) id =
      (runProgram (d := 0) (rough musl) true false 10 (start (lone crushed) g)).map
        (keptWorld ⟨false, false, false, true⟩) id :=
  C129_run (d := 0) (R := rough musl) (fun _ _ => by simp [rough, made, withMaterial, setup]) rfl
    (by simp [LoopState.map, start, keptWorld, aged, kept, Function.comp_def, memory, rough, made, withMaterial, setup, grit, Ex.mat])
    rfl

/-- **C129** The memory of the softening Drucker-Prager model is needed: two particles that differ only in the accumulated
plastic shear strain are deformed differently by the update. -/
theorem C129_read {m : Material} (hp : m.plastic = .dpSoft) (hx : m.xi ≠ 0) (hu : m.usePradhana = false) (hM : 0 < m.M)
    (hc : 0 < m.qCohesion) (hK : 0 < m.K 2) (cabs : ℝ → ℝ) (dt : ℝ) :
    ∃ (svd : Matrix (Fin 2) (Fin 2) ℝ → Svd 2) (q q' : Particle 2 ℝ), IsSvd q.F (svd q.F) ∧ q' = { q with epsPlDev := 1 } ∧
      ∃ a b, updated cabs svd m dt q = some a ∧ updated cabs svd m dt q' = some b ∧ a.1.F ≠ b.1.F := by
  set c := m.qCohesion / m.M with hcd
  have hc0 : 0 < c := div_pos hc hM
  have he : 0 < Real.exp (-m.xi) := Real.exp_pos _
  set L := c * (1 + Real.exp (-m.xi)) / (2 * m.K 2) with hL
  have hL0 : 0 < L := by positivity
  set σ : Svd 2 := ⟨1, fun _ => Real.exp L, 1⟩ with hσ
  let q : Particle 2 ℝ := { Particle.init with F := diagonal fun _ => Real.exp L }
  have hs : IsSvd q.F σ := by
    constructor
    · simp [q, hσ]
    · simp [hσ]
    · simp [hσ]
    · intro i; exact (Real.exp_pos _).le
  have hh : σ.hencky = fun _ => L := by
    funext i
    have h1 : (1e-4 : ℝ) ≤ Real.exp L := le_trans (by norm_num) (Real.one_le_exp hL0.le)
    simp only [Svd.hencky, hσ, abs_of_pos (Real.exp_pos L), max_eq_left h1, Real.log_exp]
  have ht : (mkTrial σ.hencky).trace = 2 * L := by simp [mkTrial, hh]
  have hLK : -m.K 2 * (2 * L) = -(c + c * Real.exp (-m.xi)) := by rw [hL]; field_simp
  have hcm : -m.qCohesion / m.M = -c := by rw [hcd, neg_div]
  have k0 : -m.K 2 * (2 * L) ≤ -c * Real.exp (-m.xi * 0) := by
    rw [hLK, mul_zero, Real.exp_zero]; nlinarith [mul_pos hc0 he]
  have k1 : -m.K 2 * (2 * L) ≤ -c * Real.exp (-m.xi * 1) := by
    rw [hLK, mul_one]; nlinarith
  refine ⟨fun _ => σ, q, { q with epsPlDev := 1 }, hs, rfl, ?_⟩
  simp only [updated, plasticity, plastModel, hp, plastDPSoft, hu, Bool.false_eq_true, if_false, ht, hcm, add_zero,
    Option.bind_eq_bind, Option.bind_some, Option.map_some, q, Particle.init, if_pos k0, if_pos k1]
  refine ⟨_, _, rfl, rfl, fun h => ?_⟩
  have h0 := congrFun (congrFun h 0) 0
  simp only [Svd.expF, hσ, transpose_one, Matrix.mul_one, Matrix.one_mul, diagonal_apply_eq, mul_zero, mul_one, Real.exp_zero] at h0
  have h1 := Real.exp_injective h0
  have h2 : m.K 2 * ((2 : ℕ) : ℝ) ≠ 0 := by positivity
  have h3 : (1 : ℝ) = Real.exp (-m.xi) := by
    field_simp at h1
    nlinarith
  have h4 := Real.exp_injective (Real.exp_zero.trans h3)
  exact hx (by linarith)

end
end Verif.Props.RunEx
