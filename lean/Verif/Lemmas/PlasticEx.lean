import Verif.Lemmas.Plastic
import Mathlib.Tactic.FinCases

set_option linter.unusedSectionVars false
set_option linter.unusedSimpArgs false

/-!
# A family of concrete states for the examples beside the plasticity theorems

Plane strain, Lamé constants 0 and 1, deformation gradient `diag(exp a, exp b)`: the trial pressure is
`-(a + b)` and the trial shear stress `|a - b|`.
-/

namespace Verif.Ex
open Verif Matrix

/-- A material with `lambda = 0`, `mu = 1`, `K = 1`, `q_prefac = 1/sqrt 2`. -/
noncomputable def mat (pm : PlasticModel) : Material where
  elastic := .hencky
  plastic := pm
  hardening := .expoImpl
  usePradhana := false
  useMibf := false
  E := 2
  nu := 0
  stressTol := 1e-5
  xi := 0
  qMax := 1 / 4
  qMin := 1 / 8
  pMin := -10
  M := 1
  qCohesion := 1 / 8
  viscExponent := 1
  viscTime := 1
  useDuvautLions := false
  beta := 1 / 2
  p0 := 1
  rhoS := 1
  grainDiameter := 1
  iRef := 1
  mu1 := 1
  mu2 := 2
  qPrefac := 1 / Real.sqrt 2

lemma mat_lam (pm) : (mat pm).lam = 0 := by simp [Material.lam, mat]
lemma mat_mu (pm) : (mat pm).mu = 1 := by simp [Material.mu, mat]
lemma mat_K (pm) : (mat pm).K 2 = 1 := by simp [Material.K, mat_lam, mat_mu]
lemma sq2 : Real.sqrt 2 * Real.sqrt 2 = 2 := Real.mul_self_sqrt (by norm_num)
lemma sq2_pos : 0 < Real.sqrt 2 := Real.sqrt_pos.mpr (by norm_num)
lemma mat_dPre (pm) : (mat pm).dPre = Real.sqrt 2 := by simp [Material.dPre, mat]
lemma mat_eMu (pm) : (mat pm).eMu = Real.sqrt 2 := by
  have := sq2_pos
  have h := sq2
  simp only [Material.eMu, mat_mu]
  simp only [mat]
  field_simp
  nlinarith
lemma mat_fMu (pm) : (mat pm).fMu = 1 := by
  have := sq2_pos
  have h := sq2
  simp only [Material.fMu, mat_mu]
  simp only [mat]
  field_simp
  nlinarith

lemma mat_ok (pm) : MatOk (mat pm) 2 :=
  ⟨by norm_num, by rw [mat_K]; norm_num, by rw [mat_mu]; norm_num, by
    have := sq2_pos
    simp only [mat]; positivity, rfl⟩

/-- The decomposition of `diag(exp a, exp b)`. -/
noncomputable def svd (a b : ℝ) : Matrix (Fin 2) (Fin 2) ℝ → Svd 2 := fun _ =>
  ⟨1, ![Real.exp a, Real.exp b], 1⟩

/-- A particle with deformation gradient `diag(exp a, exp b)`. -/
noncomputable def part (a b : ℝ) : Particle 2 ℝ :=
  { (Particle.init : Particle 2 ℝ) with F := diagonal ![Real.exp a, Real.exp b] }

lemma isSvd (a b : ℝ) : IsSvd (part a b).F (svd a b (part a b).F) where
  eq := by simp [part, svd]
  orthU := by simp [svd]
  orthV := by simp [svd]
  nonneg := by intro i; fin_cases i <;> simp [svd, Real.exp_nonneg]

lemma big {a b : ℝ} (ha : -1 / 2 ≤ a) (hb : -1 / 2 ≤ b) (F) (i : Fin 2) : 1e-4 ≤ (svd a b F).sig i := by
  have h1 := Real.add_one_le_exp a
  have h2 := Real.add_one_le_exp b
  fin_cases i
  · show (1e-4 : ℝ) ≤ Real.exp a
    norm_num at *; linarith
  · show (1e-4 : ℝ) ≤ Real.exp b
    norm_num at *; linarith

lemma hencky {a b : ℝ} (ha : -1 / 2 ≤ a) (hb : -1 / 2 ≤ b) (F) : (svd a b F).hencky = ![a, b] := by
  funext i
  have h := hencky_of_big (s := svd a b F) (big ha hb F) i
  fin_cases i
  · exact Real.exp_injective h
  · exact Real.exp_injective h

lemma trace (a b : ℝ) : (mkTrial ![a, b]).trace = a + b := by
  rw [mkTrial_trace, Fin.sum_univ_two]; rfl

lemma norm (a b : ℝ) : (mkTrial ![a, b]).norm = |a - b| / Real.sqrt 2 := by
  rw [mkTrial_norm, vnorm]
  have : devOf ![a, b] ⬝ᵥ devOf ![a, b] = (a - b) * (a - b) / 2 := by
    simp only [dotProduct, Fin.sum_univ_two, devOf, Matrix.cons_val_zero, Matrix.cons_val_one]
    push_cast; ring
  rw [this, Real.sqrt_div (mul_self_nonneg _), Real.sqrt_mul_self_eq_abs]

end Verif.Ex
