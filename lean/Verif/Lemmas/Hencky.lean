import Verif.Model.Plasticity
import Mathlib.LinearAlgebra.Matrix.Trace
import Mathlib.Tactic.Linarith
import Mathlib.Tactic.Positivity
import Mathlib.Tactic.FieldSimp
import Mathlib.Algebra.BigOperators.Fin

set_option linter.unusedSectionVars false
set_option linter.unusedSimpArgs false

/-! # Lemmas on Hencky strains, stress invariants and independence of the chosen SVD -/

namespace Verif
open Matrix

variable {d : ℕ}

/-- Deviator of a principal strain vector. -/
noncomputable def devOf (h : Fin d → ℝ) : Fin d → ℝ := fun i => h i - (∑ j, h j) / d

lemma sum_devOf (hd : 0 < d) (h : Fin d → ℝ) : ∑ i, devOf h i = 0 := by
  have : (d : ℝ) ≠ 0 := by positivity
  simp only [devOf, Finset.sum_sub_distrib, Finset.sum_const, Finset.card_univ, Fintype.card_fin,
    nsmul_eq_mul]
  field_simp
  ring

lemma dot_nonneg (v : Fin d → ℝ) : 0 ≤ v ⬝ᵥ v := Finset.sum_nonneg fun _ _ => mul_self_nonneg _

lemma vnorm_nonneg (v : Fin d → ℝ) : 0 ≤ vnorm v := Real.sqrt_nonneg _

lemma vnorm_sq (v : Fin d → ℝ) : vnorm v * vnorm v = v ⬝ᵥ v := Real.mul_self_sqrt (dot_nonneg v)

lemma vnorm_smul (c : ℝ) (v : Fin d → ℝ) : vnorm (c • v) = |c| * vnorm v := by
  rw [vnorm, smul_dotProduct, dotProduct_smul, smul_eq_mul, smul_eq_mul, ← mul_assoc,
    Real.sqrt_mul (mul_self_nonneg c), Real.sqrt_mul_self_eq_abs, vnorm]

lemma vnorm_eq_zero {v : Fin d → ℝ} (h : vnorm v = 0) : v = 0 := by
  have h0 : v ⬝ᵥ v = 0 := by rw [← vnorm_sq, h, mul_zero]
  funext i
  have := (Finset.sum_eq_zero_iff_of_nonneg (fun i _ => mul_self_nonneg (v i))).mp h0 i (Finset.mem_univ i)
  exact mul_self_eq_zero.mp this

lemma mkTrial_trace (h : Fin d → ℝ) : (mkTrial h).trace = ∑ i, h i := rfl
lemma mkTrial_hencky (h : Fin d → ℝ) : (mkTrial h).hencky = h := rfl
lemma mkTrial_norm (h : Fin d → ℝ) : (mkTrial h).norm = vnorm (devOf h) := rfl
lemma mkTrial_norm_nonneg (h : Fin d → ℝ) : 0 ≤ (mkTrial h).norm := vnorm_nonneg _

lemma mkTrial_dir (h : Fin d → ℝ) : devOf h = (mkTrial h).norm • (mkTrial h).dir := by
  have hn : (mkTrial h).norm = vnorm (devOf h) := rfl
  have hd : (mkTrial h).dir =
      if vnorm (devOf h) > 0 then (fun i => devOf h i / vnorm (devOf h)) else devOf h := rfl
  rw [hn, hd]
  split_ifs with hp
  · funext i; simp only [Pi.smul_apply, smul_eq_mul]; field_simp
  · have : vnorm (devOf h) = 0 := le_antisymm (not_lt.mp hp) (vnorm_nonneg _)
    rw [this, zero_smul, vnorm_eq_zero this]

lemma mkTrial_dir_norm {h : Fin d → ℝ} (hp : 0 < (mkTrial h).norm) : vnorm (mkTrial h).dir = 1 := by
  have h1 : vnorm (devOf h) = (mkTrial h).norm * vnorm (mkTrial h).dir := by
    conv_lhs => rw [mkTrial_dir h]
    rw [vnorm_smul, abs_of_pos hp]
  have hn : vnorm (devOf h) = (mkTrial h).norm := rfl
  rw [hn] at h1
  have h2 : (mkTrial h).norm * vnorm (mkTrial h).dir = (mkTrial h).norm * 1 := by linarith
  exact mul_left_cancel₀ hp.ne' h2

lemma mkTrial_dir_zero {h : Fin d → ℝ} (hp : (mkTrial h).norm = 0) : (mkTrial h).dir = 0 := by
  have hd : (mkTrial h).dir =
      if vnorm (devOf h) > 0 then (fun i => devOf h i / vnorm (devOf h)) else devOf h := rfl
  have hn : vnorm (devOf h) = 0 := hp
  rw [hd, if_neg (by rw [hn]; exact lt_irrefl _), vnorm_eq_zero hn]

lemma mkTrial_dir_norm_le (h : Fin d → ℝ) : vnorm (mkTrial h).dir ≤ 1 := by
  rcases (mkTrial_norm_nonneg h).lt_or_eq with hp | hp
  · exact (mkTrial_dir_norm hp).le
  · rw [mkTrial_dir_zero hp.symm]; simp [vnorm]

lemma sum_dir (hd : 0 < d) (h : Fin d → ℝ) : ∑ i, (mkTrial h).dir i = 0 := by
  rcases (mkTrial_norm_nonneg h).lt_or_eq with hp | hp
  · have h1 : ∑ i, (mkTrial h).norm * (mkTrial h).dir i = 0 := by
      have := sum_devOf hd h
      rw [mkTrial_dir h] at this
      simpa using this
    rw [← Finset.mul_sum] at h1
    exact (mul_eq_zero.mp h1).resolve_left hp.ne'
  · rw [mkTrial_dir_zero hp.symm]; simp

lemma hencky_eq (h : Fin d → ℝ) (i : Fin d) :
    h i = (mkTrial h).norm * (mkTrial h).dir i + (mkTrial h).trace / d := by
  have := congrFun (mkTrial_dir h) i
  simp only [devOf, Pi.smul_apply, smul_eq_mul] at this
  rw [mkTrial_trace]; linarith

/-- Strains of the form `a * dir + b`, which is what all plastic models produce. -/
lemma sum_ab (hd : 0 < d) (h : Fin d → ℝ) (a b : ℝ) :
    ∑ i, (a * (mkTrial h).dir i + b) = d * b := by
  rw [Finset.sum_add_distrib, ← Finset.mul_sum, sum_dir hd]
  simp

lemma devOf_ab (hd : 0 < d) (h : Fin d → ℝ) (a b : ℝ) :
    devOf (fun i => a * (mkTrial h).dir i + b) = a • (mkTrial h).dir := by
  have h0 : (d : ℝ) ≠ 0 := by positivity
  funext i
  simp only [devOf, sum_ab hd, Pi.smul_apply, smul_eq_mul]
  field_simp
  ring

/-! ### Orthogonal matrices -/

lemma orth_comm {U : Matrix (Fin d) (Fin d) ℝ} (h : U * Uᵀ = 1) : Uᵀ * U = 1 :=
  mul_eq_one_comm.mp h

lemma selfDoubleDot_eq (A : Matrix (Fin d) (Fin d) ℝ) : selfDoubleDot A = (A * Aᵀ).trace := by
  simp only [selfDoubleDot, Matrix.trace, Matrix.diag_apply, Matrix.mul_apply, Matrix.transpose_apply,
    Fin.sum_univ_def]

lemma trace_conj {U : Matrix (Fin d) (Fin d) ℝ} (h : U * Uᵀ = 1) (D : Matrix (Fin d) (Fin d) ℝ) :
    (U * D * Uᵀ).trace = D.trace := by
  rw [Matrix.trace_mul_comm, ← Matrix.mul_assoc, orth_comm h, Matrix.one_mul]

/-- Pressure and shear stress computed by the output routine from a Hencky stress. -/
lemma saved_hencky (hd : 0 < d) {lam mu qp : ℝ} (hmu : 0 ≤ mu) {U : Matrix (Fin d) (Fin d) ℝ}
    (hU : U * Uᵀ = 1) (h : Fin d → ℝ) :
    savedP (henckyTau lam mu U h) = -(lam + 2 * mu / d) * ∑ i, h i ∧
    savedQ qp (henckyTau lam mu U h) = 2 * qp * mu * vnorm (devOf h) := by
  have h0 : (d : ℝ) ≠ 0 := by positivity
  have hp : savedP (henckyTau lam mu U h) = -(lam + 2 * mu / d) * ∑ i, h i := by
    rw [savedP, henckyTau, trace_conj hU, Matrix.trace_diagonal, Finset.sum_add_distrib,
      ← Finset.mul_sum Finset.univ h (2 * mu)]
    simp only [Finset.sum_const, Finset.card_univ, Fintype.card_fin, nsmul_eq_mul, mul_one]
    field_simp
  refine ⟨hp, ?_⟩
  rw [savedQ, hp]
  have hone : (1 : Matrix (Fin d) (Fin d) ℝ) = U * 1 * Uᵀ := by rw [Matrix.mul_one, hU]
  have hdev : henckyTau lam mu U h + (-(lam + 2 * mu / d) * ∑ i, h i) • (1 : Matrix (Fin d) (Fin d) ℝ) =
      U * diagonal ((2 * mu) • devOf h) * Uᵀ := by
    conv_lhs => rw [hone]
    rw [henckyTau, ← Matrix.smul_mul, ← Matrix.mul_smul, ← Matrix.add_mul, ← Matrix.mul_add,
      ← Matrix.diagonal_one, ← Matrix.diagonal_smul, Matrix.diagonal_add]
    congr 2
    congr 1
    funext i
    simp only [devOf, Pi.smul_apply, smul_eq_mul, Pi.one_apply]
    field_simp
    ring
  rw [hdev, selfDoubleDot_eq]
  have hT : (U * diagonal ((2 * mu) • devOf h) * Uᵀ) * (U * diagonal ((2 * mu) • devOf h) * Uᵀ)ᵀ =
      U * (diagonal ((2 * mu) • devOf h) * diagonal ((2 * mu) • devOf h)) * Uᵀ := by
    rw [Matrix.transpose_mul, Matrix.transpose_mul, Matrix.transpose_transpose, Matrix.diagonal_transpose]
    calc _ = U * diagonal ((2 * mu) • devOf h) * (Uᵀ * U) * diagonal ((2 * mu) • devOf h) * Uᵀ := by
          simp only [Matrix.mul_assoc]
      _ = _ := by rw [orth_comm hU, Matrix.mul_one]; simp only [Matrix.mul_assoc]
  rw [hT, trace_conj hU, Matrix.diagonal_mul_diagonal, Matrix.trace_diagonal]
  have hs : ∑ i, ((2 * mu) • devOf h) i * ((2 * mu) • devOf h) i =
      ((2 * mu) • devOf h) ⬝ᵥ ((2 * mu) • devOf h) := rfl
  rw [hs, show Real.sqrt (((2 * mu) • devOf h) ⬝ᵥ ((2 * mu) • devOf h)) = vnorm ((2 * mu) • devOf h) from rfl,
    vnorm_smul, abs_of_nonneg (by linarith)]
  ring

/-! ### Independence of the decomposition -/

/-- Two decompositions of the same matrix give the same isotropic function of the left stretch. -/
lemma svd_fun_left {U₁ V₁ U₂ V₂ : Matrix (Fin d) (Fin d) ℝ} {s₁ s₂ : Fin d → ℝ}
    (hU₁ : U₁ * U₁ᵀ = 1) (hV₁ : V₁ * V₁ᵀ = 1) (hU₂ : U₂ * U₂ᵀ = 1) (hV₂ : V₂ * V₂ᵀ = 1)
    (h₁ : ∀ i, 0 ≤ s₁ i) (h₂ : ∀ i, 0 ≤ s₂ i)
    (h : U₁ * diagonal s₁ * V₁ᵀ = U₂ * diagonal s₂ * V₂ᵀ) (φ : ℝ → ℝ) :
    U₁ * diagonal (fun i => φ (s₁ i)) * U₁ᵀ = U₂ * diagonal (fun i => φ (s₂ i)) * U₂ᵀ ∧
    ∑ i, φ (s₁ i) = ∑ i, φ (s₂ i) := by
  have hsq : ∀ {U V : Matrix (Fin d) (Fin d) ℝ} {s : Fin d → ℝ}, V * Vᵀ = 1 →
      (U * diagonal s * Vᵀ) * (U * diagonal s * Vᵀ)ᵀ = U * diagonal (fun i => s i * s i) * Uᵀ := by
    intro U V s hV
    rw [Matrix.transpose_mul, Matrix.transpose_mul, Matrix.transpose_transpose, Matrix.diagonal_transpose]
    calc _ = U * diagonal s * (Vᵀ * V) * diagonal s * Uᵀ := by simp only [Matrix.mul_assoc]
      _ = U * (diagonal s * diagonal s) * Uᵀ := by
        rw [orth_comm hV, Matrix.mul_one]; simp only [Matrix.mul_assoc]
      _ = _ := by rw [Matrix.diagonal_mul_diagonal]
  have hB : U₁ * diagonal (fun i => s₁ i * s₁ i) * U₁ᵀ = U₂ * diagonal (fun i => s₂ i * s₂ i) * U₂ᵀ := by
    rw [← hsq hV₁, ← hsq hV₂, h]
  set W := U₂ᵀ * U₁ with hW
  have hWW : W * Wᵀ = 1 := by
    rw [hW, Matrix.transpose_mul, Matrix.transpose_transpose]
    calc _ = U₂ᵀ * (U₁ * U₁ᵀ) * U₂ := by simp only [Matrix.mul_assoc]
      _ = 1 := by rw [hU₁, Matrix.mul_one, orth_comm hU₂]
  have hcomm : ∀ ψ : ℝ → ℝ, (∀ i j, W i j ≠ 0 → ψ (s₁ j) = ψ (s₂ i)) →
      W * diagonal (fun i => ψ (s₁ i)) = diagonal (fun i => ψ (s₂ i)) * W := by
    intro ψ hψ
    ext i j
    rw [Matrix.mul_diagonal, Matrix.diagonal_mul]
    by_cases h0 : W i j = 0
    · rw [h0]; simp
    · rw [hψ i j h0, mul_comm]
  have hWs : W * diagonal (fun i => s₁ i * s₁ i) = diagonal (fun i => s₂ i * s₂ i) * W := by
    have : U₂ᵀ * (U₁ * diagonal (fun i => s₁ i * s₁ i) * U₁ᵀ) * U₁ =
        U₂ᵀ * (U₂ * diagonal (fun i => s₂ i * s₂ i) * U₂ᵀ) * U₁ := by rw [hB]
    calc W * diagonal (fun i => s₁ i * s₁ i)
        = U₂ᵀ * (U₁ * diagonal (fun i => s₁ i * s₁ i) * U₁ᵀ) * U₁ := by
          rw [hW]
          simp only [Matrix.mul_assoc]
          rw [orth_comm hU₁, Matrix.mul_one]
      _ = _ := this
      _ = (U₂ᵀ * U₂) * diagonal (fun i => s₂ i * s₂ i) * (U₂ᵀ * U₁) := by simp only [Matrix.mul_assoc]
      _ = _ := by rw [orth_comm hU₂, Matrix.one_mul]
  have hkey : ∀ i j, W i j ≠ 0 → s₁ j = s₂ i := by
    intro i j h0
    have := congrFun (congrFun hWs i) j
    rw [Matrix.mul_diagonal, Matrix.diagonal_mul, mul_comm] at this
    have h3 : s₁ j * s₁ j = s₂ i * s₂ i := mul_right_cancel₀ h0 this
    exact (mul_self_inj (h₁ j) (h₂ i)).mp h3
  have hφ := hcomm φ (fun i j h0 => by rw [hkey i j h0])
  have hU : U₁ = U₂ * W := by
    rw [hW, ← Matrix.mul_assoc, hU₂, Matrix.one_mul]
  refine ⟨?_, ?_⟩
  · calc U₁ * diagonal (fun i => φ (s₁ i)) * U₁ᵀ
        = U₂ * (W * diagonal (fun i => φ (s₁ i))) * U₁ᵀ := by
          rw [← Matrix.mul_assoc U₂, ← hU]
      _ = U₂ * (diagonal (fun i => φ (s₂ i)) * W) * U₁ᵀ := by rw [hφ]
      _ = U₂ * diagonal (fun i => φ (s₂ i)) * (U₂ᵀ * (U₁ * U₁ᵀ)) := by
          rw [hW]; simp only [Matrix.mul_assoc]
      _ = _ := by rw [hU₁, Matrix.mul_one]
  · have : (W * diagonal (fun i => φ (s₁ i)) * Wᵀ).trace = (diagonal (fun i => φ (s₂ i)) * (W * Wᵀ)).trace := by
      rw [hφ, Matrix.mul_assoc]
    rw [trace_conj hWW, hWW, Matrix.mul_one, Matrix.trace_diagonal, Matrix.trace_diagonal] at this
    exact this

/-- Same for the two-sided function, if the singular values are positive. -/
lemma svd_fun_two {U₁ V₁ U₂ V₂ : Matrix (Fin d) (Fin d) ℝ} {s₁ s₂ : Fin d → ℝ}
    (hU₁ : U₁ * U₁ᵀ = 1) (hV₁ : V₁ * V₁ᵀ = 1) (hU₂ : U₂ * U₂ᵀ = 1) (hV₂ : V₂ * V₂ᵀ = 1)
    (h₁ : ∀ i, 0 < s₁ i) (h₂ : ∀ i, 0 < s₂ i)
    (h : U₁ * diagonal s₁ * V₁ᵀ = U₂ * diagonal s₂ * V₂ᵀ) (φ : ℝ → ℝ) :
    U₁ * diagonal (fun i => φ (s₁ i)) * V₁ᵀ = U₂ * diagonal (fun i => φ (s₂ i)) * V₂ᵀ := by
  have hf := (svd_fun_left hU₁ hV₁ hU₂ hV₂ (fun i => (h₁ i).le) (fun i => (h₂ i).le) h
    (fun x => φ x / x)).1
  have hfac : ∀ {U V : Matrix (Fin d) (Fin d) ℝ} {s : Fin d → ℝ}, U * Uᵀ = 1 → (∀ i, 0 < s i) →
      U * diagonal (fun i => φ (s i)) * Vᵀ =
        (U * diagonal (fun i => φ (s i) / s i) * Uᵀ) * (U * diagonal s * Vᵀ) := by
    intro U V s hU hs
    calc U * diagonal (fun i => φ (s i)) * Vᵀ
        = U * (diagonal (fun i => φ (s i) / s i) * diagonal s) * Vᵀ := by
          rw [Matrix.diagonal_mul_diagonal]
          congr 3
          funext i
          have := (hs i).ne'
          field_simp
      _ = U * diagonal (fun i => φ (s i) / s i) * (Uᵀ * U) * diagonal s * Vᵀ := by
          rw [orth_comm hU, Matrix.mul_one]; simp only [Matrix.mul_assoc]
      _ = _ := by simp only [Matrix.mul_assoc]
  rw [hfac hU₁ h₁, hfac hU₂ h₂, hf, h]

end Verif
