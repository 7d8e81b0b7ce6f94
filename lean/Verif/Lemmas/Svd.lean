import Verif.Model.Plasticity
import Mathlib.Analysis.Matrix.Spectrum
import Mathlib.Analysis.InnerProductSpace.PiL2

/-!
# Every real matrix has a singular value decomposition

so that the contract `IsSvd` demanded of the external routine can be met for all arguments at once.
-/

namespace Verif
open Matrix

variable {d : ℕ}

lemma exists_svd (F : Matrix (Fin d) (Fin d) ℝ) : ∃ s : Svd d, IsSvd F s := by
  have hA : (Fᵀ * F).IsHermitian := by
    rw [Matrix.IsHermitian, Matrix.conjTranspose_eq_transpose_of_trivial, Matrix.transpose_mul,
      Matrix.transpose_transpose]
  let v : Fin d → Fin d → ℝ := fun j => WithLp.ofLp (hA.eigenvectorBasis j)
  let lam : Fin d → ℝ := hA.eigenvalues
  have hv : ∀ i j, v i ⬝ᵥ v j = if i = j then 1 else 0 := by
    intro i j
    have := orthonormal_iff_ite.mp hA.eigenvectorBasis.orthonormal i j
    rw [← this, EuclideanSpace.inner_eq_star_dotProduct]
    simp [v, dotProduct_comm]
  have hmul : ∀ j, (Fᵀ * F) *ᵥ v j = lam j • v j := fun j => hA.mulVec_eigenvectorBasis j
  have hFF : ∀ i j, (F *ᵥ v i) ⬝ᵥ (F *ᵥ v j) = if i = j then lam j else 0 := by
    intro i j
    rw [Matrix.dotProduct_mulVec, ← Matrix.mulVec_transpose, Matrix.mulVec_mulVec, hmul, smul_dotProduct, hv]
    by_cases h : i = j <;> simp [h]
  have hlam : ∀ i, 0 ≤ lam i := by
    intro i
    have := hFF i i
    rw [if_pos rfl] at this
    rw [← this, dotProduct]
    exact Finset.sum_nonneg fun k _ => mul_self_nonneg _
  let sig : Fin d → ℝ := fun i => √(lam i)
  have hsig : ∀ i, sig i * sig i = lam i := fun i => Real.mul_self_sqrt (hlam i)
  let w : Fin d → EuclideanSpace ℝ (Fin d) := fun i => WithLp.toLp 2 ((sig i)⁻¹ • (F *ᵥ v i))
  obtain ⟨b, hb⟩ : ∃ b : OrthonormalBasis (Fin d) ℝ (EuclideanSpace ℝ (Fin d)),
      ∀ i ∈ {i | sig i ≠ 0}, b i = w i := by
    refine Orthonormal.exists_orthonormalBasis_extension_of_card_eq (by simp) ?_
    rw [orthonormal_iff_ite]
    rintro ⟨i, hi⟩ ⟨j, hj⟩
    simp only [Set.mem_setOf_eq] at hi hj
    simp only [Set.domRestrict_apply, EuclideanSpace.inner_eq_star_dotProduct, w, star_trivial, Subtype.mk.injEq]
    rw [smul_dotProduct, dotProduct_smul, hFF]
    by_cases h : i = j
    · subst h
      rw [if_pos rfl, if_pos rfl, ← hsig, smul_eq_mul, smul_eq_mul]
      field_simp
    · rw [if_neg h, if_neg (Ne.symm h)]; simp
  let u : Fin d → Fin d → ℝ := fun j => WithLp.ofLp (b j)
  have hu : ∀ i j, u i ⬝ᵥ u j = if i = j then 1 else 0 := by
    intro i j
    have := orthonormal_iff_ite.mp b.orthonormal i j
    rw [← this, EuclideanSpace.inner_eq_star_dotProduct]
    simp [u, dotProduct_comm]
  have hcol : ∀ i, F *ᵥ v i = sig i • u i := by
    intro i
    by_cases h : sig i = 0
    · have h0 := hFF i i
      rw [if_pos rfl, ← hsig, h, mul_zero] at h0
      rw [h, zero_smul]
      exact dotProduct_self_eq_zero.mp h0
    · have : u i = (sig i)⁻¹ • (F *ᵥ v i) := by
        show WithLp.ofLp (b i) = _
        rw [hb i h]
      rw [this, smul_smul, mul_inv_cancel₀ h, one_smul]
  let U : Matrix (Fin d) (Fin d) ℝ := Matrix.of fun r c => u c r
  let V : Matrix (Fin d) (Fin d) ℝ := Matrix.of fun r c => v c r
  have hUU : Uᵀ * U = 1 := by
    ext i j
    rw [Matrix.mul_apply, Matrix.one_apply, ← hu]
    rfl
  have hVV : Vᵀ * V = 1 := by
    ext i j
    rw [Matrix.mul_apply, Matrix.one_apply, ← hv]
    rfl
  have hU := mul_eq_one_comm.mp hUU
  have hV := mul_eq_one_comm.mp hVV
  have hFV : F * V = U * diagonal sig := by
    ext i j
    rw [Matrix.mul_diagonal]
    have := congrFun (hcol j) i
    simp only [Pi.smul_apply, smul_eq_mul] at this
    rw [mul_comm]
    exact this
  exact ⟨⟨U, sig, V⟩, ⟨by rw [← hFV, Matrix.mul_assoc, hV, Matrix.mul_one], hU, hV, fun i => Real.sqrt_nonneg _⟩⟩

/-- A decomposition of every matrix. -/
noncomputable def someSvd (F : Matrix (Fin d) (Fin d) ℝ) : Svd d := (exists_svd F).choose

lemma someSvd_isSvd (F : Matrix (Fin d) (Fin d) ℝ) : IsSvd F (someSvd F) := (exists_svd F).choose_spec

end Verif
