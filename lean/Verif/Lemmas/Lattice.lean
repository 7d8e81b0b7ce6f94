import Verif.Lemmas.Spline
import Mathlib.Topology.Algebra.InfiniteSum.Constructions
import Mathlib.Topology.Algebra.InfiniteSum.Real
import Mathlib.Data.Int.DivMod
import Mathlib.Logic.Equiv.Fin.Basic

set_option linter.unusedSectionVars false
set_option linter.unusedSimpArgs false

/-!
# Sums of shape functions over regularly placed particles
-/

namespace Verif
open Matrix

/-- The sum of a function over points one apart. -/
lemma int_sum {f : ℝ → ℝ} {c : ℝ} (hout : ∀ u, 2 ≤ |u| → f u = 0)
    (hsum : ∀ φ : ℝ, 0 ≤ φ → φ < 1 → ∑ i, f (stencilArg φ i) = c) (u : ℝ) : ∑' m : ℤ, f (u + m) = c := by
  rw [← hsum (Int.fract u) (Int.fract_nonneg u) (Int.fract_lt_one u)]
  rw [tsum_eq_sum (s := Finset.univ.image fun i : Fin 4 => (1 : ℤ) - (i : ℕ) - ⌊u⌋)]
  · rw [Finset.sum_image]
    · refine Finset.sum_congr rfl fun i _ => ?_
      congr 1
      simp only [stencilArg, Int.fract]
      push_cast
      ring
    · intro i _ j _ h
      simp only at h
      exact Fin.ext (by omega)
  · intro m hm
    refine hout _ ?_
    by_contra hlt
    push Not at hlt
    rw [abs_lt] at hlt
    have h1 := Int.floor_le u
    have h2 := Int.lt_floor_add_one u
    have h3 : -2 - 1 < ((m + ⌊u⌋ : ℤ) : ℝ) := by push_cast; linarith
    have h4 : ((m + ⌊u⌋ : ℤ) : ℝ) < 2 := by push_cast; linarith
    have h3' : -3 < m + ⌊u⌋ := by exact_mod_cast (by linarith : (-3 : ℝ) < ((m + ⌊u⌋ : ℤ) : ℝ))
    have h4' : m + ⌊u⌋ < 2 := by exact_mod_cast h4
    refine hm (Finset.mem_image.mpr ⟨⟨(1 - (m + ⌊u⌋)).toNat, by omega⟩, Finset.mem_univ _, ?_⟩)
    simp only
    omega

/-- The sum of a function over points `1/k` apart. -/
lemma lattice_sum {f : ℝ → ℝ} {c : ℝ} (hout : ∀ u, 2 ≤ |u| → f u = 0)
    (hsum : ∀ φ : ℝ, 0 ≤ φ → φ < 1 → ∑ i, f (stencilArg φ i) = c) {k : ℕ} (hk : 0 < k) (u : ℝ) :
    ∑' z : ℤ, f (u + z / k) = k * c := by
  have hk' : (0 : ℝ) < k := by exact_mod_cast hk
  haveI : NeZero k := ⟨hk.ne'⟩
  have hs : Summable fun z : ℤ => f (u + z / k) := by
    refine summable_of_finite_support ((Set.finite_Icc (⌊k * (-2 - u)⌋) (⌈k * (2 - u)⌉)).subset ?_)
    intro z hz
    have : |u + z / k| < 2 := by
      by_contra h
      exact hz (hout _ (not_lt.mp h))
    rw [abs_lt] at this
    have e : (k : ℝ) * (z / k) = z := by field_simp
    constructor
    · have h1 : (k : ℝ) * (-2 - u) < z := by
        rw [← e]; exact mul_lt_mul_of_pos_left (by linarith) hk'
      exact Int.floor_le_iff.mpr (by linarith)
    · have h1 : (z : ℝ) < k * (2 - u) := by
        rw [← e]; exact mul_lt_mul_of_pos_left (by linarith) hk'
      exact_mod_cast h1.le.trans (Int.le_ceil _)
  let e : Fin k × ℤ ≃ ℤ := (Equiv.prodComm _ _).trans (Int.divModEquiv k).symm
  have he : ∀ r m, (e (r, m) : ℝ) / k = (r : ℕ) / k + m := by
    intro r m
    have : e (r, m) = m * k + (r : ℕ) := rfl
    rw [this]; push_cast; field_simp; ring
  rw [← e.tsum_eq (fun z : ℤ => f (u + z / k))]
  have hs' : Summable fun q : Fin k × ℤ => f (u + (e q : ℤ) / k) := (e.summable_iff (f := fun z : ℤ => f (u + z / k))).mpr hs
  rw [hs'.tsum_prod, tsum_fintype]
  have : ∀ r : Fin k, ∑' m : ℤ, f (u + (e (r, m) : ℤ) / k) = c := by
    intro r
    rw [← int_sum hout hsum (u + (r : ℕ) / k)]
    congr 1
    funext m
    rw [he]; congr 1; ring
  rw [Finset.sum_congr rfl fun r _ => this r]
  simp

/-- The same over a finite set containing all points where the function does not vanish. -/
lemma lattice_sum_finite {f : ℝ → ℝ} {c : ℝ} (hout : ∀ u, 2 ≤ |u| → f u = 0)
    (hsum : ∀ φ : ℝ, 0 ≤ φ → φ < 1 → ∑ i, f (stencilArg φ i) = c) {k : ℕ} (hk : 0 < k) (u : ℝ) {T : Finset ℤ}
    (hT : ∀ z : ℤ, f (u + z / k) ≠ 0 → z ∈ T) : ∑ z ∈ T, f (u + z / k) = k * c := by
  rw [← lattice_sum hout hsum hk u, tsum_eq_sum]
  intro z hz
  by_contra h
  exact hz (hT z h)

lemma dN_out {deg : Deg} {u : ℝ} (h : 2 ≤ |u|) : dNdu deg u = 0 := dN_eq_zero_of_N_eq_zero (N_out h)

/-- Shape functions over points `dx/k` apart add up to `k`. -/
lemma sum_N_lattice (deg : Deg) {dx : ℝ} (hdx : 0 < dx) {k : ℕ} (hk : 0 < k) (o X : ℝ) {T : Finset ℤ}
    (hT : ∀ z : ℤ, N deg ((o + dx / k * z - X) / dx) ≠ 0 → z ∈ T) :
    ∑ z ∈ T, N deg ((o + dx / k * z - X) / dx) = k := by
  have e : ∀ z : ℤ, (o + dx / k * z - X) / dx = (o - X) / dx + z / k := by
    intro z; field_simp; ring
  simp only [e] at hT ⊢
  rw [lattice_sum_finite (fun u h => N_out h) (fun φ h0 h1 => sum_N h0 h1 deg) hk _ hT, mul_one]

/-- Derivatives of shape functions over points `dx/k` apart cancel. -/
lemma sum_dN_lattice {deg : Deg} (hd : deg ≠ .one) {dx : ℝ} (hdx : 0 < dx) {k : ℕ} (hk : 0 < k) (o X : ℝ) {T : Finset ℤ}
    (hT : ∀ z : ℤ, N deg ((o + dx / k * z - X) / dx) ≠ 0 → z ∈ T) :
    ∑ z ∈ T, dNdu deg ((o + dx / k * z - X) / dx) = 0 := by
  have e : ∀ z : ℤ, (o + dx / k * z - X) / dx = (o - X) / dx + z / k := by
    intro z; field_simp; ring
  simp only [e] at hT ⊢
  rw [lattice_sum_finite (fun u h => dN_out h) (fun φ h0 h1 => sum_dN h0 h1 hd) hk _
    (fun z h => hT z fun h0 => h (dN_eq_zero_of_N_eq_zero h0)), mul_zero]

end Verif
