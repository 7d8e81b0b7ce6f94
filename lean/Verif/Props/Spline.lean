import Verif.Lemmas.SplineDeriv
import Mathlib.Algebra.BigOperators.Field

/-!
# C11, C12, C53 (one-dimensional part): the shape functions of `tools.hpp`
-/

namespace Verif
namespace Props

section lattice
variable {K : Type*} [Field K] [LinearOrder K] [IsStrictOrderedRing K] [FloorRing K]

/-- Spec: the four nodes the code visits for a particle at `x`: with `k` the number of the cell
containing `x`, the nodes `k-1, k, k+1, k+2` of the lattice `x0 + ℤ dx`. -/
def visited (x0 dx x : K) (i : Fin 4) : K := x0 + ((⌊(x - x0) / dx⌋ : ℤ) - 1 + (i.val : K)) * dx

private lemma visited_arg {x0 dx : K} (hdx : 0 < dx) (x : K) (i : Fin 4) :
    (x - visited x0 dx x i) / dx = stencilArg (Int.fract ((x - x0) / dx)) i := by
  simp only [visited, stencilArg, Int.fract]
  field_simp
  ring

/-- C11: the weights of the visited nodes are non-negative, ... -/
theorem C11_nonneg (deg : Deg) (x0 dx x : K) (i : Fin 4) :
    0 ≤ N deg ((x - visited x0 dx x i) / dx) := N_nonneg _ _

/-- C11: ... sum to one ... -/
theorem C11_sum_one (deg : Deg) {x0 dx : K} (hdx : 0 < dx) (x : K) :
    ∑ i, N deg ((x - visited x0 dx x i) / dx) = 1 := by
  simp only [visited_arg hdx]
  exact sum_N (Int.fract_nonneg _) (Int.fract_lt_one _) deg

/-- C11: ... and reproduce the position: the weighted mean of the nodes is the particle position. -/
theorem C11_first_moment (deg : Deg) {x0 dx : K} (hdx : 0 < dx) (x : K) :
    ∑ i, N deg ((x - visited x0 dx x i) / dx) * visited x0 dx x i = x := by
  have h1 := C11_sum_one deg hdx (x0 := x0) x
  have h2 := sum_N_arg (Int.fract_nonneg ((x - x0) / dx)) (Int.fract_lt_one _) deg
  have h3 : ∀ i, visited x0 dx x i = x - dx * stencilArg (Int.fract ((x - x0) / dx)) i := by
    intro i; rw [← visited_arg hdx]; field_simp; ring
  calc _ = ∑ i, (N deg ((x - visited x0 dx x i) / dx) * x
        - dx * (N deg (stencilArg (Int.fract ((x - x0) / dx)) i) *
          stencilArg (Int.fract ((x - x0) / dx)) i)) := by
        refine Finset.sum_congr rfl fun i _ => ?_
        rw [visited_arg hdx, h3 i]; ring
    _ = x := by rw [Finset.sum_sub_distrib, ← Finset.sum_mul, h1, ← Finset.mul_sum, h2]; ring

/-- C11: the derivative weights annihilate constants ... -/
theorem C11_grad_sum_zero {deg : Deg} (hd : deg ≠ .one) {x0 dx : K} (hdx : 0 < dx) (x : K) :
    ∑ i, dNdu deg ((x - visited x0 dx x i) / dx) / dx = 0 := by
  simp only [visited_arg hdx, ← Finset.sum_div,
    sum_dN (Int.fract_nonneg ((x - x0) / dx)) (Int.fract_lt_one _) hd, zero_div]

/-- C11: ... and differentiate linear functions exactly. -/
theorem C11_grad_linear {deg : Deg} (hd : deg ≠ .one) {x0 dx : K} (hdx : 0 < dx) (x a b : K) :
    ∑ i, dNdu deg ((x - visited x0 dx x i) / dx) / dx * (a + b * visited x0 dx x i) = b := by
  have h1 := C11_grad_sum_zero hd hdx (x0 := x0) x
  have h2 := sum_dN_arg (Int.fract_nonneg ((x - x0) / dx)) (Int.fract_lt_one _) hd
  have h3 : ∀ i, visited x0 dx x i = x - dx * stencilArg (Int.fract ((x - x0) / dx)) i := by
    intro i; rw [← visited_arg hdx]; field_simp; ring
  calc _ = ∑ i, (dNdu deg ((x - visited x0 dx x i) / dx) / dx * (a + b * x)
        - b * (dNdu deg (stencilArg (Int.fract ((x - x0) / dx)) i) *
          stencilArg (Int.fract ((x - x0) / dx)) i)) := by
        refine Finset.sum_congr rfl fun i _ => ?_
        rw [visited_arg hdx, h3 i]; field_simp; ring
    _ = b := by rw [Finset.sum_sub_distrib, ← Finset.sum_mul, h1, ← Finset.mul_sum, h2]; ring

/-- C11: every lattice node that is not visited has weight zero and derivative zero. -/
theorem C11_support (deg : Deg) {x0 dx : K} (hdx : 0 < dx) (x : K) (k : ℤ)
    (hk : ∀ i, visited x0 dx x i ≠ x0 + k * dx) :
    N deg ((x - (x0 + k * dx)) / dx) = 0 ∧ dNdu deg ((x - (x0 + k * dx)) / dx) = 0 := by
  set q := (x - x0) / dx with hq
  have e : (x - (x0 + k * dx)) / dx = q - k := by rw [hq]; field_simp; ring
  have hout : k < ⌊q⌋ - 1 ∨ ⌊q⌋ + 2 < k := by
    by_contra hcon
    push Not at hcon
    have hnn : 0 ≤ k - (⌊q⌋ - 1) := by omega
    refine hk ⟨(k - (⌊q⌋ - 1)).toNat, by omega⟩ ?_
    simp only [visited, ← hq]
    have : (((k - (⌊q⌋ - 1)).toNat : ℕ) : K) = (k : K) - ((⌊q⌋ : K) - 1) := by
      have h := Int.toNat_of_nonneg hnn
      have h' : (((k - (⌊q⌋ - 1)).toNat : ℤ) : K) = ((k - (⌊q⌋ - 1) : ℤ) : K) := by rw [h]
      push_cast at h'
      exact h'
    rw [this]; ring
  have habs : 2 ≤ |q - k| := by
    rcases hout with h | h
    · have h1 : ((k + 2 : ℤ) : K) ≤ ⌊q⌋ := by exact_mod_cast (by omega : k + 2 ≤ ⌊q⌋)
      have := Int.floor_le q
      push_cast at h1
      exact le_trans (by linarith) (le_abs_self _)
    · have h1 : ((⌊q⌋ + 3 : ℤ) : K) ≤ k := by exact_mod_cast (by omega : ⌊q⌋ + 3 ≤ k)
      have := Int.lt_floor_add_one q
      push_cast at h1
      exact le_trans (by linarith) (neg_le_abs _)
  rw [e]
  have := N_out (deg := deg) habs
  exact ⟨this, dN_eq_zero_of_N_eq_zero this⟩

/-- A concrete position in a concrete lattice: cell 3, relative position 0.2 (weights 0.045, 0.71,
0.245, 0). -/
example : (List.finRange 4).map (fun i => N .two (((8/5 : ℚ) - visited 0 (1/2) (8/5) i) / (1/2))) =
    [9/200, 71/100, 49/200, 0] := by
  have h : ⌊((8/5 : ℚ) - 0) / (1/2)⌋ = 3 := by norm_num
  simp only [visited, h]
  norm_num [N, N2, List.finRange_succ, abs_lt, abs_of_pos, abs_of_neg]

/-- C53: with linear hat functions the weights still sum to one, but the derivative weights
sum to zero only if the particle is not exactly on a grid line. -/
theorem C53_hat {x0 dx : K} (hdx : 0 < dx) (x : K) :
    ∑ i, N .one ((x - visited x0 dx x i) / dx) = 1 ∧
    ((∑ i, dNdu .one ((x - visited x0 dx x i) / dx) / dx = 0) ↔ ∀ k : ℤ, x ≠ x0 + k * dx) ∧
    ((∃ k : ℤ, x = x0 + k * dx) → ∑ i, dNdu .one ((x - visited x0 dx x i) / dx) / dx = 1 / dx) := by
  refine ⟨C11_sum_one .one hdx x, ?_⟩
  set f := Int.fract ((x - x0) / dx) with hf
  have hf0 : 0 ≤ f := Int.fract_nonneg _
  have hf1 : f < 1 := Int.fract_lt_one _
  have hiff : (∃ k : ℤ, x = x0 + k * dx) ↔ f = 0 := by
    constructor
    · rintro ⟨k, rfl⟩
      rw [hf, Int.fract_eq_iff]
      refine ⟨le_rfl, one_pos, k, ?_⟩
      field_simp; ring
    · intro h0
      refine ⟨⌊(x - x0) / dx⌋, ?_⟩
      have := Int.floor_add_fract ((x - x0) / dx)
      rw [← hf, h0, add_zero] at this
      rw [this]; field_simp; ring
  have hs : ∑ i, dNdu .one ((x - visited x0 dx x i) / dx) / dx = if f = 0 then 1 / dx else 0 := by
    simp only [visited_arg hdx, ← hf, ← Finset.sum_div, sum4, stencilArg, dNdu]
    have e1 : dN1 (1 + f - ((0 : Fin 4).val : K)) = 0 := by
      simp only [dN1]; rw [if_neg]; simp only [Fin.val_zero, Nat.cast_zero, sub_zero, not_lt]
      exact le_trans (by linarith) (le_abs_self _)
    have e4 : dN1 (1 + f - ((3 : Fin 4).val : K)) = 0 := by
      simp only [dN1]; rw [if_neg]
      have : ((3 : Fin 4).val : K) = 3 := by norm_num
      rw [this, not_lt]
      exact le_trans (by linarith) (neg_le_abs _)
    have e2 : dN1 (1 + f - ((1 : Fin 4).val : K)) = if f = 0 then 1 else -1 := by
      have : 1 + f - ((1 : Fin 4).val : K) = f := by norm_num
      rw [this]
      simp only [dN1, abs_of_nonneg hf0, hf1, if_true]
      split_ifs with h1 h2 h2
      · exact absurd h2 h1.ne'
      · rfl
      · rfl
      · exact absurd (le_antisymm (not_lt.mp h1) hf0) h2
    have e3 : dN1 (1 + f - ((2 : Fin 4).val : K)) = if f = 0 then 0 else 1 := by
      have : 1 + f - ((2 : Fin 4).val : K) = f - 1 := by norm_num; ring
      rw [this]
      simp only [dN1]
      rw [abs_of_neg (by linarith)]
      split_ifs with h1 h2 h3 h3 h4
      · linarith
      · linarith
      · linarith
      · rfl
      · rfl
      · exact absurd (lt_of_le_of_ne hf0 (Ne.symm h4)) (by linarith)
    rw [e1, e2, e3, e4]
    split_ifs <;> ring
  refine ⟨?_, fun h => by rw [hs, if_pos (hiff.mp h)]⟩
  rw [hs]
  constructor
  · intro h0 k hk
    rw [if_pos (hiff.mp ⟨k, hk⟩)] at h0
    exact absurd h0 (by positivity)
  · intro h
    rw [if_neg]
    intro h0
    obtain ⟨k, hk⟩ := hiff.mpr h0
    exact h k hk

/-- both cases of C53 occur -/
example : (∃ k : ℤ, (3/2 : ℚ) = 0 + k * (1/2)) ∧ ∀ k : ℤ, (8/5 : ℚ) ≠ 0 + k * (1/2) := by
  refine ⟨⟨3, by norm_num⟩, fun k hk => ?_⟩
  have h : (16 : ℚ) = ((5 * k : ℤ) : ℚ) := by push_cast; linarith
  have h' : (16 : ℤ) = 5 * k := by exact_mod_cast h
  omega

end lattice

/-- C12: `dNdu` is the derivative of `N` at every real argument, breakpoints included. -/
theorem C12_derivative {deg : Deg} (hd : deg ≠ .one) (u : ℝ) :
    HasDerivAt (N deg) (dNdu deg u) u := by
  cases deg
  · exact absurd rfl hd
  · exact hasDerivAt_N2 u
  · exact hasDerivAt_N3 u

/-- C12: `d2Ndu2` is the derivative of `dNdu` (quadratic splines: away from the breakpoints). -/
theorem C12_second_derivative (u : ℝ) :
    (|u| ≠ 1/2 → |u| ≠ 3/2 → HasDerivAt (dNdu .two) (d2Ndu2 .two u) u) ∧
    HasDerivAt (dNdu .three) (d2Ndu2 .three u) u :=
  ⟨fun h1 h2 => hasDerivAt_dN2 u h1 h2, hasDerivAt_dN3 u⟩

/-- C12: weight and derivative are continuous. -/
theorem C12_continuous {deg : Deg} (hd : deg ≠ .one) :
    Continuous (N deg : ℝ → ℝ) ∧ Continuous (dNdu deg : ℝ → ℝ) := by
  refine ⟨continuous_iff_continuousAt.mpr fun u => (C12_derivative hd u).continuousAt, ?_⟩
  cases deg
  · exact absurd rfl hd
  · have : (dN2 : ℝ → ℝ) = fun u => max (u + 3/2) 0 - 3 * max (u + 1/2) 0
        + 3 * max (u - 1/2) 0 - max (u - 3/2) 0 := by
      funext u
      rcases le_total u (-(3/2)) with h | h
      · rw [dN2_out (le_trans (by linarith) (neg_le_abs u)), max_eq_right (by linarith),
          max_eq_right (by linarith), max_eq_right (by linarith), max_eq_right (by linarith)]; ring
      rcases le_total u (-(1/2)) with h2 | h2
      · rw [dN2_left h h2, max_eq_left (by linarith),
          max_eq_right (by linarith), max_eq_right (by linarith), max_eq_right (by linarith)]; ring
      rcases le_total u (1/2) with h3 | h3
      · rw [dN2_mid h2 h3, max_eq_left (by linarith),
          max_eq_left (by linarith), max_eq_right (by linarith), max_eq_right (by linarith)]; ring
      rcases le_total u (3/2) with h4 | h4
      · rw [dN2_right h3 h4, max_eq_left (by linarith),
          max_eq_left (by linarith), max_eq_left (by linarith), max_eq_right (by linarith)]; ring
      · rw [dN2_out (le_trans h4 (le_abs_self u)), max_eq_left (by linarith),
          max_eq_left (by linarith), max_eq_left (by linarith), max_eq_left (by linarith)]; ring
    show Continuous (dN2 : ℝ → ℝ)
    rw [this]
    fun_prop
  · exact continuous_iff_continuousAt.mpr fun u => (hasDerivAt_dN3 u).continuousAt

/-- a breakpoint, and a point away from the breakpoints -/
example : dNdu .two (1/2 : ℝ) = -1 ∧ dNdu .three (1 : ℝ) = -(1/2) ∧ |(1 : ℝ)| ≠ 1/2 ∧ |(1:ℝ)| ≠ 3/2 := by
  refine ⟨?_, ?_, by norm_num, by norm_num⟩
  · show dN2 _ = _; rw [dN2_right (by norm_num) (by norm_num)]; norm_num
  · show dN3 _ = _; rw [dN3_in (by norm_num) (by norm_num)]; norm_num

end Props
end Verif
