import Verif.Model.Tools
import Mathlib.Tactic.Ring
import Mathlib.Tactic.Linarith
import Mathlib.Tactic.NormNum
import Mathlib.Tactic.FieldSimp
import Mathlib.Tactic.Positivity
import Mathlib.Algebra.BigOperators.Fin
import Mathlib.Tactic.LinearCombination

/-! Piecewise evaluation and moment identities of the 1D splines. -/

set_option linter.unusedSectionVars false
set_option linter.unusedSimpArgs false

namespace Verif
variable {K : Type*} [Field K] [LinearOrder K] [IsStrictOrderedRing K]

lemma sgn_pos {u : K} (h : 0 < u) : sgn u = 1 := by simp [sgn, h, h.le, not_lt.mpr h.le]
lemma sgn_neg {u : K} (h : u < 0) : sgn u = -1 := by simp [sgn, h, not_lt.mpr h.le]
@[simp] lemma sgn_zero : sgn (0 : K) = 0 := by simp [sgn]

/-! ### quadratic -/

lemma N2_mid {u : K} (h1 : -(1/2) ≤ u) (h2 : u ≤ 1/2) : N2 u = 3/4 - u^2 := by
  unfold N2
  rcases abs_cases u with ⟨h, h'⟩ | ⟨h, h'⟩ <;> simp only [h]
  · split_ifs with a b
    · ring
    · have : u = 1/2 := le_antisymm h2 (not_lt.mp a)
      subst this; norm_num
    · linarith
  · split_ifs with a b
    · ring
    · have : u = -(1/2) := by linarith
      subst this; norm_num
    · linarith

lemma N2_right {u : K} (h1 : 1/2 ≤ u) (h2 : u ≤ 3/2) : N2 u = 1/2 * (3/2 - u)^2 := by
  unfold N2
  rw [abs_of_nonneg (by linarith)]
  simp only
  split_ifs with a b
  · linarith
  · ring
  · have : u = 3/2 := le_antisymm h2 (not_lt.mp b)
    subst this; norm_num

lemma N2_neg (u : K) : N2 (-u) = N2 u := by simp [N2]

lemma N2_left {u : K} (h1 : -(3/2) ≤ u) (h2 : u ≤ -(1/2)) : N2 u = 1/2 * (3/2 + u)^2 := by
  rw [← N2_neg, N2_right (by linarith) (by linarith)]; ring

lemma N2_out {u : K} (h : 3/2 ≤ |u|) : N2 u = 0 := by
  unfold N2; simp only
  split_ifs with a b
  · linarith
  · linarith
  · rfl

lemma dN2_mid {u : K} (h1 : -(1/2) ≤ u) (h2 : u ≤ 1/2) : dN2 u = -2 * u := by
  unfold dN2
  rcases abs_cases u with ⟨h, h'⟩ | ⟨h, h'⟩ <;> simp only [h]
  · split_ifs with a b
    · ring
    · have : u = 1/2 := le_antisymm h2 (not_lt.mp a)
      subst this; rw [sgn_pos (by norm_num)]; norm_num
    · linarith
  · split_ifs with a b
    · ring
    · have : u = -(1/2) := by linarith
      subst this; rw [sgn_neg (by norm_num)]; norm_num
    · linarith

lemma dN2_right {u : K} (h1 : 1/2 ≤ u) (h2 : u ≤ 3/2) : dN2 u = u - 3/2 := by
  unfold dN2
  rw [abs_of_nonneg (by linarith), sgn_pos (by linarith)]
  simp only
  split_ifs with a b
  · linarith
  · ring
  · linarith

lemma dN2_neg (u : K) : dN2 (-u) = - dN2 u := by
  unfold dN2; simp only [abs_neg]
  have : sgn (-u) = - sgn u := by
    rcases lt_trichotomy u 0 with h | h | h
    · rw [sgn_neg h, sgn_pos (by linarith)]; ring
    · subst h; simp
    · rw [sgn_pos h, sgn_neg (by linarith)]
  split_ifs <;> simp [this]; ring

lemma dN2_left {u : K} (h1 : -(3/2) ≤ u) (h2 : u ≤ -(1/2)) : dN2 u = u + 3/2 := by
  have := dN2_right (u := -u) (by linarith) (by linarith)
  rw [dN2_neg] at this; linarith

lemma dN2_out {u : K} (h : 3/2 ≤ |u|) : dN2 u = 0 := by
  unfold dN2; simp only
  split_ifs with a b
  · linarith
  · linarith
  · rfl

/-! ### cubic -/

lemma N3_neg (u : K) : N3 (-u) = N3 u := by simp [N3]

lemma N3_in {u : K} (h1 : 0 ≤ u) (h2 : u ≤ 1) : N3 u = 1/2 * u^3 - u^2 + 2/3 := by
  unfold N3
  rw [abs_of_nonneg h1]; simp only
  split_ifs with a b
  · ring
  · have : u = 1 := le_antisymm h2 (not_lt.mp a)
    subst this; norm_num
  · linarith

lemma N3_out1 {u : K} (h1 : 1 ≤ u) (h2 : u ≤ 2) : N3 u = 1/6 * (2 - u)^3 := by
  unfold N3
  rw [abs_of_nonneg (by linarith)]; simp only
  split_ifs with a b
  · linarith
  · ring
  · have : u = 2 := le_antisymm h2 (not_lt.mp b)
    subst this; norm_num

lemma N3_inl {u : K} (h1 : -1 ≤ u) (h2 : u ≤ 0) : N3 u = -(1/2) * u^3 - u^2 + 2/3 := by
  rw [← N3_neg, N3_in (by linarith) (by linarith)]; ring

lemma N3_outl {u : K} (h1 : -2 ≤ u) (h2 : u ≤ -1) : N3 u = 1/6 * (2 + u)^3 := by
  rw [← N3_neg, N3_out1 (by linarith) (by linarith)]; ring

lemma N3_out {u : K} (h : 2 ≤ |u|) : N3 u = 0 := by
  unfold N3; simp only
  split_ifs with a b
  · linarith
  · linarith
  · rfl

lemma sgn_neg' (u : K) : sgn (-u) = - sgn u := by
  rcases lt_trichotomy u 0 with h | h | h
  · rw [sgn_neg h, sgn_pos (by linarith)]; ring
  · subst h; simp
  · rw [sgn_pos h, sgn_neg (by linarith)]

lemma dN3_neg (u : K) : dN3 (-u) = - dN3 u := by
  unfold dN3; simp only [abs_neg, sgn_neg']
  split_ifs <;> ring

lemma dN3_in {u : K} (h1 : 0 ≤ u) (h2 : u ≤ 1) : dN3 u = 3/2 * u^2 - 2 * u := by
  unfold dN3
  rw [abs_of_nonneg h1]; simp only
  split_ifs with a b
  · ring
  · have : u = 1 := le_antisymm h2 (not_lt.mp a)
    subst this; rw [sgn_pos one_pos]; norm_num
  · linarith

lemma dN3_out1 {u : K} (h1 : 1 ≤ u) (h2 : u ≤ 2) : dN3 u = -(1/2) * (2 - u)^2 := by
  unfold dN3
  rw [abs_of_nonneg (by linarith), sgn_pos (by linarith)]; simp only
  split_ifs with a b
  · linarith
  · ring
  · have : u = 2 := le_antisymm h2 (not_lt.mp b)
    subst this; norm_num

lemma dN3_inl {u : K} (h1 : -1 ≤ u) (h2 : u ≤ 0) : dN3 u = -(3/2) * u^2 - 2 * u := by
  have := dN3_in (u := -u) (by linarith) (by linarith)
  rw [dN3_neg] at this; linear_combination -this

lemma dN3_outl {u : K} (h1 : -2 ≤ u) (h2 : u ≤ -1) : dN3 u = 1/2 * (2 + u)^2 := by
  have := dN3_out1 (u := -u) (by linarith) (by linarith)
  rw [dN3_neg] at this; linear_combination -this

lemma dN3_out {u : K} (h : 2 ≤ |u|) : dN3 u = 0 := by
  unfold dN3; simp only
  split_ifs with a b
  · linarith
  · linarith
  · rfl

/-! ### linear -/

lemma N1_in {u : K} (h1 : 0 ≤ u) (h2 : u ≤ 1) : N1 u = 1 - u := by
  simp only [N1, abs_of_nonneg h1]; exact max_eq_right (by linarith)

lemma N1_neg (u : K) : N1 (-u) = N1 u := by simp [N1]

lemma N1_inl {u : K} (h1 : -1 ≤ u) (h2 : u ≤ 0) : N1 u = 1 + u := by
  rw [← N1_neg, N1_in (by linarith) (by linarith)]; ring

lemma N1_out {u : K} (h : 1 ≤ |u|) : N1 u = 0 := by
  simp only [N1]; exact max_eq_left (by linarith)

/-! ### the four weights of a stencil; `f` is the particle's offset in its cell -/

/-- The argument of the spline at the `i`-th node of the stencil for a particle with
fractional cell coordinate `f`. -/
def stencilArg (f : K) (i : Fin 4) : K := 1 + f - (i : ℕ)

lemma sum4 {M : Type*} [AddCommMonoid M] (g : Fin 4 → M) :
    ∑ i, g i = g 0 + g 1 + g 2 + g 3 := Fin.sum_univ_four g

section moments
variable {f : K} (h0 : 0 ≤ f) (h1 : f < 1)
include h0 h1

private lemma args (g : K → K) : ∑ i, g (stencilArg f i) = g (1 + f) + g f + g (f - 1) + g (f - 2) := by
  rw [sum4]; simp only [stencilArg]; congr 1
  · congr 1
    · congr 1
      · simp
      · congr 1; simp
    · congr 1; simp; ring
  · congr 1; simp; ring

lemma N2_vals : (f ≤ 1/2 ∧ N2 (1+f) = 1/2*(1/2 - f)^2 ∧ N2 f = 3/4 - f^2 ∧
      N2 (f-1) = 1/2*(1/2+f)^2 ∧ N2 (f-2) = 0 ∧
      dN2 (1+f) = f - 1/2 ∧ dN2 f = -2*f ∧ dN2 (f-1) = f + 1/2 ∧ dN2 (f-2) = 0) ∨
    (1/2 ≤ f ∧ N2 (1+f) = 0 ∧ N2 f = 1/2*(3/2-f)^2 ∧
      N2 (f-1) = 3/4 - (f-1)^2 ∧ N2 (f-2) = 1/2*(f - 1/2)^2 ∧
      dN2 (1+f) = 0 ∧ dN2 f = f - 3/2 ∧ dN2 (f-1) = -2*(f-1) ∧ dN2 (f-2) = f - 1/2) := by
  rcases le_total f (1/2) with h | h
  · left
    refine ⟨h, ?_, ?_, ?_, ?_, ?_, ?_, ?_, ?_⟩
    · rw [N2_right (by linarith) (by linarith)]; ring
    · rw [N2_mid (by linarith) (by linarith)]
    · rw [N2_left (by linarith) (by linarith)]; ring
    · rw [N2_out]; rw [abs_of_neg (by linarith)]; linarith
    · rw [dN2_right (by linarith) (by linarith)]; ring
    · rw [dN2_mid (by linarith) (by linarith)]
    · rw [dN2_left (by linarith) (by linarith)]; ring
    · rw [dN2_out]; rw [abs_of_neg (by linarith)]; linarith
  · right
    refine ⟨h, ?_, ?_, ?_, ?_, ?_, ?_, ?_, ?_⟩
    · rw [N2_out]; rw [abs_of_nonneg (by linarith)]; linarith
    · rw [N2_right (by linarith) (by linarith)]
    · rw [N2_mid (by linarith) (by linarith)]
    · rw [N2_left (by linarith) (by linarith)]; ring
    · rw [dN2_out]; rw [abs_of_nonneg (by linarith)]; linarith
    · rw [dN2_right (by linarith) (by linarith)]
    · rw [dN2_mid (by linarith) (by linarith)]
    · rw [dN2_left (by linarith) (by linarith)]; ring

lemma N3_vals : N3 (1+f) = 1/6*(1-f)^3 ∧ N3 f = 1/2*f^3 - f^2 + 2/3 ∧
      N3 (f-1) = 1/2*(1-f)^3 - (1-f)^2 + 2/3 ∧ N3 (f-2) = 1/6*f^3 ∧
      dN3 (1+f) = -(1/2)*(1-f)^2 ∧ dN3 f = 3/2*f^2 - 2*f ∧
      dN3 (f-1) = -(3/2)*(1-f)^2 + 2*(1-f) ∧ dN3 (f-2) = 1/2*f^2 := by
  refine ⟨?_, ?_, ?_, ?_, ?_, ?_, ?_, ?_⟩
  · rw [N3_out1 (by linarith) (by linarith)]; ring
  · rw [N3_in (by linarith) (by linarith)]
  · rw [N3_inl (by linarith) (by linarith)]; ring
  · rw [N3_outl (by linarith) (by linarith)]; ring
  · rw [dN3_out1 (by linarith) (by linarith)]; ring
  · rw [dN3_in (by linarith) (by linarith)]
  · rw [dN3_inl (by linarith) (by linarith)]; ring
  · rw [dN3_outl (by linarith) (by linarith)]; ring

lemma N1_vals : N1 (1+f) = 0 ∧ N1 f = 1 - f ∧ N1 (f-1) = f ∧ N1 (f-2) = 0 := by
  refine ⟨?_, ?_, ?_, ?_⟩
  · rw [N1_out]; rw [abs_of_nonneg (by linarith)]; linarith
  · rw [N1_in (by linarith) (by linarith)]
  · rw [N1_inl (by linarith) (by linarith)]; ring
  · rw [N1_out]; rw [abs_of_neg (by linarith)]; linarith

/-- Partition of unity, for every spline degree. -/
lemma sum_N (deg : Deg) : ∑ i, N deg (stencilArg f i) = 1 := by
  rw [args h0 h1]
  cases deg
  · obtain ⟨a, b, c, d⟩ := N1_vals h0 h1; simp only [N, a, b, c, d]; ring
  · rcases N2_vals h0 h1 with ⟨_, a, b, c, d, _⟩ | ⟨_, a, b, c, d, _⟩ <;>
      simp only [N, a, b, c, d] <;> ring
  · obtain ⟨a, b, c, d, _⟩ := N3_vals h0 h1; simp only [N, a, b, c, d]; ring

/-- First moment vanishes, for every spline degree. -/
lemma sum_N_arg (deg : Deg) : ∑ i, N deg (stencilArg f i) * stencilArg f i = 0 := by
  rw [args h0 h1 (fun u => N deg u * u)]
  cases deg
  · obtain ⟨a, b, c, d⟩ := N1_vals h0 h1; simp only [N, a, b, c, d]; ring
  · rcases N2_vals h0 h1 with ⟨_, a, b, c, d, _⟩ | ⟨_, a, b, c, d, _⟩ <;>
      simp only [N, a, b, c, d] <;> ring
  · obtain ⟨a, b, c, d, _⟩ := N3_vals h0 h1; simp only [N, a, b, c, d]; ring

lemma sum_N2_sq : ∑ i, N2 (stencilArg f i) * stencilArg f i ^ 2 = 1/4 := by
  rw [args h0 h1 (fun u => N2 u * u^2)]
  rcases N2_vals h0 h1 with ⟨_, a, b, c, d, _⟩ | ⟨_, a, b, c, d, _⟩ <;>
      simp only [a, b, c, d] <;> ring

lemma sum_N3_sq : ∑ i, N3 (stencilArg f i) * stencilArg f i ^ 2 = 1/3 := by
  rw [args h0 h1 (fun u => N3 u * u^2)]
  obtain ⟨a, b, c, d, _⟩ := N3_vals h0 h1; simp only [a, b, c, d]; ring

lemma sum_dN {deg : Deg} (hd : deg ≠ .one) : ∑ i, dNdu deg (stencilArg f i) = 0 := by
  rw [args h0 h1]
  cases deg
  · exact absurd rfl hd
  · rcases N2_vals h0 h1 with ⟨_, _, _, _, _, a, b, c, d⟩ | ⟨_, _, _, _, _, a, b, c, d⟩ <;>
      simp only [dNdu, a, b, c, d] <;> ring
  · obtain ⟨_, _, _, _, a, b, c, d⟩ := N3_vals h0 h1; simp only [dNdu, a, b, c, d]; ring

lemma sum_dN_arg {deg : Deg} (hd : deg ≠ .one) :
    ∑ i, dNdu deg (stencilArg f i) * stencilArg f i = -1 := by
  rw [args h0 h1 (fun u => dNdu deg u * u)]
  cases deg
  · exact absurd rfl hd
  · rcases N2_vals h0 h1 with ⟨_, _, _, _, _, a, b, c, d⟩ | ⟨_, _, _, _, _, a, b, c, d⟩ <;>
      simp only [dNdu, a, b, c, d] <;> ring
  · obtain ⟨_, _, _, _, a, b, c, d⟩ := N3_vals h0 h1; simp only [dNdu, a, b, c, d]; ring

end moments

lemma N_nonneg (deg : Deg) (u : K) : 0 ≤ N deg u := by
  cases deg
  · simp [N, N1]
  · simp only [N, N2]
    split_ifs with a b
    · have := abs_nonneg u; nlinarith
    · have : (0:K) ≤ 3/2 - |u| := by linarith
      positivity
    · exact le_rfl
  · simp only [N, N3]
    split_ifs with a b
    · have h := abs_nonneg u
      nlinarith [mul_nonneg h h, mul_nonneg h (mul_nonneg h h)]
    · have : (0:K) ≤ 2 - |u| := by linarith
      positivity
    · exact le_rfl

/-- A vanishing weight has a vanishing gradient. -/
lemma N_out {deg : Deg} {u : K} (h : 2 ≤ |u|) : N deg u = 0 := by
  cases deg
  · exact N1_out (by linarith)
  · exact N2_out (by linarith)
  · exact N3_out h

lemma dN_eq_zero_of_N_eq_zero {deg : Deg} {u : K} (h : N deg u = 0) : dNdu deg u = 0 := by
  cases deg
  · simp only [N, N1] at h
    simp only [dNdu, dN1]
    split_ifs with a
    · exfalso; have := le_max_right (0:K) (1 - |u|); rw [h] at this; linarith
    · exfalso; have := le_max_right (0:K) (1 - |u|); rw [h] at this; linarith
    · rfl
  · simp only [N, N2] at h
    simp only [dNdu, dN2]
    have := abs_nonneg u
    split_ifs at h ⊢ with a b
    · nlinarith
    · have : (0:K) < 3/2 - |u| := by linarith
      have : 0 < 1/2 * (3/2 - |u|) * (3/2 - |u|) := by positivity
      linarith
    · rfl
  · simp only [N, N3] at h
    simp only [dNdu, dN3]
    have h0 := abs_nonneg u
    split_ifs at h ⊢ with a b
    · nlinarith [mul_nonneg h0 h0, mul_nonneg h0 (mul_nonneg h0 h0)]
    · have : (0:K) < 2 - |u| := by linarith
      have : 0 < 1/6 * (2 - |u|) * (2 - |u|) * (2 - |u|) := by positivity
      linarith
    · rfl

end Verif
