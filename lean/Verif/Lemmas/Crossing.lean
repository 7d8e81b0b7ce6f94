import Verif.Lemmas.RoundTransfer
import Verif.Spec
import Mathlib.Algebra.BigOperators.Field

set_option linter.unusedSectionVars false
set_option linter.unusedSimpArgs false
set_option linter.unusedVariables false

/-!
# Shape functions and their gradients are Lipschitz continuous across cell boundaries
-/

namespace Verif
open Matrix

/-- The five pieces of the derivative. -/
lemma dN2_pieces (u : ℝ) : (u ≤ -(3/2) ∧ dN2 u = 0) ∨ (-(3/2) ≤ u ∧ u ≤ -(1/2) ∧ dN2 u = u + 3/2) ∨
    (-(1/2) ≤ u ∧ u ≤ 1/2 ∧ dN2 u = -2 * u) ∨ (1/2 ≤ u ∧ u ≤ 3/2 ∧ dN2 u = u - 3/2) ∨ (3/2 ≤ u ∧ dN2 u = 0) := by
  rcases le_total u (-(3/2)) with h1 | h1
  · exact .inl ⟨h1, dN2_out (by rw [abs_of_neg (by linarith)]; linarith)⟩
  rcases le_total u (-(1/2)) with h2 | h2
  · exact .inr (.inl ⟨h1, h2, dN2_left h1 h2⟩)
  rcases le_total u (1/2) with h3 | h3
  · exact .inr (.inr (.inl ⟨h2, h3, dN2_mid h2 h3⟩))
  rcases le_total u (3/2) with h4 | h4
  · exact .inr (.inr (.inr (.inl ⟨h3, h4, dN2_right h3 h4⟩)))
  · exact .inr (.inr (.inr (.inr ⟨h4, dN2_out (h4.trans (le_abs_self u))⟩)))

lemma dN2_lip (s t : ℝ) : |dN2 s - dN2 t| ≤ 2 * |s - t| := by
  wlog hst : s ≤ t generalizing s t
  · rw [abs_sub_comm, abs_sub_comm s t]; exact this t s (le_of_not_ge hst)
  rw [abs_of_nonpos (by linarith : s - t ≤ 0), abs_le]
  rcases dN2_pieces s with ⟨a, e⟩ | ⟨a, b, e⟩ | ⟨a, b, e⟩ | ⟨a, b, e⟩ | ⟨a, e⟩ <;>
  rcases dN2_pieces t with ⟨a', e'⟩ | ⟨a', b', e'⟩ | ⟨a', b', e'⟩ | ⟨a', b', e'⟩ | ⟨a', e'⟩ <;>
  rw [e, e'] <;> constructor <;> linarith

lemma dN3_lip (s t : ℝ) : |dN3 s - dN3 t| ≤ 2 * |s - t| := by
  have := Convex.norm_image_sub_le_of_norm_hasDerivWithin_le (f := dN3) (f' := ddN3) (s := Set.univ) (C := 2)
    (x := t) (y := s) (fun (x : ℝ) _ => (hasDerivAt_dN3 x).hasDerivWithinAt) (fun x _ => by
      rw [Real.norm_eq_abs]
      have h0 := abs_nonneg x
      simp only [ddN3]
      split_ifs with h1 h2
      · rw [abs_le]; constructor <;> linarith
      · rw [abs_le]; constructor <;> linarith
      · norm_num) convex_univ (Set.mem_univ _) (Set.mem_univ _)
  simpa [Real.norm_eq_abs] using this

lemma dNdu_lip {deg : Deg} (hd : deg ≠ .one) (s t : ℝ) : |dNdu deg s - dNdu deg t| ≤ 2 * |s - t| := by
  cases deg with
  | one => exact absurd rfl hd
  | two => exact dN2_lip s t
  | three => exact dN3_lip s t

/-- Where the weight is small, so is its derivative. -/
lemma dNdu_sq_le {deg : Deg} (hd : deg ≠ .one) (t : ℝ) : dNdu deg t ^ 2 ≤ 2 * N deg t := by
  have h0 := abs_nonneg t
  have hsg : sgn t ^ 2 ≤ 1 := by
    rcases lt_trichotomy t 0 with h | h | h
    · rw [sgn_neg h]; norm_num
    · rw [h, sgn_zero]; norm_num
    · rw [sgn_pos h]; norm_num
  cases deg with
  | one => exact absurd rfl hd
  | two =>
    show dN2 t ^ 2 ≤ 2 * N2 t
    simp only [dN2, N2]
    have hs := sq_abs t
    split_ifs with h1 h2
    · nlinarith
    · rcases lt_trichotomy t 0 with h | h | h
      · rw [sgn_neg h, abs_of_neg h]; nlinarith
      · rw [h] at h1; norm_num at h1
      · rw [sgn_pos h, abs_of_pos h]; nlinarith
    · norm_num
  | three =>
    show dN3 t ^ 2 ≤ 2 * N3 t
    simp only [dN3, N3]
    have hs := sq_abs t
    set a := |t| with ha
    split_ifs with h1 h2
    · have e : (t * (3 / 2 * a - 2)) ^ 2 = a ^ 2 * (3 / 2 * a - 2) ^ 2 := by rw [mul_pow, hs]
      have h3 : a * (2 - 3 / 2 * a) ≤ 2 / 3 := by nlinarith [sq_nonneg (a - 2 / 3)]
      have h4 : 0 ≤ a * (2 - 3 / 2 * a) := mul_nonneg h0 (by linarith)
      rw [e]
      have h5 : a ^ 2 * (3 / 2 * a - 2) ^ 2 ≤ 2 / 3 * (a * (2 - 3 / 2 * a)) := by
        have : a ^ 2 * (3 / 2 * a - 2) ^ 2 = (a * (2 - 3 / 2 * a)) * (a * (2 - 3 / 2 * a)) := by ring
        rw [this]; exact mul_le_mul_of_nonneg_right h3 h4
      nlinarith [mul_nonneg h0 (sq_nonneg (a - 2 / 3)), mul_nonneg h0 h0, mul_nonneg (mul_nonneg h0 h0) h0]
    · have h3 : 0 < 2 - a := by linarith
      have h4 : 2 - a ≤ 1 := by rw [not_lt] at h1; linarith
      have e : (-(1 / 2) * sgn t * (2 - a) * (2 - a)) ^ 2 = 1 / 4 * sgn t ^ 2 * ((2 - a) ^ 3 * (2 - a)) := by ring
      rw [e]
      have h5 : 0 < (2 - a) ^ 3 := by positivity
      have h6 : (2 - a) ^ 3 * (2 - a) ≤ (2 - a) ^ 3 := mul_le_of_le_one_right h5.le h4
      have h7 : 1 / 4 * sgn t ^ 2 * ((2 - a) ^ 3 * (2 - a)) ≤ 1 / 4 * 1 * (2 - a) ^ 3 := by
        refine mul_le_mul (by linarith) h6 (by positivity) (by norm_num)
      have e2 : 2 * (1 / 6 * (2 - a) * (2 - a) * (2 - a)) = 1 / 3 * (2 - a) ^ 3 := by ring
      rw [e2]; linarith
    · norm_num

lemma abs_N_le (deg : Deg) (t : ℝ) : |N deg t| ≤ 1 := by
  rw [abs_of_nonneg (N_nonneg _ _)]; exact N_le_one deg t

lemma prod_lip {ι : Type*} (s : Finset ι) {f g : ι → ℝ} (hf : ∀ i, |f i| ≤ 1) (hg : ∀ i, |g i| ≤ 1) :
    |∏ i ∈ s, f i - ∏ i ∈ s, g i| ≤ ∑ i ∈ s, |f i - g i| := by
  classical
  induction s using Finset.induction_on with
  | empty => simp
  | insert i s hi ih =>
    rw [Finset.prod_insert hi, Finset.prod_insert hi, Finset.sum_insert hi]
    have e : f i * ∏ j ∈ s, f j - g i * ∏ j ∈ s, g j =
        (f i - g i) * ∏ j ∈ s, f j + g i * (∏ j ∈ s, f j - ∏ j ∈ s, g j) := by ring
    have h1 : |∏ j ∈ s, f j| ≤ 1 := by
      rw [Finset.abs_prod]; exact Finset.prod_le_one (fun _ _ => abs_nonneg _) fun j _ => hf j
    rw [e]
    refine (abs_add_le _ _).trans (add_le_add ?_ ?_)
    · rw [abs_mul]; exact mul_le_of_le_one_right (abs_nonneg _) h1
    · rw [abs_mul]; exact (mul_le_of_le_one_left (abs_nonneg _) (hg i)).trans ih

variable {d : ℕ} {deg : Deg} {dx : ℝ}

/-- The sum of the distances along the axes. -/
def dist1 (x y : Fin d → ℝ) : ℝ := ∑ a, |x a - y a|

lemma dist1_nonneg (x y : Fin d → ℝ) : 0 ≤ dist1 x y := Finset.sum_nonneg fun _ _ => abs_nonneg _

lemma le_dist1 (x y : Fin d → ℝ) (a : Fin d) : |x a - y a| ≤ dist1 x y :=
  Finset.single_le_sum (f := fun a => |x a - y a|) (fun _ _ => abs_nonneg _) (Finset.mem_univ a)

lemma abs_arg_sub (hdx : 0 < dx) (X x y : ℝ) : |(x - X) / dx - (y - X) / dx| = |x - y| / dx := by
  rw [← sub_div, abs_div, abs_of_pos hdx]; congr 2; ring

lemma shape_lip (hdx : 0 < dx) (X x y : Fin d → ℝ) : |shape deg dx X x - shape deg dx X y| ≤ dist1 x y / dx := by
  unfold shape
  refine (prod_lip _ (fun _ => abs_N_le _ _) (fun _ => abs_N_le _ _)).trans ?_
  unfold dist1
  rw [Finset.sum_div]
  refine Finset.sum_le_sum fun a _ => ?_
  rw [← abs_arg_sub hdx (X a)]
  exact N_lipschitz deg _ _

lemma shape_nonneg' (X x : Fin d → ℝ) : 0 ≤ shape deg dx X x := Finset.prod_nonneg fun _ _ => N_nonneg _ _

lemma shape_le_one' (X x : Fin d → ℝ) : shape deg dx X x ≤ 1 :=
  Finset.prod_le_one (fun _ _ => N_nonneg _ _) fun _ _ => N_le_one _ _

/-- The gradient as a product of numbers of absolute value at most one. -/
lemma shapeGrad_eq (X x : Fin d → ℝ) (b : Fin d) : shapeGrad deg dx X x b =
    (∏ a, if a = b then dNdu deg ((x a - X a) / dx) else N deg ((x a - X a) / dx)) / dx := by
  unfold shapeGrad
  rw [← Finset.mul_prod_erase _ _ (Finset.mem_univ b), ← Finset.mul_prod_erase _ _ (Finset.mem_univ b), if_pos rfl,
    if_pos rfl, div_mul_eq_mul_div]
  congr 2
  refine Finset.prod_congr rfl fun a ha => ?_
  rw [if_neg (Finset.ne_of_mem_erase ha), if_neg (Finset.ne_of_mem_erase ha)]

lemma shapeGrad_lip (hd : deg ≠ .one) (hdx : 0 < dx) (X x y : Fin d → ℝ) (b : Fin d) :
    |shapeGrad deg dx X x b - shapeGrad deg dx X y b| ≤ 2 * dist1 x y / dx ^ 2 := by
  rw [shapeGrad_eq, shapeGrad_eq, ← sub_div, abs_div, abs_of_pos hdx]
  have hb : ∀ z : Fin d → ℝ, ∀ a, |if a = b then dNdu deg ((z a - X a) / dx) else N deg ((z a - X a) / dx)| ≤ 1 := by
    intro z a
    split_ifs
    · exact abs_dNdu_le deg hd _
    · exact abs_N_le _ _
  have h1 := prod_lip Finset.univ (hb x) (hb y)
  have h2 : ∑ a, |(if a = b then dNdu deg ((x a - X a) / dx) else N deg ((x a - X a) / dx)) -
      (if a = b then dNdu deg ((y a - X a) / dx) else N deg ((y a - X a) / dx))| ≤ 2 * dist1 x y / dx := by
    unfold dist1
    rw [Finset.mul_sum, Finset.sum_div]
    refine Finset.sum_le_sum fun a _ => ?_
    rw [mul_div_assoc, ← abs_arg_sub hdx (X a)]
    split_ifs
    · exact dNdu_lip hd _ _
    · exact (N_lipschitz deg _ _).trans (le_mul_of_one_le_left (abs_nonneg _) (by norm_num))
  rw [div_le_iff₀ hdx]
  refine (h1.trans h2).trans (le_of_eq ?_)
  field_simp

/-- Where the shape function is small, so is its gradient. -/
lemma shapeGrad_sq_le (hd : deg ≠ .one) (hdx : 0 < dx) (X x : Fin d → ℝ) (b : Fin d) :
    shapeGrad deg dx X x b ^ 2 ≤ 2 * shape deg dx X x / dx ^ 2 := by
  rw [shapeGrad_eq, div_pow]
  refine div_le_div_of_nonneg_right ?_ (by positivity)
  unfold shape
  rw [← Finset.mul_prod_erase _ _ (Finset.mem_univ b), ← Finset.mul_prod_erase Finset.univ (fun a => N deg _)
    (Finset.mem_univ b), if_pos rfl, mul_pow, ← mul_assoc]
  have e : ∏ a ∈ Finset.univ.erase b, (if a = b then dNdu deg ((x a - X a) / dx) else N deg ((x a - X a) / dx)) =
      ∏ a ∈ Finset.univ.erase b, N deg ((x a - X a) / dx) :=
    Finset.prod_congr rfl fun a ha => if_neg (Finset.ne_of_mem_erase ha)
  rw [e]
  set P := ∏ a ∈ Finset.univ.erase b, N deg ((x a - X a) / dx)
  have hP0 : 0 ≤ P := Finset.prod_nonneg fun _ _ => N_nonneg _ _
  have hP1 : P ≤ 1 := Finset.prod_le_one (fun _ _ => N_nonneg _ _) fun _ _ => N_le_one _ _
  refine mul_le_mul (dNdu_sq_le hd _) ?_ (by positivity) (mul_nonneg (by norm_num) (N_nonneg _ _))
  rw [pow_two]; exact mul_le_of_le_one_right hP0 hP1

/-- Outside of two cells there is no weight. -/
lemma shape_within (hdx : 0 < dx) {X x : Fin d → ℝ} (h : shape deg dx X x ≠ 0) (a : Fin d) : |X a - x a| ≤ 2 * dx := by
  by_contra hc
  rw [not_le] at hc
  refine h (Finset.prod_eq_zero (Finset.mem_univ a) (N_out ?_))
  rw [abs_div, abs_of_pos hdx, le_div_iff₀ hdx, abs_sub_comm]
  exact hc.le

/-- The weighted distance from the node. -/
lemma shape_arm_lip (hdx : 0 < dx) (X x y : Fin d → ℝ) (a : Fin d) :
    |shape deg dx X x * (X a - x a) - shape deg dx X y * (X a - y a)| ≤ 3 * dist1 x y := by
  have hD := dist1_nonneg x y
  have main : ∀ x y : Fin d → ℝ, shape deg dx X y ≠ 0 →
      |shape deg dx X x * (X a - x a) - shape deg dx X y * (X a - y a)| ≤ 3 * dist1 x y := by
    intro x y hy
    have e : shape deg dx X x * (X a - x a) - shape deg dx X y * (X a - y a) =
      -(shape deg dx X x * (x a - y a)) + (shape deg dx X x - shape deg dx X y) * (X a - y a) := by ring
    rw [e]
    refine (abs_add_le _ _).trans ?_
    rw [abs_neg, abs_mul, abs_mul, abs_of_nonneg (shape_nonneg' X x)]
    have h1 : shape deg dx X x * |x a - y a| ≤ dist1 x y :=
      (mul_le_of_le_one_left (abs_nonneg _) (shape_le_one' X x)).trans (le_dist1 x y a)
    have h2 : |shape deg dx X x - shape deg dx X y| * |X a - y a| ≤ dist1 x y / dx * (2 * dx) :=
      mul_le_mul (shape_lip hdx X x y) (shape_within hdx hy a) (abs_nonneg _) (div_nonneg (dist1_nonneg x y) hdx.le)
    have e2 : dist1 x y / dx * (2 * dx) = 2 * dist1 x y := by field_simp
    linarith
  by_cases hy : shape deg dx X y = 0
  · by_cases hx : shape deg dx X x = 0
    · rw [hx, hy]; simpa using hD
    · have := main y x hx
      rw [abs_sub_comm]
      refine this.trans (le_of_eq ?_)
      unfold dist1
      simp only [abs_sub_comm]
  · exact main x y hy

end Verif
