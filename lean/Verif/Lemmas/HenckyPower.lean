import Verif.Props.Stress
import Verif.Props.Energy
import Verif.Props.Bookkeeping
import Mathlib.Analysis.SpecialFunctions.Log.Basic

set_option linter.unusedSectionVars false
set_option linter.unusedSimpArgs false
set_option linter.unusedVariables false

/-!
# The stress power is the rate of the elastic energy

For two symmetric positive matrices `A = U diag(a) Uᵀ` and `B = W diag(b) Wᵀ` the numbers `(Uᵀ W)ᵢⱼ²` are a doubly
stochastic matrix, so a bound on `f(b) - f(a) - f'(a) (b - a)` for numbers becomes one for traces.
-/

namespace Verif.Props
open Verif Matrix

variable {d : ℕ}

/-! ### Numbers -/

lemma log_second {a b : ℝ} (ha : 0 < a) (hb : 0 < b) :
    |Real.log b - Real.log a - a⁻¹ * (b - a)| ≤ (b - a) ^ 2 / (a * b) := by
  have h1 : Real.log b - Real.log a = Real.log (b / a) := (Real.log_div hb.ne' ha.ne').symm
  have h2 := Real.log_le_sub_one_of_pos (div_pos hb ha)
  have h3 := Real.one_sub_inv_le_log_of_pos (div_pos hb ha)
  have e1 : b / a - 1 = a⁻¹ * (b - a) := by field_simp
  have e2 : 1 - (b / a)⁻¹ = a⁻¹ * (b - a) - (b - a) ^ 2 / (a * b) := by field_simp; ring
  have h4 : 0 ≤ (b - a) ^ 2 / (a * b) := by positivity
  rw [h1, abs_le]
  constructor <;> linarith

lemma log_first {a b c : ℝ} (hc : 0 < c) (ha : c ≤ a) (hb : c ≤ b) :
    (Real.log b - Real.log a) ^ 2 ≤ (b - a) ^ 2 / c ^ 2 := by
  have key : ∀ {a b : ℝ}, c ≤ a → a ≤ b → (Real.log b - Real.log a) ^ 2 ≤ (b - a) ^ 2 / c ^ 2 := by
    intro a b ha hab
    have ha0 : 0 < a := hc.trans_le ha
    have hb0 : 0 < b := ha0.trans_le hab
    have h1 : 0 ≤ Real.log b - Real.log a := sub_nonneg.mpr (Real.log_le_log ha0 hab)
    have h2 : Real.log b - Real.log a ≤ (b - a) / c := by
      rw [← Real.log_div hb0.ne' ha0.ne']
      have h3 := Real.log_le_sub_one_of_pos (div_pos hb0 ha0)
      have e1 : b / a - 1 = (b - a) / a := by field_simp
      have h4 : (b - a) / a ≤ (b - a) / c := div_le_div_of_nonneg_left (by linarith) hc ha
      linarith
    rw [← div_pow]
    exact pow_le_pow_left₀ h1 h2 2
  rcases le_total a b with h | h
  · exact key ha h
  · have := key hb h
    calc _ = (Real.log a - Real.log b) ^ 2 := by ring
      _ ≤ _ := this
      _ = _ := by ring

lemma log_sq_second {a b c l : ℝ} (hc : 0 < c) (ha : c ≤ a) (hb : c ≤ b) (hl : |Real.log a| ≤ l) :
    |Real.log b ^ 2 - Real.log a ^ 2 - (2 * Real.log a * a⁻¹) * (b - a)| ≤ (1 + 2 * l) / c ^ 2 * (b - a) ^ 2 := by
  have ha0 : 0 < a := hc.trans_le ha
  have hb0 : 0 < b := hc.trans_le hb
  have h1 := log_first hc ha hb
  have h2 := log_second ha0 hb0
  have h3 : (b - a) ^ 2 / (a * b) ≤ (b - a) ^ 2 / c ^ 2 := by
    refine div_le_div_of_nonneg_left (sq_nonneg _) (by positivity) ?_
    rw [sq]; exact mul_le_mul ha hb hc.le ha0.le
  have e : Real.log b ^ 2 - Real.log a ^ 2 - (2 * Real.log a * a⁻¹) * (b - a) =
      (Real.log b - Real.log a) ^ 2 + 2 * Real.log a * (Real.log b - Real.log a - a⁻¹ * (b - a)) := by ring
  have h4 : |2 * Real.log a * (Real.log b - Real.log a - a⁻¹ * (b - a))| ≤ 2 * l * ((b - a) ^ 2 / c ^ 2) := by
    rw [abs_mul, abs_mul, abs_two]
    exact mul_le_mul (by linarith) (h2.trans h3) (abs_nonneg _) (by linarith [abs_nonneg (Real.log a)])
  rw [e]
  refine (abs_add_le _ _).trans ?_
  rw [abs_of_nonneg (sq_nonneg _)]
  have e2 : (1 + 2 * l) / c ^ 2 * (b - a) ^ 2 = (b - a) ^ 2 / c ^ 2 + 2 * l * ((b - a) ^ 2 / c ^ 2) := by ring
  linarith

/-! ### Matrices -/

lemma ddot_trace (A B : Matrix (Fin d) (Fin d) ℝ) : ddot A B = (A * Bᵀ).trace := by
  simp [ddot, Matrix.trace, Matrix.mul_apply]

lemma ddot_conj {A B U : Matrix (Fin d) (Fin d) ℝ} (hU : U * Uᵀ = 1) :
    ddot (Uᵀ * A * U) (Uᵀ * B * U) = ddot A B := by
  simp only [ddot_trace, transpose_mul, transpose_transpose]
  calc (Uᵀ * A * U * (Uᵀ * (Bᵀ * U))).trace = (Uᵀ * (A * (U * Uᵀ) * Bᵀ * U)).trace := by simp only [Matrix.mul_assoc]
    _ = _ := by rw [Matrix.trace_mul_comm, hU, Matrix.mul_one, Matrix.mul_assoc, hU, Matrix.mul_one]

lemma ddot_mul_orth {A W : Matrix (Fin d) (Fin d) ℝ} (hW : W * Wᵀ = 1) : ddot (A * W) (A * W) = ddot A A := by
  simp only [ddot_trace, transpose_mul]
  rw [← Matrix.mul_assoc, Matrix.mul_assoc A, hW, Matrix.mul_one]

lemma ddot_add_three (X Y Z : Matrix (Fin d) (Fin d) ℝ) :
    ddot (X + Y + Z) (X + Y + Z) ≤ 3 * (ddot X X + ddot Y Y + ddot Z Z) := by
  simp only [ddot, Matrix.add_apply, ← Finset.sum_add_distrib, Finset.mul_sum]
  refine Finset.sum_le_sum fun i _ => Finset.sum_le_sum fun j _ => ?_
  nlinarith [sq_nonneg (X i j - Y i j), sq_nonneg (Y i j - Z i j), sq_nonneg (X i j - Z i j)]

lemma ddot_mul_le (X Y : Matrix (Fin d) (Fin d) ℝ) : ddot (X * Yᵀ) (X * Yᵀ) ≤ ddot X X * ddot Y Y := by
  simp only [ddot, Matrix.mul_apply, Matrix.transpose_apply]
  rw [Finset.sum_mul]
  refine Finset.sum_le_sum fun i _ => ?_
  rw [Finset.mul_sum]
  refine Finset.sum_le_sum fun j _ => ?_
  have := Finset.sum_mul_sq_le_sq_mul_sq Finset.univ (fun k => X i k) (fun k => Y j k)
  simpa only [sq] using this

lemma ddot_transpose (X : Matrix (Fin d) (Fin d) ℝ) : ddot Xᵀ Xᵀ = ddot X X := by
  simp only [ddot, Matrix.transpose_apply]
  rw [Finset.sum_comm]

lemma ddot_mul_diag {G : Matrix (Fin d) (Fin d) ℝ} {a : Fin d → ℝ} {M : ℝ} (ha : ∀ i, 0 ≤ a i) (hM : ∀ i, a i ≤ M) :
    ddot (G * diagonal a) (G * diagonal a) ≤ M ^ 2 * ddot G G := by
  simp only [ddot, Matrix.mul_diagonal, Finset.mul_sum]
  refine Finset.sum_le_sum fun i _ => Finset.sum_le_sum fun j _ => ?_
  have h1 : a j ^ 2 ≤ M ^ 2 := pow_le_pow_left₀ (ha j) (hM j) 2
  nlinarith [mul_self_nonneg (G i j)]

section frame
variable {a b : Fin d → ℝ} {G C : Matrix (Fin d) (Fin d) ℝ}

/-- The second matrix in the frame of the first. -/
lemma frame_diff (hC : C * Cᵀ = 1) (hB : (1 + G) * diagonal a * (1 + G)ᵀ = C * diagonal b * Cᵀ) :
    G * diagonal a + diagonal a * Gᵀ + G * diagonal a * Gᵀ = C * diagonal b * Cᵀ - diagonal a := by
  rw [← hB, transpose_add, transpose_one]
  simp only [Matrix.add_mul, Matrix.mul_add, Matrix.one_mul, Matrix.mul_one]
  abel

lemma frame_entry (hC : C * Cᵀ = 1) (i j : Fin d) :
    ((C * diagonal b * Cᵀ - diagonal a) * C) i j = C i j * (b j - a i) := by
  have h : Cᵀ * C = 1 := mul_eq_one_comm.mp hC
  rw [Matrix.sub_mul, Matrix.mul_assoc, h, Matrix.mul_one, Matrix.sub_apply, Matrix.mul_diagonal, Matrix.diagonal_mul]
  ring

lemma frame_sq (hC : C * Cᵀ = 1) :
    ∑ i, ∑ j, C i j ^ 2 * (b j - a i) ^ 2 = ddot (C * diagonal b * Cᵀ - diagonal a) (C * diagonal b * Cᵀ - diagonal a) := by
  rw [← ddot_mul_orth hC]
  simp only [ddot, frame_entry hC]
  exact Finset.sum_congr rfl fun i _ => Finset.sum_congr rfl fun j _ => by ring

lemma frame_lin (hC : C * Cᵀ = 1) (h : Fin d → ℝ) :
    ∑ i, ∑ j, C i j ^ 2 * (h i * (b j - a i)) = ∑ i, h i * (C * diagonal b * Cᵀ - diagonal a) i i := by
  refine Finset.sum_congr rfl fun i _ => ?_
  have e : (C * diagonal b * Cᵀ - diagonal a) i i = (((C * diagonal b * Cᵀ - diagonal a) * C) * Cᵀ) i i := by
    rw [Matrix.mul_assoc _ C, hC, Matrix.mul_one]
  rw [e, Matrix.mul_apply, Finset.mul_sum]
  refine Finset.sum_congr rfl fun j _ => ?_
  rw [frame_entry hC, Matrix.transpose_apply]
  ring

lemma row_one (hC : C * Cᵀ = 1) (i : Fin d) : ∑ j, C i j ^ 2 = 1 := by
  have := congrFun (congrFun hC i) i
  rw [Matrix.mul_apply, Matrix.one_apply_eq] at this
  simpa only [Matrix.transpose_apply, ← sq] using this

lemma col_one (hC : C * Cᵀ = 1) (j : Fin d) : ∑ i, C i j ^ 2 = 1 := by
  have h : Cᵀ * C = 1 := mul_eq_one_comm.mp hC
  have := congrFun (congrFun h j) j
  rw [Matrix.mul_apply, Matrix.one_apply_eq] at this
  simpa only [Matrix.transpose_apply, ← sq] using this

/-- The trace inequality: second-order bounds for numbers are second-order bounds for matrices. -/
lemma frame_bound (hC : C * Cᵀ = 1) {f : ℝ → ℝ} {h : Fin d → ℝ} {c : ℝ}
    (hf : ∀ i j, |f (b j) - f (a i) - h i * (b j - a i)| ≤ c * (b j - a i) ^ 2) :
    |∑ j, f (b j) - ∑ i, f (a i) - ∑ i, h i * (C * diagonal b * Cᵀ - diagonal a) i i| ≤
      c * ddot (C * diagonal b * Cᵀ - diagonal a) (C * diagonal b * Cᵀ - diagonal a) := by
  have e1 : ∑ j, f (b j) = ∑ i, ∑ j, C i j ^ 2 * f (b j) := by
    rw [Finset.sum_comm]
    exact Finset.sum_congr rfl fun j _ => by rw [← Finset.sum_mul, col_one hC, one_mul]
  have e2 : ∑ i, f (a i) = ∑ i, ∑ j, C i j ^ 2 * f (a i) :=
    Finset.sum_congr rfl fun i _ => by rw [← Finset.sum_mul, row_one hC, one_mul]
  rw [← frame_lin hC, ← frame_sq hC, e1, e2]
  simp only [← Finset.sum_sub_distrib, Finset.mul_sum]
  refine (Finset.abs_sum_le_sum_abs _ _).trans (Finset.sum_le_sum fun i _ => ?_)
  refine (Finset.abs_sum_le_sum_abs _ _).trans (Finset.sum_le_sum fun j _ => ?_)
  rw [← mul_sub, ← mul_sub, abs_mul, abs_of_nonneg (sq_nonneg _)]
  calc _ ≤ C i j ^ 2 * (c * (b j - a i) ^ 2) := mul_le_mul_of_nonneg_left (hf i j) (sq_nonneg _)
    _ = _ := by ring

/-- The size of the change. -/
lemma frame_size {M : ℝ} (ha : ∀ i, 0 ≤ a i) (hM : ∀ i, a i ≤ M) (hG : ddot G G ≤ 1) :
    ddot (G * diagonal a + diagonal a * Gᵀ + G * diagonal a * Gᵀ) (G * diagonal a + diagonal a * Gᵀ + G * diagonal a * Gᵀ) ≤
      9 * M ^ 2 * ddot G G := by
  have h1 := ddot_mul_diag (G := G) ha hM
  have h2 : ddot (diagonal a * Gᵀ) (diagonal a * Gᵀ) ≤ M ^ 2 * ddot G G := by
    rw [← ddot_transpose, transpose_mul, transpose_transpose, diagonal_transpose]; exact h1
  have h0 : 0 ≤ ddot G G := ddot_self_nonneg G
  have h3 : ddot (G * diagonal a * Gᵀ) (G * diagonal a * Gᵀ) ≤ M ^ 2 * ddot G G := by
    refine (ddot_mul_le _ _).trans ?_
    refine (mul_le_mul_of_nonneg_right h1 h0).trans ?_
    have : 0 ≤ M ^ 2 * ddot G G := by positivity
    nlinarith
  have := ddot_add_three (G * diagonal a) (diagonal a * Gᵀ) (G * diagonal a * Gᵀ)
  linarith

/-- The linear part: `t i = h i * a i`. -/
lemma frame_trace (h : Fin d → ℝ) {c : ℝ} (hc : ∀ i j, |h i * a j| ≤ c) :
    |∑ i, h i * (G * diagonal a + diagonal a * Gᵀ + G * diagonal a * Gᵀ) i i - 2 * ∑ i, h i * a i * G i i| ≤ c * ddot G G := by
  have e : ∑ i, h i * (G * diagonal a + diagonal a * Gᵀ + G * diagonal a * Gᵀ) i i - 2 * ∑ i, h i * a i * G i i =
      ∑ i, ∑ j, h i * a j * (G i j * G i j) := by
    rw [Finset.mul_sum, ← Finset.sum_sub_distrib]
    refine Finset.sum_congr rfl fun i _ => ?_
    rw [Matrix.add_apply, Matrix.add_apply, Matrix.mul_diagonal, Matrix.diagonal_mul, Matrix.mul_apply, mul_add, Finset.mul_sum]
    simp only [Matrix.mul_diagonal, Matrix.transpose_apply]
    have : ∀ j, h i * (G i j * a j * G i j) = h i * a j * (G i j * G i j) := fun j => by ring
    simp only [this]
    ring
  rw [e, ddot]
  simp only [Finset.mul_sum]
  refine (Finset.abs_sum_le_sum_abs _ _).trans (Finset.sum_le_sum fun i _ => ?_)
  refine (Finset.abs_sum_le_sum_abs _ _).trans (Finset.sum_le_sum fun j _ => ?_)
  rw [abs_mul, abs_of_nonneg (mul_self_nonneg (G i j))]
  exact mul_le_mul_of_nonneg_right (hc i j) (mul_self_nonneg _)

/-- The change of a sum of logarithms. -/
lemma frame_log_sq (hC : C * Cᵀ = 1) {c : ℝ} (hc : 0 < c) (ha : ∀ i, c ≤ a i) (hb : ∀ i, c ≤ b i) :
    (∑ j, Real.log (b j) - ∑ i, Real.log (a i)) ^ 2 ≤
      d / c ^ 2 * ddot (C * diagonal b * Cᵀ - diagonal a) (C * diagonal b * Cᵀ - diagonal a) := by
  have e1 : ∑ j, Real.log (b j) - ∑ i, Real.log (a i) =
      ∑ x : Fin d × Fin d, C x.1 x.2 * (C x.1 x.2 * (Real.log (b x.2) - Real.log (a x.1))) := by
    rw [Fintype.sum_prod_type]
    have h1 : ∑ j, Real.log (b j) = ∑ i, ∑ j, C i j ^ 2 * Real.log (b j) := by
      rw [Finset.sum_comm]
      exact Finset.sum_congr rfl fun j _ => by rw [← Finset.sum_mul, col_one hC, one_mul]
    have h2 : ∑ i, Real.log (a i) = ∑ i, ∑ j, C i j ^ 2 * Real.log (a i) :=
      Finset.sum_congr rfl fun i _ => by rw [← Finset.sum_mul, row_one hC, one_mul]
    rw [h1, h2]
    simp only [← Finset.sum_sub_distrib]
    exact Finset.sum_congr rfl fun i _ => Finset.sum_congr rfl fun j _ => by ring
  have h1 := Finset.sum_mul_sq_le_sq_mul_sq Finset.univ (fun x : Fin d × Fin d => C x.1 x.2)
    (fun x => C x.1 x.2 * (Real.log (b x.2) - Real.log (a x.1)))
  have h2 : ∑ x : Fin d × Fin d, C x.1 x.2 ^ 2 = d := by
    rw [Fintype.sum_prod_type]
    simp [row_one hC]
  have h3 : ∑ x : Fin d × Fin d, (C x.1 x.2 * (Real.log (b x.2) - Real.log (a x.1))) ^ 2 ≤
      1 / c ^ 2 * ddot (C * diagonal b * Cᵀ - diagonal a) (C * diagonal b * Cᵀ - diagonal a) := by
    rw [Fintype.sum_prod_type, ← frame_sq hC]
    simp only [Finset.mul_sum]
    refine Finset.sum_le_sum fun i _ => Finset.sum_le_sum fun j _ => ?_
    have := mul_le_mul_of_nonneg_left (log_first hc (ha i) (hb j)) (sq_nonneg (C i j))
    calc _ = C i j ^ 2 * (Real.log (b j) - Real.log (a i)) ^ 2 := by ring
      _ ≤ _ := this
      _ = _ := by ring
  rw [e1]
  refine h1.trans ?_
  rw [h2]
  refine (mul_le_mul_of_nonneg_left h3 (Nat.cast_nonneg d)).trans (le_of_eq ?_)
  ring

end frame

/-- Second-order bounds for the logarithms of the stretches, in the frame of the principal directions: `σ` and `ς` are the
stretches before and after the displacement gradient `G`. -/
lemma frame_logs {σ ς : Fin d → ℝ} {G C : Matrix (Fin d) (Fin d) ℝ} {s : ℝ} (hC : C * Cᵀ = 1)
    (hB : (1 + G) * diagonal (fun i => σ i ^ 2) * (1 + G)ᵀ = C * diagonal (fun i => ς i ^ 2) * Cᵀ)
    (hσ : ∀ i, 0 < σ i) (hς : ∀ i, 0 < ς i) (h1 : ∀ i, |Real.log (σ i)| ≤ s) (h2 : ∀ i, |Real.log (ς i)| ≤ s)
    (hs : 0 ≤ s) (hG : ddot G G ≤ 1) :
    |∑ i, Real.log (ς i) ^ 2 - ∑ i, Real.log (σ i) ^ 2 - 2 * ∑ i, Real.log (σ i) * G i i| ≤
      (9 / 4 + 10 * s) * (Real.exp (8 * s) * ddot G G) ∧
    |(∑ i, Real.log (ς i) - ∑ i, Real.log (σ i)) ^ 2 / 2 +
        (∑ i, Real.log (σ i)) * (∑ i, Real.log (ς i) - ∑ i, Real.log (σ i) - ∑ i, G i i)| ≤
      (9 / 8 + 5 * s) * d * (Real.exp (8 * s) * ddot G G) ∧
    |∑ i, Real.log (ς i) - ∑ i, Real.log (σ i) - ∑ i, G i i| ≤ 5 * (Real.exp (8 * s) * ddot G G) := by
  set a : Fin d → ℝ := fun i => σ i ^ 2 with ha
  set b : Fin d → ℝ := fun i => ς i ^ 2 with hb
  set c := Real.exp (-2 * s) with hc
  set N := Real.exp (4 * s) with hN
  have hc0 : 0 < c := Real.exp_pos _
  have hcN : 1 / c ^ 2 = N := by
    rw [hc, hN, ← Real.exp_nat_mul, one_div, ← Real.exp_neg]; congr 1; push_cast; ring
  have hN1 : 1 ≤ N := Real.one_le_exp (by linarith)
  have hNN : Real.exp (8 * s) = N * N := by rw [hN, ← Real.exp_add]; congr 1; ring
  have hlo : ∀ {x : ℝ}, 0 < x → |Real.log x| ≤ s → c ≤ x ^ 2 ∧ x ^ 2 ≤ Real.exp (2 * s) := by
    intro x hx hl
    obtain ⟨l1, l2⟩ := abs_le.mp hl
    have e : x ^ 2 = Real.exp (2 * Real.log x) := by
      rw [mul_comm, Real.exp_mul, Real.exp_log hx]; norm_num
    rw [e]
    exact ⟨Real.exp_le_exp.mpr (by linarith), Real.exp_le_exp.mpr (by linarith)⟩
  have hac : ∀ i, c ≤ a i := fun i => (hlo (hσ i) (h1 i)).1
  have hbc : ∀ i, c ≤ b i := fun i => (hlo (hς i) (h2 i)).1
  have haM : ∀ i, a i ≤ Real.exp (2 * s) := fun i => (hlo (hσ i) (h1 i)).2
  have ha0 : ∀ i, 0 < a i := fun i => hc0.trans_le (hac i)
  have hla : ∀ i, Real.log (a i) = 2 * Real.log (σ i) := fun i => by rw [ha, Real.log_pow]; norm_num
  have hlb : ∀ i, Real.log (b i) = 2 * Real.log (ς i) := fun i => by rw [hb, Real.log_pow]; norm_num
  have hl : ∀ i, |Real.log (a i)| ≤ 2 * s := fun i => by
    rw [hla, abs_mul, abs_two]; linarith [h1 i]
  have hg0 : 0 ≤ ddot G G := ddot_self_nonneg G
  set D := G * diagonal a + diagonal a * Gᵀ + G * diagonal a * Gᵀ with hD
  have hDB : D = C * diagonal b * Cᵀ - diagonal a := frame_diff hC hB
  have hDs : ddot D D ≤ 9 * N * ddot G G := by
    have := frame_size (a := a) (G := G) (fun i => (ha0 i).le) haM hG
    rw [← Real.exp_nat_mul] at this
    rw [hN, show (4 * s) = ((2 : ℕ) : ℝ) * (2 * s) by push_cast; ring]
    exact this
  have hratio : ∀ i j, (a i)⁻¹ * a j ≤ N := by
    intro i j
    have h3 : (a i)⁻¹ ≤ Real.exp (2 * s) := by
      rw [show (2 : ℝ) * s = -(-2 * s) by ring, Real.exp_neg]
      exact inv_anti₀ hc0 (hac i)
    calc _ ≤ Real.exp (2 * s) * Real.exp (2 * s) :=
          mul_le_mul h3 (haM j) (ha0 j).le (Real.exp_pos _).le
      _ = N := by rw [hN, ← Real.exp_add]; congr 1; ring
  have hpos : ∀ i j, 0 ≤ (a i)⁻¹ * a j := fun i j => mul_nonneg (inv_nonneg.mpr (ha0 i).le) (ha0 j).le
  -- the squares of the logarithms
  have q1 := frame_bound (a := a) (b := b) (f := fun x => Real.log x ^ 2) (h := fun i => 2 * Real.log (a i) * (a i)⁻¹)
    (c := (1 + 2 * (2 * s)) / c ^ 2) hC fun i j => log_sq_second hc0 (hac i) (hbc j) (hl i)
  have q2 := frame_trace (a := a) (G := G) (fun i => 2 * Real.log (a i) * (a i)⁻¹) (c := 4 * s * N) (by
    intro i j
    rw [mul_assoc, abs_mul, abs_mul, abs_two, abs_of_nonneg (hpos i j)]
    have := hl i
    exact mul_le_mul (by linarith) (hratio i j) (hpos i j) (by linarith))
  -- the logarithms
  have q3 := frame_bound (a := a) (b := b) (f := fun x => Real.log x) (h := fun i => (a i)⁻¹) (c := 1 / c ^ 2) hC (by
    intro i j
    refine (log_second (ha0 i) (hc0.trans_le (hbc j))).trans ?_
    rw [one_div, inv_mul_eq_div]
    refine div_le_div_of_nonneg_left (sq_nonneg _) (by positivity) ?_
    rw [sq]; exact mul_le_mul (hac i) (hbc j) hc0.le (ha0 i).le)
  have q4 := frame_trace (a := a) (G := G) (fun i => (a i)⁻¹) (c := N) (by
    intro i j
    rw [abs_of_nonneg (hpos i j)]; exact hratio i j)
  have q5 := frame_log_sq hC hc0 hac hbc
  rw [← hDB] at q1 q3 q5
  rw [← hD] at q2 q4
  have e1 : ∑ i, 2 * Real.log (a i) * (a i)⁻¹ * a i * G i i = 4 * ∑ i, Real.log (σ i) * G i i := by
    rw [Finset.mul_sum]
    refine Finset.sum_congr rfl fun i _ => ?_
    have := (ha0 i).ne'
    rw [hla]; field_simp; ring
  have e2 : ∑ i, (a i)⁻¹ * a i * G i i = ∑ i, G i i :=
    Finset.sum_congr rfl fun i _ => by rw [inv_mul_cancel₀ (ha0 i).ne', one_mul]
  have e3 : (1 + 2 * (2 * s)) / c ^ 2 = (1 + 4 * s) * N := by rw [← hcN]; ring
  have e4 : (d : ℝ) / c ^ 2 = d * N := by rw [← hcN]; ring
  rw [e1] at q2
  rw [e2] at q4
  rw [e3] at q1
  rw [hcN] at q3
  rw [e4] at q5
  have e5 : ∑ j, Real.log (b j) = 2 * ∑ j, Real.log (ς j) := by rw [Finset.mul_sum]; simp only [hlb]
  have e6 : ∑ j, Real.log (a j) = 2 * ∑ j, Real.log (σ j) := by rw [Finset.mul_sum]; simp only [hla]
  have e7 : ∑ j, Real.log (b j) ^ 2 = 4 * ∑ j, Real.log (ς j) ^ 2 := by
    rw [Finset.mul_sum]; simp only [hlb]; exact Finset.sum_congr rfl fun i _ => by ring
  have e8 : ∑ j, Real.log (a j) ^ 2 = 4 * ∑ j, Real.log (σ j) ^ 2 := by
    rw [Finset.mul_sum]; simp only [hla]; exact Finset.sum_congr rfl fun i _ => by ring
  simp only [e5, e6, e7, e8] at q1 q3 q5
  have hSσ : |∑ j, Real.log (σ j)| ≤ d * s := by
    refine (Finset.abs_sum_le_sum_abs _ _).trans ((Finset.sum_le_sum fun i _ => h1 i).trans ?_)
    simp
  rw [hNN]
  generalize ∑ j, Real.log (σ j) = L at *
  generalize ∑ j, Real.log (ς j) = L' at *
  generalize ∑ j, Real.log (σ j) ^ 2 = Q at *
  generalize ∑ j, Real.log (ς j) ^ 2 = Q' at *
  generalize ∑ i, Real.log (σ i) * G i i = T at *
  generalize ∑ i, G i i = t at *
  generalize ∑ i, 2 * Real.log (a i) * (a i)⁻¹ * D i i = z at *
  generalize ∑ i, (a i)⁻¹ * D i i = y at *
  have hNg : N * ddot G G ≤ N * N * ddot G G := by
    have : 0 ≤ N * ddot G G := by positivity
    nlinarith
  have r1 : |Q' - Q - 2 * T| ≤ (9 / 4 + 10 * s) * (N * N * ddot G G) := by
    have u1 : (1 + 4 * s) * N * ddot D D ≤ (1 + 4 * s) * (9 * (N * N * ddot G G)) := by
      have := mul_le_mul_of_nonneg_left hDs (show 0 ≤ (1 + 4 * s) * N by positivity)
      linarith
    have u2 : 4 * s * N * ddot G G ≤ 4 * s * (N * N * ddot G G) := by
      have := mul_le_mul_of_nonneg_left hNg (show 0 ≤ 4 * s by positivity)
      linarith
    have v1 := abs_le.mp q1
    have v2 := abs_le.mp q2
    rw [abs_le]
    constructor <;> linarith [v1.1, v1.2, v2.1, v2.2]
  have r2 : |2 * (L' - L) - 2 * t| ≤ 10 * (N * N * ddot G G) := by
    have u1 : N * ddot D D ≤ 9 * (N * N * ddot G G) := by
      have := mul_le_mul_of_nonneg_left hDs (show 0 ≤ N by positivity)
      linarith
    have v1 := abs_le.mp q3
    have v2 := abs_le.mp q4
    rw [abs_le]
    constructor <;> linarith [v1.1, v1.2, v2.1, v2.2]
  have r3 : (2 * (L' - L)) ^ 2 ≤ 9 * d * (N * N * ddot G G) := by
    have := mul_le_mul_of_nonneg_left hDs (show 0 ≤ d * N by positivity)
    calc _ = (2 * L' - 2 * L) ^ 2 := by ring
      _ ≤ _ := q5
      _ ≤ _ := this
      _ = _ := by ring
  set X := N * N * ddot G G with hX
  have hX0 : 0 ≤ X := by positivity
  have r6 : |L' - L - t| ≤ 5 * X := by
    have : L' - L - t = (2 * (L' - L) - 2 * t) / 2 := by ring
    rw [this, abs_div, abs_two]
    linarith
  have r4 : |L * (L' - L - t)| ≤ d * s * (5 * X) := by
    rw [abs_mul]
    exact mul_le_mul hSσ r6 (abs_nonneg _) (by positivity)
  have r5 : |(L' - L) ^ 2 / 2 + L * (L' - L - t)| ≤ (9 / 8 + 5 * s) * d * X := by
    refine (abs_add_le _ _).trans ?_
    rw [abs_of_nonneg (by positivity)]
    linarith
  exact ⟨r1, r5, r6⟩

/-- The bound for the energy of Hencky elasticity. -/
lemma frame_energy {σ ς : Fin d → ℝ} {G C : Matrix (Fin d) (Fin d) ℝ} {lam mu s : ℝ} (hmu : 0 ≤ mu) (hC : C * Cᵀ = 1)
    (hB : (1 + G) * diagonal (fun i => σ i ^ 2) * (1 + G)ᵀ = C * diagonal (fun i => ς i ^ 2) * Cᵀ)
    (hσ : ∀ i, 0 < σ i) (hς : ∀ i, 0 < ς i) (h1 : ∀ i, |Real.log (σ i)| ≤ s) (h2 : ∀ i, |Real.log (ς i)| ≤ s)
    (hs : 0 ≤ s) (hG : ddot G G ≤ 1) :
    |henckyEnergy lam mu ς - henckyEnergy lam mu σ -
        ∑ i, (lam * ∑ j, Real.log (σ j) + 2 * mu * Real.log (σ i)) * G i i| ≤
      (9 / 4 + 10 * s) * (mu + d * |lam| / 2) * Real.exp (8 * s) * ddot G G := by
  obtain ⟨r1, r5, -⟩ := frame_logs hC hB hσ hς h1 h2 hs hG
  have et : ∑ i, (lam * ∑ j, Real.log (σ j) + 2 * mu * Real.log (σ i)) * G i i =
      lam * (∑ j, Real.log (σ j)) * ∑ i, G i i + 2 * mu * ∑ i, Real.log (σ i) * G i i := by
    generalize ∑ j, Real.log (σ j) = L
    rw [Finset.mul_sum, Finset.mul_sum, ← Finset.sum_add_distrib]
    exact Finset.sum_congr rfl fun i _ => by ring
  rw [et, henckyEnergy, henckyEnergy]
  generalize ∑ j, Real.log (σ j) = L at *
  generalize ∑ j, Real.log (ς j) = L' at *
  generalize ∑ j, Real.log (σ j) ^ 2 = Q at *
  generalize ∑ j, Real.log (ς j) ^ 2 = Q' at *
  generalize ∑ i, Real.log (σ i) * G i i = T at *
  generalize ∑ i, G i i = t at *
  set X := Real.exp (8 * s) * ddot G G with hX
  have e9 : mu * Q' + lam / 2 * L' ^ 2 - (mu * Q + lam / 2 * L ^ 2) - (lam * L * t + 2 * mu * T) =
      mu * (Q' - Q - 2 * T) + lam * ((L' - L) ^ 2 / 2 + L * (L' - L - t)) := by ring
  rw [e9]
  refine (abs_add_le _ _).trans ?_
  rw [abs_mul, abs_mul, abs_of_nonneg hmu]
  have w1 := mul_le_mul_of_nonneg_left r1 hmu
  have w2 := mul_le_mul_of_nonneg_left r5 (abs_nonneg lam)
  have e10 : (9 / 4 + 10 * s) * (mu + d * |lam| / 2) * Real.exp (8 * s) * ddot G G =
      mu * ((9 / 4 + 10 * s) * X) + |lam| * ((9 / 8 + 5 * s) * d * X) := by rw [hX]; ring
  rw [e10]
  linarith

/-- The bound for the energy of neo-Hookean elasticity. -/
lemma frame_neo {σ ς : Fin d → ℝ} {G C : Matrix (Fin d) (Fin d) ℝ} {lam mu s : ℝ} (hmu : 0 ≤ mu) (hC : C * Cᵀ = 1)
    (hB : (1 + G) * diagonal (fun i => σ i ^ 2) * (1 + G)ᵀ = C * diagonal (fun i => ς i ^ 2) * Cᵀ)
    (hσ : ∀ i, 0 < σ i) (hς : ∀ i, 0 < ς i) (h1 : ∀ i, |Real.log (σ i)| ≤ s) (h2 : ∀ i, |Real.log (ς i)| ≤ s)
    (hs : 0 ≤ s) (hG : ddot G G ≤ 1) :
    |(mu / 2 * ∑ i, (ς i ^ 2 - 1) - mu * ∑ i, Real.log (ς i) + lam / 2 * (∑ i, Real.log (ς i)) ^ 2) -
      (mu / 2 * ∑ i, (σ i ^ 2 - 1) - mu * ∑ i, Real.log (σ i) + lam / 2 * (∑ i, Real.log (σ i)) ^ 2) -
        ∑ i, (mu * (σ i ^ 2 - 1) + lam * ∑ j, Real.log (σ j)) * G i i| ≤
      (11 / 2 * mu + (9 / 8 + 5 * s) * d * |lam|) * Real.exp (8 * s) * ddot G G := by
  obtain ⟨-, r5, r6⟩ := frame_logs hC hB hσ hς h1 h2 hs hG
  have htr : ∑ i, ς i ^ 2 = ∑ i, σ i ^ 2 + 2 * ∑ i, σ i ^ 2 * G i i + ∑ i, ∑ j, σ j ^ 2 * (G i j * G i j) := by
    have e1 := congrArg Matrix.trace hB
    have hCC : Cᵀ * C = 1 := mul_eq_one_comm.mp hC
    rw [Matrix.trace_mul_comm (C * _), ← Matrix.mul_assoc, hCC, Matrix.one_mul, Matrix.trace_diagonal] at e1
    rw [← e1, transpose_add, transpose_one]
    simp only [Matrix.add_mul, Matrix.mul_add, Matrix.one_mul, Matrix.mul_one, Matrix.trace_add, Matrix.trace_diagonal]
    have t1 : (G * diagonal fun i => σ i ^ 2).trace = ∑ i, σ i ^ 2 * G i i :=
      Finset.sum_congr rfl fun i _ => by rw [Matrix.diag_apply, Matrix.mul_diagonal, mul_comm]
    have t2 : ((diagonal fun i => σ i ^ 2) * Gᵀ).trace = ∑ i, σ i ^ 2 * G i i :=
      Finset.sum_congr rfl fun i _ => by rw [Matrix.diag_apply, Matrix.diagonal_mul, Matrix.transpose_apply]
    have t3 : ((G * diagonal fun i => σ i ^ 2) * Gᵀ).trace = ∑ i, ∑ j, σ j ^ 2 * (G i j * G i j) :=
      Finset.sum_congr rfl fun i _ => by
        rw [Matrix.diag_apply, Matrix.mul_apply]
        exact Finset.sum_congr rfl fun j _ => by rw [Matrix.mul_diagonal, Matrix.transpose_apply]; ring
    rw [t1, t2, t3]
    ring
  have hlo : ∀ i, σ i ^ 2 ≤ Real.exp (8 * s) := fun i => by
    have e : σ i ^ 2 = Real.exp (2 * Real.log (σ i)) := by
      rw [mul_comm, Real.exp_mul, Real.exp_log (hσ i)]; norm_num
    rw [e]
    exact Real.exp_le_exp.mpr (by linarith [(abs_le.mp (h1 i)).2])
  have hZ : 0 ≤ ∑ i, ∑ j, σ j ^ 2 * (G i j * G i j) ∧ ∑ i, ∑ j, σ j ^ 2 * (G i j * G i j) ≤ Real.exp (8 * s) * ddot G G := by
    constructor
    · exact Finset.sum_nonneg fun i _ => Finset.sum_nonneg fun j _ => mul_nonneg (sq_nonneg _) (mul_self_nonneg _)
    · simp only [ddot, Finset.mul_sum]
      exact Finset.sum_le_sum fun i _ => Finset.sum_le_sum fun j _ => mul_le_mul_of_nonneg_right (hlo j) (mul_self_nonneg _)
  have et : ∑ i, (mu * (σ i ^ 2 - 1) + lam * ∑ j, Real.log (σ j)) * G i i =
      mu * ∑ i, σ i ^ 2 * G i i - mu * ∑ i, G i i + lam * (∑ j, Real.log (σ j)) * ∑ i, G i i := by
    generalize ∑ j, Real.log (σ j) = L
    rw [Finset.mul_sum, Finset.mul_sum, Finset.mul_sum, ← Finset.sum_sub_distrib, ← Finset.sum_add_distrib]
    exact Finset.sum_congr rfl fun i _ => by ring
  rw [et, Finset.sum_sub_distrib, Finset.sum_sub_distrib, htr]
  generalize ∑ j, Real.log (σ j) = L at *
  generalize ∑ j, Real.log (ς j) = L' at *
  generalize ∑ i, σ i ^ 2 * G i i = T at *
  generalize ∑ i, σ i ^ 2 = A at *
  generalize ∑ i, G i i = t at *
  generalize ∑ i, ∑ j, σ j ^ 2 * (G i j * G i j) = Z at *
  set X := Real.exp (8 * s) * ddot G G with hX
  have e9 : mu / 2 * (A + 2 * T + Z - ∑ i : Fin d, (1 : ℝ)) - mu * L' + lam / 2 * L' ^ 2 -
      (mu / 2 * (A - ∑ i : Fin d, (1 : ℝ)) - mu * L + lam / 2 * L ^ 2) - (mu * T - mu * t + lam * L * t) =
      mu * (Z / 2 - (L' - L - t)) + lam * ((L' - L) ^ 2 / 2 + L * (L' - L - t)) := by ring
  rw [e9]
  refine (abs_add_le _ _).trans ?_
  rw [abs_mul, abs_mul, abs_of_nonneg hmu]
  have r7 : |Z / 2 - (L' - L - t)| ≤ 11 / 2 * X := by
    obtain ⟨v1, v2⟩ := abs_le.mp r6
    rw [abs_le]
    constructor <;> linarith [hZ.1, hZ.2]
  have w1 := mul_le_mul_of_nonneg_left r7 hmu
  have w2 := mul_le_mul_of_nonneg_left r5 (abs_nonneg lam)
  have e10 : (11 / 2 * mu + (9 / 8 + 5 * s) * d * |lam|) * Real.exp (8 * s) * ddot G G =
      mu * (11 / 2 * X) + |lam| * ((9 / 8 + 5 * s) * d * X) := by rw [hX]; ring
  rw [e10]
  linarith

end Verif.Props
