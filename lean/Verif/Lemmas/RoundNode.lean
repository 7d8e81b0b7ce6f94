import Verif.Model.RoundStep
import Verif.Lemmas.RoundStep

set_option linter.unusedSectionVars false
set_option linter.unusedSimpArgs false
set_option linter.unusedVariables false

/-!
# Rounding errors of a step: nodes and sums

Bookkeeping for C119: sums over nodes of what particles contribute, and the rounding errors of the update of a node.
-/

namespace Verif
variable {d : ℕ} {u : ℝ} {fl : ℝ → ℝ}

/-! ### Scatter and gather -/

section gather
variable {ι : Type*} [Fintype ι]

open Classical in
/-- The sum of what the live contributions to node `l` carry. -/
noncomputable def atNode (live : ι → Prop) (L : ι → ℕ) (F : ι → ℝ) (l : ℕ) : ℝ := ∑ j, if live j ∧ L j = l then F j else 0

variable {live : ι → Prop} {L : ι → ℕ}

open Classical in
lemma sum_atNode {R : ℕ} (hL : ∀ j, L j < R) (F : ι → ℝ) (h : ℕ → ℝ) :
    ∑ l ∈ Finset.range R, h l * atNode live L F l = ∑ j, if live j then h (L j) * F j else 0 := by
  simp only [atNode, Finset.mul_sum]
  rw [Finset.sum_comm]
  refine Finset.sum_congr rfl fun j _ => ?_
  rw [Finset.sum_eq_single (L j) (fun l _ hne => by rw [if_neg fun h' => hne h'.2.symm, mul_zero])
    (fun hc => absurd (Finset.mem_range.mpr (hL j)) hc)]
  by_cases hl : live j <;> simp [hl]

lemma atNode_add (F G : ι → ℝ) (l : ℕ) : atNode live L (fun j => F j + G j) l = atNode live L F l + atNode live L G l := by
  classical
  simp only [atNode]
  rw [← Finset.sum_add_distrib]
  exact Finset.sum_congr rfl fun j _ => by split_ifs <;> simp

lemma atNode_smul (c : ℝ) (F : ι → ℝ) (l : ℕ) : atNode live L (fun j => c * F j) l = c * atNode live L F l := by
  classical
  simp only [atNode]
  rw [Finset.mul_sum]
  exact Finset.sum_congr rfl fun j _ => by split_ifs <;> simp

lemma atNode_mono {F G : ι → ℝ} (h : ∀ j, live j → F j ≤ G j) (l : ℕ) : atNode live L F l ≤ atNode live L G l := by
  classical
  refine Finset.sum_le_sum fun j _ => ?_
  split_ifs with hj
  · exact h j hj.1
  · exact le_rfl

lemma atNode_abs (F : ι → ℝ) (l : ℕ) : |atNode live L F l| ≤ atNode live L (fun j => |F j|) l := by
  classical
  refine (Finset.abs_sum_le_sum_abs _ _).trans (Finset.sum_le_sum fun j _ => ?_)
  split_ifs <;> simp

lemma atNode_zero {w F : ι → ℝ} (hw : ∀ j, live j → 0 < w j) {l : ℕ} (h : atNode live L w l = 0) : atNode live L F l = 0 := by
  classical
  have h1 : ∀ j ∈ Finset.univ, (if live j ∧ L j = l then w j else 0) = 0 := by
    refine (Finset.sum_eq_zero_iff_of_nonneg fun j _ => ?_).mp h
    split_ifs with hj
    · exact (hw j hj.1).le
    · exact le_rfl
  refine Finset.sum_eq_zero fun j hj => if_neg fun hc => ?_
  have := h1 j hj
  rw [if_pos hc] at this
  exact (hw j hc.1).ne' this

open Classical in
/-- Interpolating nodal values that are, up to a relative error `δ`, the means of what the contributions carry. -/
lemma gather {R : ℕ} {w φ ψ α : ι → ℝ} {f : ℕ → ℝ} {M D Z γ δ η : ℝ} (hL : ∀ j, L j < R) (hw0 : ∀ j, 0 ≤ w j)
    (hw : ∀ j, live j → 0 < w j) (hM : 0 ≤ M) (hD : 0 ≤ D) (hZ : 0 ≤ Z) (hφ : ∀ j, live j → |φ j| ≤ M * w j) (hψ : ∀ j, |ψ j| ≤ α j)
    (hα : ∀ j, live j → D * α j ≤ Z * w j) (hδ0 : 0 ≤ δ) (hδ : δ ≤ 2)
    (hf0 : ∀ l, atNode live L w l = 0 → f l = 0)
    (hf : ∀ l, 0 < atNode live L w l → |f l - ((atNode live L φ l - D * atNode live L ψ l) / atNode live L w l + γ)| ≤
      δ * (M + D * atNode live L α l / atNode live L w l + |γ|))
    (hη : (∑ j, if live j then 0 else w j) ≤ η) :
    |∑ j, f (L j) * w j - ∑ j, (if live j then φ j - D * ψ j + γ * w j else 0)| ≤
      δ * (∑ j, if live j then M * w j + D * α j + |γ| * w j else 0) + 3 * (M + Z + |γ|) * η ∧
    ∑ j, |f (L j)| * w j ≤ 3 * (∑ j, if live j then M * w j + D * α j + |γ| * w j else 0) + 3 * (M + Z + |γ|) * η := by
  have hα0 : ∀ j, 0 ≤ α j := fun j => (abs_nonneg _).trans (hψ j)
  have hW0 : ∀ l, 0 ≤ atNode live L w l := fun l => Finset.sum_nonneg fun j _ => by split_ifs <;> [exact hw0 j; exact le_rfl]
  set Bn : ι → ℝ := fun j => M * w j + D * α j + |γ| * w j with hBn
  set id' : ι → ℝ := fun j => φ j - D * ψ j + γ * w j with hid
  have eB : ∀ l, atNode live L Bn l = M * atNode live L w l + D * atNode live L α l + |γ| * atNode live L w l := by
    intro l
    rw [hBn, atNode_add (fun j => M * w j + D * α j), atNode_add (fun j => M * w j), atNode_smul, atNode_smul, atNode_smul]
  have eI : ∀ l, atNode live L id' l = atNode live L φ l - D * atNode live L ψ l + γ * atNode live L w l := by
    intro l
    have e1 : id' = fun j => (φ j + (-D) * ψ j) + γ * w j := by funext j; simp only [hid]; ring
    rw [e1, atNode_add (fun j => φ j + (-D) * ψ j), atNode_add φ, atNode_smul, atNode_smul]
    ring
  -- per node
  have hI : ∀ l, |f l * atNode live L w l - atNode live L id' l| ≤ δ * atNode live L Bn l := by
    intro l
    rcases (hW0 l).eq_or_lt with h | h
    · rw [← h, atNode_zero hw h.symm, atNode_zero hw h.symm]; simp
    · have h1 := mul_le_mul_of_nonneg_right (hf l h) h.le
      rw [← abs_of_pos h, ← abs_mul, abs_of_pos h] at h1
      have e1 : (f l - ((atNode live L φ l - D * atNode live L ψ l) / atNode live L w l + γ)) * atNode live L w l =
          f l * atNode live L w l - atNode live L id' l := by rw [eI]; field_simp
      have e2 : δ * (M + D * atNode live L α l / atNode live L w l + |γ|) * atNode live L w l = δ * atNode live L Bn l := by
        rw [eB]; field_simp
      rw [e1, e2] at h1
      exact h1
  have hIB : ∀ l, |atNode live L id' l| ≤ atNode live L Bn l := by
    intro l
    refine (atNode_abs _ l).trans (atNode_mono (fun j hj => ?_) l)
    have h1 := hφ j hj
    have h2 : |D * ψ j| ≤ D * α j := by rw [abs_mul, abs_of_nonneg hD]; exact mul_le_mul_of_nonneg_left (hψ j) hD
    have h3 : |γ * w j| = |γ| * w j := by rw [abs_mul, abs_of_nonneg (hw0 j)]
    have h4 := abs_add_le (φ j - D * ψ j) (γ * w j)
    have h5 := abs_sub (φ j) (D * ψ j)
    simp only [hid, hBn]
    linarith
  have hfW : ∀ l, |f l| * atNode live L w l ≤ 3 * atNode live L Bn l := by
    intro l
    have h1 := hI l
    have h2 := hIB l
    have h3 := abs_add_le (f l * atNode live L w l - atNode live L id' l) (atNode live L id' l)
    rw [sub_add_cancel, abs_mul, abs_of_nonneg (hW0 l)] at h3
    have h4 : δ * atNode live L Bn l ≤ 2 * atNode live L Bn l := mul_le_mul_of_nonneg_right hδ ((abs_nonneg _).trans h2)
    linarith
  have hmax : ∀ l, |f l| ≤ 3 * (M + Z + |γ|) := by
    intro l
    rcases (hW0 l).eq_or_lt with h | h
    · rw [hf0 l h.symm, abs_zero]; positivity
    · have h1 := hfW l
      rw [eB] at h1
      have h2 : D * atNode live L α l ≤ Z * atNode live L w l := by
        rw [← atNode_smul, ← atNode_smul]; exact atNode_mono hα l
      by_contra hc
      have := mul_lt_mul_of_pos_right (not_le.mp hc) h
      nlinarith
  -- live and dead
  have hsplit : ∀ F : ι → ℝ, ∑ j, F j = (∑ j, if live j then F j else 0) + ∑ j, if live j then 0 else F j := by
    intro F
    rw [← Finset.sum_add_distrib]
    exact Finset.sum_congr rfl fun j _ => by split_ifs <;> simp
  have hdead : (∑ j, if live j then 0 else |f (L j)| * w j) ≤ 3 * (M + Z + |γ|) * η := by
    refine le_trans ?_ (mul_le_mul_of_nonneg_left hη (by positivity))
    rw [Finset.mul_sum]
    refine Finset.sum_le_sum fun j _ => ?_
    split_ifs
    · simp
    · exact mul_le_mul_of_nonneg_right (hmax _) (hw0 j)
  have hT : ∑ l ∈ Finset.range R, atNode live L Bn l = ∑ j, if live j then Bn j else 0 := by
    have := sum_atNode (live := live) hL Bn fun _ => 1
    simpa using this
  have hT2 : ∑ l ∈ Finset.range R, atNode live L id' l = ∑ j, if live j then id' j else 0 := by
    have := sum_atNode (live := live) hL id' fun _ => 1
    simpa using this
  constructor
  · rw [hsplit fun j => f (L j) * w j, ← sum_atNode hL w f]
    change |_ - ∑ j, (if live j then id' j else 0)| ≤ δ * (∑ j, if live j then Bn j else 0) + _
    rw [← hT2, ← hT]
    have h1 : |∑ l ∈ Finset.range R, f l * atNode live L w l - ∑ l ∈ Finset.range R, atNode live L id' l| ≤
        δ * ∑ l ∈ Finset.range R, atNode live L Bn l := by
      rw [← Finset.sum_sub_distrib, Finset.mul_sum]
      exact (Finset.abs_sum_le_sum_abs _ _).trans (Finset.sum_le_sum fun l _ => hI l)
    have h2 : |∑ j, (if live j then 0 else f (L j) * w j)| ≤ ∑ j, if live j then 0 else |f (L j)| * w j := by
      refine (Finset.abs_sum_le_sum_abs _ _).trans (Finset.sum_le_sum fun j _ => ?_)
      split_ifs
      · simp
      · rw [abs_mul, abs_of_nonneg (hw0 j)]
    have h3 := abs_add_le (∑ l ∈ Finset.range R, f l * atNode live L w l - ∑ l ∈ Finset.range R, atNode live L id' l)
      (∑ j, if live j then 0 else f (L j) * w j)
    have e1 : ∑ l ∈ Finset.range R, f l * atNode live L w l + ∑ j, (if live j then 0 else f (L j) * w j) -
      ∑ l ∈ Finset.range R, atNode live L id' l = (∑ l ∈ Finset.range R, f l * atNode live L w l -
      ∑ l ∈ Finset.range R, atNode live L id' l) + ∑ j, (if live j then 0 else f (L j) * w j) := by ring
    rw [e1]
    linarith
  · rw [hsplit fun j => |f (L j)| * w j, ← sum_atNode hL w fun l => |f l|]
    change _ ≤ 3 * (∑ j, if live j then Bn j else 0) + _
    rw [← hT]
    have h1 : ∑ l ∈ Finset.range R, |f l| * atNode live L w l ≤ 3 * ∑ l ∈ Finset.range R, atNode live L Bn l := by
      rw [Finset.mul_sum]
      exact Finset.sum_le_sum fun l _ => hfW l
    linarith

end gather

/-! ### The update of a node -/

/-- `fl x` in terms of what is known about `x`. -/
lemma fl_step (hr : Rounding u fl) {x y E B κ : ℝ} (hκ : 2 * u ≤ κ) (h : |x - y| ≤ E) (hB : |y| ≤ B) :
    |fl x - y| ≤ E + κ / 2 * (E + B) := by
  have h1 := hr.err x
  have h2 := abs_add_le (fl x - x) (x - y)
  have h3 := abs_add_le (x - y) y
  rw [sub_add_sub_cancel] at h2
  rw [sub_add_cancel] at h3
  have h4 : u * |x| ≤ κ / 2 * (E + B) := mul_le_mul (by linarith) (by linarith) (abs_nonneg _) (by linarith [hr.nonneg])
  linarith

/-- The rounding errors of `explicitEulerUpdate`. -/
lemma euler_err (hr : Rounding u fl) {κ S V Φ A M v F mi mp dt vol grav : ℝ} (hκ2 : 2 * u ≤ κ) (hκ : κ ≤ 1 / 10) (hS : 0 < S)
    (hmp : 0 < mp) (hdt : 0 ≤ dt) (hvol : 0 ≤ vol) (hv : |v - V / S| ≤ 6 * κ * M) (hV : |V| ≤ M * S) (hmi : |mi - S * mp| ≤ 2 * κ * (S * mp))
    (hF : |F - Φ| ≤ 6 * κ * A) (hΦ : |Φ| ≤ A) :
    |fl (v + incrementFl fl vol dt grav mi F) - ((V - dt * vol / mp * Φ) / S + dt * grav)| ≤
      20 * κ * (M + dt * vol / mp * A / S + |dt * grav|) ∧
    |fl (fl (v + incrementFl fl vol dt grav mi F) - v) - ((0 - dt * vol / mp * Φ) / S + dt * grav)| ≤
      20 * κ * (M + dt * vol / mp * A / S + |dt * grav|) := by
  have hu := hr.nonneg
  have hus := hr.small
  have hκ0 : 0 ≤ κ := by linarith
  have hA0 : 0 ≤ A := (abs_nonneg _).trans hΦ
  have hM0 : 0 ≤ M := by
    by_contra hc
    have := mul_neg_of_neg_of_pos (not_le.mp hc) hS
    linarith [abs_nonneg V]
  set C := dt * vol with hC
  have hC0 : 0 ≤ C := mul_nonneg hdt hvol
  have hCA : 0 ≤ C * A := by positivity
  set γ := dt * grav
  -- the force
  have s1 : |fl C - C| ≤ u * C := by have := hr.err C; rwa [abs_of_nonneg hC0] at this
  have s1' : |fl C| ≤ 1001 / 1000 * C := by
    have := abs_add_le (fl C - C) C
    rw [sub_add_cancel, abs_of_nonneg hC0] at this
    nlinarith
  have s2 : |-fl C * F - -(C * Φ)| ≤ 7 * κ * (C * A) := by
    have e1 : -fl C * F - -(C * Φ) = -(fl C * (F - Φ)) + -((fl C - C) * Φ) := by ring
    rw [e1]
    refine (abs_add_le _ _).trans ?_
    rw [abs_neg, abs_neg, abs_mul, abs_mul]
    have a1 := mul_le_mul s1' hF (abs_nonneg _) (by positivity)
    have a2 := mul_le_mul s1 hΦ (abs_nonneg _) (by positivity)
    have a3 : u * (C * A) ≤ κ / 2 * (C * A) := mul_le_mul_of_nonneg_right (by linarith) hCA
    have a4 : 0 ≤ κ * (C * A) := by positivity
    nlinarith
  have bΦ : |-(C * Φ)| ≤ C * A := by rw [abs_neg, abs_mul, abs_of_nonneg hC0]; exact mul_le_mul_of_nonneg_left hΦ hC0
  have s3 := fl_step hr hκ2 s2 bΦ
  set x2 := fl (-fl C * F)
  have s3' : |x2 - -(C * Φ)| ≤ 8 * κ * (C * A) := by
    refine s3.trans ?_
    have a4 : 0 ≤ κ * (C * A) := by positivity
    have a5 : κ * (κ * (C * A)) ≤ 1 / 10 * (κ * (C * A)) := mul_le_mul_of_nonneg_right hκ a4
    nlinarith
  -- the division
  have hSm : 0 < S * mp := by positivity
  have hmi0 : 8 / 10 * (S * mp) ≤ mi := by
    have := (abs_le.mp hmi).1
    nlinarith
  have hmip : 0 < mi := by nlinarith
  set Q := C / mp * A / S with hQ
  have hQ0 : 0 ≤ Q := by positivity
  have hQe : C * A = Q * (S * mp) := by rw [hQ]; field_simp
  set I := C / mp * Φ / S with hI
  have hIe : C * Φ = I * (S * mp) := by rw [hI]; field_simp
  have hIQ : |I| ≤ Q := by
    have : |I| * (S * mp) ≤ Q * (S * mp) := by
      rw [← hQe]
      rw [abs_neg, hIe, abs_mul, abs_of_pos hSm] at bΦ
      exact bΦ
    exact le_of_mul_le_mul_right this hSm
  have s4 : |x2 / mi - -I| ≤ 125 / 10 * κ * Q := by
    have e1 : x2 / mi - -I = ((x2 - -(C * Φ)) + I * (mi - S * mp)) / mi := by rw [hIe]; field_simp; ring
    rw [e1, abs_div, abs_of_pos hmip, div_le_iff₀ hmip]
    refine (abs_add_le _ _).trans ?_
    rw [abs_mul]
    have a1 := mul_le_mul hIQ hmi (abs_nonneg _) hQ0
    rw [hQe] at s3'
    have a2 := mul_le_mul_of_nonneg_left hmi0 (by positivity : 0 ≤ 125 / 10 * κ * Q)
    linarith
  have s5 := fl_step (B := Q) hr hκ2 s4 (by rw [abs_neg]; exact hIQ)
  set y := fl (x2 / mi)
  have hκQ : 0 ≤ κ * Q := by positivity
  have hκκQ : κ * (κ * Q) ≤ 1 / 10 * (κ * Q) := mul_le_mul_of_nonneg_right hκ hκQ
  have s5' : |y - -I| ≤ 14 * (κ * Q) := by linarith
  -- gravity
  have s6 : |fl γ - γ| ≤ κ / 2 * |γ| := (hr.err γ).trans (mul_le_mul_of_nonneg_right (by linarith) (abs_nonneg _))
  have s7 : |y + fl γ - (-I + γ)| ≤ 14 * (κ * Q) + κ / 2 * |γ| := by
    rw [show y + fl γ - (-I + γ) = (y - -I) + (fl γ - γ) by ring]
    exact (abs_add_le _ _).trans (by linarith)
  have b7 : |-I + γ| ≤ Q + |γ| := (abs_add_le _ _).trans (by rw [abs_neg]; linarith)
  have s8 := fl_step hr hκ2 s7 b7
  have ez : incrementFl fl vol dt grav mi F = fl (y + fl γ) := rfl
  rw [ez]
  set z := fl (y + fl γ)
  have hκg : 0 ≤ κ * |γ| := by positivity
  have hκκg : κ * (κ * |γ|) ≤ 1 / 10 * (κ * |γ|) := mul_le_mul_of_nonneg_right hκ hκg
  have s8' : |z - (-I + γ)| ≤ 16 * (κ * Q) + 2 * (κ * |γ|) := by linarith
  -- the velocity
  have hκM : 0 ≤ κ * M := by positivity
  have hκκM : κ * (κ * M) ≤ 1 / 10 * (κ * M) := mul_le_mul_of_nonneg_right hκ hκM
  have bV : |V / S| ≤ M := by rw [abs_div, abs_of_pos hS, div_le_iff₀ hS]; exact hV
  have s9 : |v + z - (V / S + (-I + γ))| ≤ 6 * κ * M + (16 * (κ * Q) + 2 * (κ * |γ|)) := by
    rw [show v + z - (V / S + (-I + γ)) = (v - V / S) + (z - (-I + γ)) by ring]
    exact (abs_add_le _ _).trans (by linarith)
  have b9 : |V / S + (-I + γ)| ≤ M + (Q + |γ|) := (abs_add_le _ _).trans (by linarith)
  have s10 := fl_step hr hκ2 s9 b9
  have i1 : (V - C / mp * Φ) / S + γ = V / S + (-I + γ) := by rw [hI]; ring
  have i2 : (0 - C / mp * Φ) / S + γ = -I + γ := by rw [hI]; ring
  rw [i1, i2]
  constructor
  · refine s10.trans ?_
    linarith
  · set w := fl (v + z)
    have h1 : |w - (v + z)| ≤ κ / 2 * (M + (Q + |γ|) + (6 * κ * M + (16 * (κ * Q) + 2 * (κ * |γ|)))) := by
      refine (hr.err _).trans (mul_le_mul (by linarith) ?_ (abs_nonneg _) (by linarith))
      have := abs_add_le (v + z - (V / S + (-I + γ))) (V / S + (-I + γ))
      rw [sub_add_cancel] at this
      linarith
    have h2 : |w - v - (-I + γ)| ≤ 1 * (κ * M) + 18 * (κ * Q) + 3 * (κ * |γ|) := by
      rw [show w - v - (-I + γ) = (w - (v + z)) + (z - (-I + γ)) by ring]
      refine (abs_add_le _ _).trans ?_
      linarith
    have h3 := fl_step hr hκ2 h2 b7
    refine h3.trans ?_
    linarith

end Verif
