import Verif.Model.Sampling
import Mathlib.Algebra.BigOperators.Group.List.Basic
import Mathlib.Algebra.Order.BigOperators.Group.List
import Mathlib.Tactic.Linarith
import Mathlib.Tactic.Ring
import Mathlib.Tactic.FieldSimp
import Mathlib.Tactic.Positivity
import Mathlib.Tactic.NormNum

set_option linter.unusedSectionVars false
set_option linter.unusedSimpArgs false
set_option linter.unusedVariables false

/-!
# C49: volume averages
-/

namespace Verif.Props
open Verif

variable {d : ℕ}

/-- Ratio of current to initial volume of a particle: elastic times plastic part. -/
noncomputable def volRatio (q : Particle d ℝ) : ℝ := Matrix.det q.F * Real.exp q.epsPlVol

/-- Cauchy stress of a particle. -/
noncomputable def cauchyStress (q : Particle d ℝ) (i j : Fin d) : ℝ := q.tau i j / volRatio q

/-- Average of `f` over the particles, weighted with `w`. -/
noncomputable def weightedMean (w f : Particle d ℝ → ℝ) (ps : List (Particle d ℝ)) : ℝ :=
  (ps.map fun q => w q * f q).sum / (ps.map w).sum

lemma foldl_avg (ps : List (Particle d ℝ)) (a : AvgSum d) :
    (ps.foldl AvgSum.add a).J = a.J + (ps.map volRatio).sum ∧
    (∀ i j, (ps.foldl AvgSum.add a).cauchy i j = a.cauchy i j + (ps.map fun q => q.tau i j).sum) ∧
    ∀ i j, (ps.foldl AvgSum.add a).kirchh i j = a.kirchh i j + (ps.map fun q => volRatio q * q.tau i j).sum := by
  induction ps generalizing a with
  | nil => simp
  | cons q ps ih =>
    obtain ⟨h1, h2, h3⟩ := ih (a.add q)
    simp only [List.foldl_cons, List.map_cons, List.sum_cons, h1, h2, h3]
    refine ⟨?_, fun i j => ?_, fun i j => ?_⟩
    · simp only [AvgSum.add, volRatio]; ring
    · simp only [AvgSum.add, Matrix.add_apply]; ring
    · simp only [AvgSum.add, Matrix.add_apply, Matrix.smul_apply, smul_eq_mul, volRatio]; ring

lemma sum_pos_of {ps : List (Particle d ℝ)} (hne : ps ≠ []) {w : Particle d ℝ → ℝ} (hw : ∀ q ∈ ps, 0 < w q) :
    0 < (ps.map w).sum := by
  apply List.sum_pos
  · intro x hx
    obtain ⟨q, hq, rfl⟩ := List.mem_map.mp hx
    exact hw q hq
  · simpa using hne

lemma mean_bounds {ps : List (Particle d ℝ)} (hne : ps ≠ []) {w f : Particle d ℝ → ℝ} (hw : ∀ q ∈ ps, 0 < w q)
    {a b : ℝ} (hf : ∀ q ∈ ps, a ≤ f q ∧ f q ≤ b) : a ≤ weightedMean w f ps ∧ weightedMean w f ps ≤ b := by
  have hp := sum_pos_of hne hw
  unfold weightedMean
  rw [le_div_iff₀ hp, div_le_iff₀ hp, ← List.sum_map_mul_left, ← List.sum_map_mul_left]
  constructor
  · apply List.sum_le_sum
    intro q hq
    have := hw q hq
    have := (hf q hq).1
    nlinarith
  · apply List.sum_le_sum
    intro q hq
    have := hw q hq
    have := (hf q hq).2
    nlinarith

/-- **C49** For a non-empty set of particles with positive volume the averages are defined; the averaged
Cauchy and Kirchhoff stresses are the means weighted with the current volume, and the third output is the
plain mean of the volume ratios. -/
theorem C49_means {ps : List (Particle d ℝ)} (hne : ps ≠ []) (hJ : ∀ q ∈ ps, 0 < volRatio q) :
    ∃ c k J, computeAvg ps = some (c, k, J) ∧
      (∀ i j, c i j = weightedMean volRatio (fun q => cauchyStress q i j) ps) ∧
      (∀ i j, k i j = weightedMean volRatio (fun q => q.tau i j) ps) ∧
      J = weightedMean (fun _ => 1) volRatio ps := by
  have hp := sum_pos_of hne hJ
  obtain ⟨h1, h2, h3⟩ := foldl_avg ps ⟨0, 0, 0⟩
  simp only [Matrix.zero_apply, zero_add] at h1 h2 h3
  have hl : ps.length ≠ 0 := by simpa using hne
  have hJ0 : (ps.foldl AvgSum.add ⟨0, 0, 0⟩).J = (ps.map volRatio).sum := h1
  refine ⟨_, _, _, by simp only [computeAvg]; rw [if_neg (by rw [hJ0]; push Not; exact ⟨hp.ne', hl⟩)], ?_, ?_, ?_⟩
  · intro i j
    rw [Matrix.smul_apply, h2 i j, hJ0, weightedMean, smul_eq_mul, ← div_eq_inv_mul]
    congr 2
    apply List.map_congr_left
    intro q hq
    have := (hJ q hq).ne'
    rw [cauchyStress]; field_simp
  · intro i j
    rw [Matrix.smul_apply, h3 i j, hJ0, weightedMean, smul_eq_mul, ← div_eq_inv_mul]
  · rw [hJ0, weightedMean]
    simp

/-- **C49** All averages lie between the extremes over the particles, component by component. -/
theorem C49_bounds {ps : List (Particle d ℝ)} (hne : ps ≠ []) (hJ : ∀ q ∈ ps, 0 < volRatio q)
    {c k : Matrix (Fin d) (Fin d) ℝ} {J : ℝ} (h : computeAvg ps = some (c, k, J)) {a b : ℝ} :
    (∀ i j, (∀ q ∈ ps, a ≤ cauchyStress q i j ∧ cauchyStress q i j ≤ b) → a ≤ c i j ∧ c i j ≤ b) ∧
    (∀ i j, (∀ q ∈ ps, a ≤ q.tau i j ∧ q.tau i j ≤ b) → a ≤ k i j ∧ k i j ≤ b) ∧
    ((∀ q ∈ ps, a ≤ volRatio q ∧ volRatio q ≤ b) → a ≤ J ∧ J ≤ b) := by
  obtain ⟨c', k', J', h', h1, h2, h3⟩ := C49_means hne hJ
  rw [h] at h'
  obtain ⟨rfl, rfl, rfl⟩ : c = c' ∧ k = k' ∧ J = J' := by simpa using h'
  refine ⟨fun i j hf => ?_, fun i j hf => ?_, fun hf => ?_⟩
  · rw [h1]; exact mean_bounds hne hJ hf
  · rw [h2]; exact mean_bounds hne hJ hf
  · rw [h3]; exact mean_bounds hne (fun _ _ => one_pos) hf

/-- **C49** For a homogeneous state the averages are the common values. -/
theorem C49_homogeneous {ps : List (Particle d ℝ)} (hne : ps ≠ []) {tau : Matrix (Fin d) (Fin d) ℝ} {J₀ : ℝ}
    (hJ : 0 < J₀) (hps : ∀ q ∈ ps, q.tau = tau ∧ volRatio q = J₀) :
    computeAvg ps = some (J₀⁻¹ • tau, tau, J₀) := by
  have hpos : ∀ q ∈ ps, 0 < volRatio q := fun q hq => by rw [(hps q hq).2]; exact hJ
  obtain ⟨c, k, J, h, -⟩ := C49_means hne hpos
  have hb := fun (a b : ℝ) => C49_bounds (a := a) (b := b) hne hpos h
  rw [h]
  congr 1
  refine Prod.ext ?_ (Prod.ext ?_ ?_)
  · ext i j
    obtain ⟨h1, h2⟩ := (hb (tau i j / J₀) (tau i j / J₀)).1 i j (fun q hq => by
      rw [cauchyStress, (hps q hq).1, (hps q hq).2]; exact ⟨le_refl _, le_refl _⟩)
    have := le_antisymm h2 h1
    show c i j = (J₀⁻¹ • tau) i j
    rw [this, Matrix.smul_apply, smul_eq_mul, div_eq_inv_mul]
  · ext i j
    obtain ⟨h1, h2⟩ := (hb (tau i j) (tau i j)).2.1 i j (fun q hq => by
      rw [(hps q hq).1]; exact ⟨le_refl _, le_refl _⟩)
    exact le_antisymm h2 h1
  · obtain ⟨h1, h2⟩ := (hb J₀ J₀).2.2 (fun q hq => by rw [(hps q hq).2]; exact ⟨le_refl _, le_refl _⟩)
    exact le_antisymm h2 h1

/-- The Cauchy average is total Kirchhoff stress over total volume ratio, so that multiplied with the
current volume of all particles it is the sum of their `V₀ tau`. -/
theorem C49_virial {ps : List (Particle d ℝ)} (hne : ps ≠ []) (hJ : ∀ q ∈ ps, 0 < volRatio q)
    {c k : Matrix (Fin d) (Fin d) ℝ} {J : ℝ} (h : computeAvg ps = some (c, k, J)) (i j : Fin d) :
    (ps.length * J) * c i j = (ps.map fun q => q.tau i j).sum := by
  obtain ⟨c', k', J', h', h1, h2, h3⟩ := C49_means hne hJ
  rw [h] at h'
  obtain ⟨rfl, rfl, rfl⟩ : c = c' ∧ k = k' ∧ J = J' := by simpa using h'
  have hp := sum_pos_of hne hJ
  have hl : (ps.length : ℝ) ≠ 0 := by simpa using hne
  have e : (ps.map fun q => volRatio q * cauchyStress q i j) = ps.map fun q => q.tau i j := by
    apply List.map_congr_left
    intro q hq
    have := (hJ q hq).ne'
    rw [cauchyStress]; field_simp
  rw [h1, h3, weightedMean, weightedMean, e]
  simp only [one_mul, List.map_const', List.sum_replicate, nsmul_eq_mul, mul_one]
  field_simp

/-- Two particles of different volume: the Kirchhoff average weights the larger one more. -/
example :
    let q (e t : ℝ) : Particle 1 ℝ := { (Particle.init : Particle 1 ℝ) with epsPlVol := Real.log e, tau := fun _ _ => t }
    ∃ c k J, computeAvg [q 1 1, q 3 5] = some (c, k, J) ∧ c 0 0 = 3 / 2 ∧ k 0 0 = 4 ∧ J = 2 := by
  intro q
  have v : ∀ e t : ℝ, 0 < e → volRatio (q e t) = e := by
    intro e t he
    simp [volRatio, q, Particle.init, Real.exp_log he]
  obtain ⟨c, k, J, h, h1, h2, h3⟩ := C49_means (ps := [q 1 1, q 3 5]) (by simp) (by
    intro p hp
    simp only [List.mem_cons, List.not_mem_nil, or_false] at hp
    rcases hp with rfl | rfl
    · rw [v _ _ one_pos]; exact one_pos
    · rw [v _ _ (by norm_num)]; norm_num)
  refine ⟨c, k, J, h, ?_, ?_, ?_⟩
  · rw [h1, weightedMean]
    simp only [List.map_cons, List.map_nil, List.sum_cons, List.sum_nil, cauchyStress, v _ _ one_pos,
      v 3 5 (by norm_num)]
    norm_num [q]
  · rw [h2, weightedMean]
    simp only [List.map_cons, List.map_nil, List.sum_cons, List.sum_nil, v _ _ one_pos,
      v 3 5 (by norm_num)]
    norm_num [q]
  · rw [h3, weightedMean]
    simp only [List.map_cons, List.map_nil, List.sum_cons, List.sum_nil, v _ _ one_pos,
      v 3 5 (by norm_num)]
    norm_num

end Verif.Props
