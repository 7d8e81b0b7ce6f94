import Verif.Props.Strength
import Verif.Props.Average
import Mathlib.Analysis.SpecialFunctions.Log.Basic

set_option linter.unusedSectionVars false
set_option linter.unusedSimpArgs false
set_option linter.unusedVariables false

/-!
# C93: measuring the bulk modulus from the averages

`computeAvgData` gives the volume average of the Kirchhoff stress and the mean volume ratio `J`. Average pressure over
`-log J` is what one takes for the bulk modulus (tests.cpp:475-540). For an elastic run it is never above the true
one in compression, never below it in expansion, and it is the true one only if all particles have the same volume.
-/

namespace Verif.Props
open Verif Matrix
noncomputable section

/-! ### The mean of `x log x` -/

lemma mul_log_ge {x m : ℝ} (hx : 0 < x) (hm : 0 < m) : x * Real.log m + (x - m) ≤ x * Real.log x := by
  have h := Real.log_le_sub_one_of_pos (div_pos hm hx)
  rw [Real.log_div hm.ne' hx.ne'] at h
  have : x * (Real.log m - Real.log x) ≤ x * (m / x - 1) := mul_le_mul_of_nonneg_left h hx.le
  have e : x * (m / x - 1) = m - x := by field_simp
  linarith

lemma mul_log_gt {x m : ℝ} (hx : 0 < x) (hm : 0 < m) (hne : x ≠ m) : x * Real.log m + (x - m) < x * Real.log x := by
  have h := Real.log_lt_sub_one_of_pos (div_pos hm hx) (by rw [ne_eq, div_eq_one_iff_eq hx.ne']; exact hne.symm)
  rw [Real.log_div hm.ne' hx.ne'] at h
  have : x * (Real.log m - Real.log x) < x * (m / x - 1) := mul_lt_mul_of_pos_left h hx
  have e : x * (m / x - 1) = m - x := by field_simp
  linarith

lemma sum_mul_log_ge {α : Type*} (l : List α) (f : α → ℝ) {m : ℝ} (hm : 0 < m) (hf : ∀ a ∈ l, 0 < f a) :
    (l.map f).sum * Real.log m + ((l.map f).sum - l.length * m) ≤ (l.map fun a => f a * Real.log (f a)).sum := by
  induction l with
  | nil => simp
  | cons a l ih =>
    have h1 := ih fun b hb => hf b (by simp [hb])
    have h2 := mul_log_ge (hf a (by simp)) hm
    simp only [List.map_cons, List.sum_cons, List.length_cons]
    push_cast
    linarith

lemma sum_mul_log_gt {α : Type*} (l : List α) (f : α → ℝ) {m : ℝ} (hm : 0 < m) (hf : ∀ a ∈ l, 0 < f a)
    (hne : ∃ a ∈ l, f a ≠ m) :
    (l.map f).sum * Real.log m + ((l.map f).sum - l.length * m) < (l.map fun a => f a * Real.log (f a)).sum := by
  induction l with
  | nil => simp at hne
  | cons a l ih =>
    simp only [List.map_cons, List.sum_cons, List.length_cons]
    push_cast
    by_cases ha : f a = m
    · obtain ⟨b, hb, hbm⟩ := hne
      have hb' : b ∈ l := by
        rcases List.mem_cons.mp hb with rfl | h
        · exact absurd ha hbm
        · exact h
      have h1 := ih (fun b hb => hf b (by simp [hb])) ⟨b, hb', hbm⟩
      have h2 := mul_log_ge (hf a (by simp)) hm
      linarith
    · have h1 := sum_mul_log_ge l f hm fun b hb => hf b (by simp [hb])
      have h2 := mul_log_gt (hf a (by simp)) hm ha
      linarith

/-! ### The pressure of a Hencky solid -/

lemma abs_det_svd {d : ℕ} {F : Matrix (Fin d) (Fin d) ℝ} {s : Svd d} (hs : IsSvd F s) : |F.det| = ∏ i, s.sig i := by
  have h1 : ∀ A : Matrix (Fin d) (Fin d) ℝ, A * Aᵀ = 1 → |A.det| = 1 := by
    intro A hA
    have := congrArg Matrix.det hA
    rw [det_mul, det_transpose, det_one] at this
    have h2 : |A.det| * |A.det| = 1 := by rw [← abs_mul, this, abs_one]
    nlinarith [abs_nonneg A.det]
  have e := congrArg Matrix.det hs.eq
  rw [det_mul, det_mul, det_transpose, det_diagonal] at e
  rw [e, abs_mul, abs_mul, h1 _ hs.orthU, h1 _ hs.orthV, one_mul, mul_one,
    abs_of_nonneg (Finset.prod_nonneg fun i _ => hs.nonneg i)]

lemma hencky_trace {d : ℕ} {lam mu : ℝ} {F tau : Matrix (Fin d) (Fin d) ℝ} (h : IsHenckyStress lam mu F tau) {s : Svd d}
    (hs : IsSvd F s) (hdet : 0 < F.det) : tau.trace = (d * lam + 2 * mu) * Real.log F.det := by
  rw [h.2 s hs, Matrix.mul_assoc, trace_mul_comm, Matrix.mul_assoc, mul_eq_one_comm.mp hs.orthU, Matrix.mul_one,
    trace_diagonal, Finset.sum_add_distrib, ← Finset.mul_sum, Finset.sum_const, Finset.card_univ, Fintype.card_fin,
    nsmul_eq_mul, ← Finset.mul_sum]
  have : Real.log F.det = ∑ i, Real.log (s.sig i) := by
    rw [← abs_of_pos hdet, abs_det_svd hs, Real.log_prod fun i _ => (sig_pos h.1 hs i).ne']
  rw [this]; ring

/-! ### C93 -/

/-- What one takes for the bulk modulus, given the outputs of `computeAvgData`: average pressure over the logarithm of
the volume lost. -/
def measuredK {d : ℕ} (k : Matrix (Fin d) (Fin d) ℝ) (J : ℝ) : ℝ := (-k.trace / d) / (-Real.log J)

/-- Bulk modulus of the material in `dim` dimensions (plane strain in two). -/
def bulkModulus (E nu : ℝ) (dim : ℕ) : ℝ := nu * E / ((1 + nu) * (1 - 2 * nu)) + 2 * (E / (2 * (1 + nu))) / dim

lemma bulkModulus_forms {E nu : ℝ} (h1 : -1 < nu) (h2 : nu < 1 / 2) :
    bulkModulus E nu 3 = E / (3 * (1 - 2 * nu)) ∧ bulkModulus E nu 2 = E / (2 * (1 + nu) * (1 - 2 * nu)) := by
  have a : 1 + nu ≠ 0 := by linarith
  obtain ⟨c, hc⟩ : ∃ c, c = 1 - 2 * nu := ⟨_, rfl⟩
  have c0 : c ≠ 0 := by rw [hc]; linarith
  rw [bulkModulus, bulkModulus, ← hc]
  push_cast
  constructor
  · field_simp; linear_combination E * hc
  · field_simp; linear_combination E * hc

lemma bulkModulus_pos {E nu : ℝ} {n : ℕ} (hn : n = 2 ∨ n = 3) (hE : 0 < E) (h1 : -1 < nu) (h2 : nu < 1 / 2) :
    0 < bulkModulus E nu n := by
  have a : 0 < 1 + nu := by linarith
  have b : 0 < 1 - 2 * nu := by linarith
  rcases hn with rfl | rfl
  · rw [(bulkModulus_forms h1 h2).2]; positivity
  · rw [(bulkModulus_forms h1 h2).1]; positivity

section avg
variable {d : ℕ} {ps : List (Particle (d + 2) ℝ)} {K : ℝ}

/-- The averages for particles whose pressure is `K` times the logarithm of the volume lost. -/
lemma avg_pressure (hne : ps ≠ []) (hJ : ∀ q ∈ ps, 0 < volRatio q)
    (ht : ∀ q ∈ ps, q.tau.trace = (d + 2 : ℕ) * K * Real.log (volRatio q)) :
    ∃ c k J, computeAvg ps = some (c, k, J) ∧ 0 < J ∧ ps.length * J = (ps.map volRatio).sum ∧
      (-k.trace / (d + 2 : ℕ)) * (ps.length * J) = -K * (ps.map fun q => volRatio q * Real.log (volRatio q)).sum := by
  obtain ⟨c, k, J, h, -, h2, h3⟩ := C49_means hne hJ
  have hp := sum_pos_of hne hJ
  have hl : (0 : ℝ) < ps.length := by
    have := List.length_pos_iff.mpr hne; exact_mod_cast this
  have e3 : J = (ps.map volRatio).sum / ps.length := by
    rw [h3, weightedMean]; simp
  have e3' : ps.length * J = (ps.map volRatio).sum := by rw [e3]; field_simp
  refine ⟨c, k, J, h, by rw [e3]; positivity, e3', ?_⟩
  have e : k.trace * (ps.map volRatio).sum =
      ((d + 2 : ℕ) * K) * (ps.map fun q => volRatio q * Real.log (volRatio q)).sum := by
    have : k.trace = ∑ i, (ps.map fun q => volRatio q * q.tau i i).sum / (ps.map volRatio).sum := by
      simp only [Matrix.trace, Matrix.diag, h2, weightedMean]
    rw [this, ← Finset.sum_div, div_mul_cancel₀ _ hp.ne', ← List.sum_map_mul_left]
    clear * - ht
    induction ps with
    | nil => simp
    | cons q l ih =>
      have h1 := ih fun p hp => ht p (by simp [hp])
      have h2 := ht q (by simp)
      simp only [List.map_cons, List.sum_cons, Finset.sum_add_distrib] at h1 ⊢
      rw [h1, ← Finset.mul_sum]
      rw [Matrix.trace] at h2
      simp only [Matrix.diag] at h2
      rw [h2]; ring
  have hd : ((d + 2 : ℕ) : ℝ) ≠ 0 := by positivity
  rw [e3', neg_div, neg_mul, div_mul_eq_mul_div, e]
  field_simp

end avg

section sim
variable {d : ℕ} {s : Sim (d + 2)} {b : Build (d + 2)} {fuel : ℕ}

/-- Without plasticity no plastic volume change is recorded. -/
lemma sim_no_plastic (hb : Solid s b) (hm : s.plasticModel = .noPlasticity) (h0 : ∀ p ∈ s.particles, p.epsPlVol = 0)
    {n : ℕ} {t : ℝ} {w : World (d + 2)} (hev : .particles n t w ∈ filesOf (s.simulate b fuel)) (hn : n ≠ 0) :
    ∀ p ∈ w.ps, p.epsPlVol = 0 := by
  intro p hp
  obtain ⟨_, h⟩ := sim_history (P := fun p => p.epsPlVol = 0) (Rel := fun _ p => p.epsPlVol = 0) hb (fun _ _ h => h) h0
    (fun dx m vol dt p p' _ hP hst => by
      obtain ⟨q, out, x, v, ⟨_, _, _, _, _, _, hq⟩, ho, -, rfl⟩ := hst
      have e : out.q.epsPlVol = q.epsPlVol := by
        have hm' : (s.setup b (Nat.succ_pos _) dx m vol).m.plastic = .noPlasticity := hm
        obtain ⟨st, hst, rfl⟩ := plasticity_some.mp ho
        rw [((plastModel_noPlasticity hm').mp hst).2]
      have : out.q.epsPlVol = 0 := by rw [e, hq]; exact hP
      exact ⟨this, this⟩) hev hn p hp
  exact h

/-- All particles of a file are the right way out, and not compressed or stretched beyond the limits of the code. -/
def Regular (w : World (d + 2)) : Prop :=
  ∀ p ∈ w.ps, 0 < p.F.det ∧ ∀ σ, IsSvd p.F σ → ∀ a, 1e-4 ≤ σ.sig a

/-- Pressure of every particle of a file. -/
lemma sim_pressure (hb : Solid s b) (hm : s.plasticModel = .noPlasticity) (h0 : ∀ p ∈ s.particles, p.epsPlVol = 0)
    {n : ℕ} {t : ℝ} {w : World (d + 2)} (hev : .particles n t w ∈ filesOf (s.simulate b fuel)) (hn : n ≠ 0)
    (hr : Regular w) : ∀ p ∈ w.ps, volRatio p = p.F.det ∧
      p.tau.trace = (d + 2 : ℕ) * bulkModulus s.E s.nu (d + 2) * Real.log (volRatio p) := by
  intro p hp
  have e : volRatio p = p.F.det := by rw [volRatio, sim_no_plastic hb hm h0 hev hn p hp, Real.exp_zero, mul_one]
  refine ⟨e, ?_⟩
  have := sim_hencky hb.dim hb.hE hb.nu1 hb.nu2 hb.hq hb.hel (by rw [hm]; decide) hb.svd hev hn p hp (hr p hp).2
  rw [hencky_trace this (hb.svd p.F) (hr p hp).1, e, bulkModulus]
  have hd : ((d + 2 : ℕ) : ℝ) ≠ 0 := by positivity
  field_simp

/-- **C93** In every particle file but the initial one of a run of an elastic (Hencky) material, let `volavg_kirchh`
and `Javg` be the averages of `computeAvgData` over its particles and `measured_K` the average pressure over
`-log Javg`. If the body is compressed on average, `measured_K` is at most the bulk modulus of the material, and equal
to it only if all particles have the same volume; if it is expanded on average, at least. -/
theorem C93_measured (hb : Solid s b) (hm : s.plasticModel = .noPlasticity) (h0 : ∀ p ∈ s.particles, p.epsPlVol = 0)
    {n : ℕ} {t : ℝ} {w : World (d + 2)} (hev : .particles n t w ∈ filesOf (s.simulate b fuel)) (hn : n ≠ 0)
    (hr : Regular w) (hne : w.ps ≠ []) :
    ∃ c k J, computeAvg w.ps = some (c, k, J) ∧ 0 < J ∧
      (J < 1 → measuredK k J ≤ bulkModulus s.E s.nu (d + 2)) ∧
      (1 < J → bulkModulus s.E s.nu (d + 2) ≤ measuredK k J) ∧
      (J ≠ 1 → (measuredK k J = bulkModulus s.E s.nu (d + 2) ↔ ∀ p ∈ w.ps, p.F.det = J)) := by
  have hpr := sim_pressure hb hm h0 hev hn hr
  have hJ : ∀ q ∈ w.ps, 0 < volRatio q := fun q hq => by rw [(hpr q hq).1]; exact (hr q hq).1
  obtain ⟨c, k, J, h, hJ0, hsum, hP⟩ := avg_pressure hne hJ fun q hq => (hpr q hq).2
  have hK : 0 < bulkModulus s.E s.nu (d + 2) :=
    bulkModulus_pos (by have := hb.dim; omega) hb.hE hb.nu1 hb.nu2
  set K := bulkModulus s.E s.nu (d + 2)
  have hl : (0 : ℝ) < w.ps.length := by
    have := List.length_pos_iff.mpr hne; exact_mod_cast this
  have hlJ : 0 < w.ps.length * J := mul_pos hl hJ0
  have hge := sum_mul_log_ge w.ps volRatio hJ0 hJ
  rw [← hsum, sub_self, add_zero] at hge
  -- average pressure is at most `-K log J`
  have hle : -k.trace / (d + 2 : ℕ) ≤ K * -Real.log J := by
    refine le_of_mul_le_mul_right ?_ hlJ
    rw [hP]; nlinarith
  have hall : (-k.trace / (d + 2 : ℕ) = K * -Real.log J) ↔ ∀ p ∈ w.ps, p.F.det = J := by
    constructor
    · intro he
      by_contra hcon
      push Not at hcon
      obtain ⟨p, hp, hpJ⟩ := hcon
      have hgt := sum_mul_log_gt w.ps volRatio hJ0 hJ ⟨p, hp, by rw [(hpr p hp).1]; exact hpJ⟩
      rw [← hsum, sub_self, add_zero] at hgt
      rw [he] at hP
      nlinarith
    · intro he
      refine mul_right_cancel₀ hlJ.ne' ?_
      rw [hP, hsum]
      have : (w.ps.map fun q => volRatio q * Real.log (volRatio q)) = w.ps.map fun q => volRatio q * Real.log J :=
        List.map_congr_left fun q hq => by rw [(hpr q hq).1, he q hq]
      rw [this, List.sum_map_mul_right]; ring
  refine ⟨c, k, J, h, hJ0, fun h1 => ?_, fun h1 => ?_, fun h1 => ?_⟩
  · have : 0 < -Real.log J := by have := Real.log_neg hJ0 h1; linarith
    rw [measuredK, div_le_iff₀ this]; exact hle
  · have hlog := Real.log_pos h1
    rw [measuredK, div_neg, le_neg, div_le_iff₀ hlog]; linarith
  · have : -Real.log J ≠ 0 := neg_ne_zero.mpr (Real.log_ne_zero_of_pos_of_ne_one hJ0 h1)
    rw [← hall, measuredK, div_eq_iff this]

/-- **C93** How far off it can be: if the volumes of all particles of a compressed body lie between the parts `lo` and
`hi` of the initial ones, `measured_K` is at least `log hi / log lo` of the bulk modulus. -/
theorem C93_error (hb : Solid s b) (hm : s.plasticModel = .noPlasticity) (h0 : ∀ p ∈ s.particles, p.epsPlVol = 0)
    {n : ℕ} {t : ℝ} {w : World (d + 2)} (hev : .particles n t w ∈ filesOf (s.simulate b fuel)) (hn : n ≠ 0)
    (hr : Regular w) (hne : w.ps ≠ []) {lo hi : ℝ} (hlo : 0 < lo) (hhi : hi < 1)
    (hv : ∀ p ∈ w.ps, lo ≤ p.F.det ∧ p.F.det ≤ hi) :
    ∃ c k J, computeAvg w.ps = some (c, k, J) ∧ lo ≤ J ∧ J ≤ hi ∧
      Real.log hi / Real.log lo * bulkModulus s.E s.nu (d + 2) ≤ measuredK k J ∧
      measuredK k J ≤ bulkModulus s.E s.nu (d + 2) := by
  obtain ⟨c, k, J, h, hJ0, hup, -, -⟩ := C93_measured hb hm h0 hev hn hr hne
  have hpr := sim_pressure hb hm h0 hev hn hr
  have hJ : ∀ q ∈ w.ps, 0 < volRatio q := fun q hq => by rw [(hpr q hq).1]; exact (hr q hq).1
  obtain ⟨c', k', J', h', -, hsum, hP⟩ := avg_pressure hne hJ fun q hq => (hpr q hq).2
  rw [h] at h'
  obtain ⟨rfl, rfl, rfl⟩ : c = c' ∧ k = k' ∧ J = J' := by simpa using h'
  obtain ⟨hJlo, hJhi⟩ := (C49_bounds (a := lo) (b := hi) hne hJ h).2.2 fun q hq => by rw [(hpr q hq).1]; exact hv q hq
  have hK : 0 < bulkModulus s.E s.nu (d + 2) :=
    bulkModulus_pos (by have := hb.dim; omega) hb.hE hb.nu1 hb.nu2
  refine ⟨c, k, J, h, hJlo, hJhi, ?_, hup (by linarith)⟩
  set K := bulkModulus s.E s.nu (d + 2)
  have hhi0 : 0 < hi := by linarith
  have l1 : Real.log hi < 0 := Real.log_neg hhi0 hhi
  have l2 : Real.log lo < 0 := Real.log_neg hlo (by linarith)
  have l3 : Real.log J < 0 := Real.log_neg hJ0 (by linarith)
  have l4 : Real.log lo ≤ Real.log J := Real.log_le_log hlo hJlo
  have hl : (0 : ℝ) < w.ps.length := by
    have := List.length_pos_iff.mpr hne; exact_mod_cast this
  have hlJ : 0 < w.ps.length * J := mul_pos hl hJ0
  have hs : (w.ps.map fun q => volRatio q * Real.log (volRatio q)).sum ≤ Real.log hi * (w.ps.map volRatio).sum := by
    rw [← List.sum_map_mul_left]
    apply List.sum_le_sum
    intro q hq
    have h1 := hJ q hq
    have : Real.log (volRatio q) ≤ Real.log hi := Real.log_le_log h1 (by rw [(hpr q hq).1]; exact (hv q hq).2)
    nlinarith
  have hge : K * -Real.log hi ≤ -k.trace / (d + 2 : ℕ) := by
    refine le_of_mul_le_mul_right ?_ hlJ
    rw [hP, hsum]; nlinarith
  rw [measuredK, le_div_iff₀ (by linarith : 0 < -Real.log J)]
  refine le_trans ?_ hge
  have : Real.log hi / Real.log lo * -Real.log J ≤ -Real.log hi := by
    rw [div_mul_eq_mul_div, div_le_iff_of_neg l2]; nlinarith
  nlinarith

/-- The bulk modulus the code computes for its own use (`calculateBulkModulus`, members `lambda` and `mu`) is this one;
spelled out in 3D and in 2D. -/
theorem C93_true (s : Sim (d + 2)) (b : Build (d + 2)) (dx m vol : ℝ) :
    (s.setup b (Nat.succ_pos _) dx m vol).m.K (d + 2) = bulkModulus s.E s.nu (d + 2) ∧
    (-1 < s.nu → s.nu < 1 / 2 → bulkModulus s.E s.nu 3 = s.E / (3 * (1 - 2 * s.nu)) ∧
      bulkModulus s.E s.nu 2 = s.E / (2 * (1 + s.nu) * (1 - 2 * s.nu))) := by
  refine ⟨?_, fun h1 h2 => bulkModulus_forms h1 h2⟩
  simp [Sim.setup, bulkModulus, Material.K, Material.lam, Material.mu, Sim.material]

end sim
end
end Verif.Props
