import Verif.Lemmas.HenckyPower
import Verif.Props.EnergyRun
import Verif.Props.Motion
import Verif.Props.Rotation
import Verif.Props.FreeFall
import Verif.Props.EnergyExamples
import Verif.Props.NeoHookean
import Mathlib.Analysis.Complex.ExponentialBounds

set_option linter.unusedSectionVars false
set_option linter.unusedSimpArgs false
set_option linter.unusedVariables false

/-!
# C116: the total energy of a run

The stress of a particle is the derivative of its strain energy, so the work of the stresses in the energy balance C86 is
elastic energy: kinetic, elastic and potential energy together grow at most by terms of second order in the time step,
for elastic and for plastic materials.
-/

namespace Verif.Props
open Verif Matrix

noncomputable section

/-! ### Specifications -/

variable {d : ℕ}

/-- The strain energy of Hencky elasticity of the deformation `F` in a volume 1. -/
def strainEnergy (lam mu : ℝ) (F : Matrix (Fin d) (Fin d) ℝ) : ℝ := henckyEnergy lam mu (someSvd F).sig

/-- All principal stretches of `F` are between `exp (-s)` and `exp s`. -/
def SmallStrain (s : ℝ) (F : Matrix (Fin d) (Fin d) ℝ) : Prop :=
  ∀ σ : Svd d, IsSvd F σ → ∀ i, 0 < σ.sig i ∧ |Real.log (σ.sig i)| ≤ s

/-- The strain energy of neo-Hookean elasticity. -/
def neoEnergy (lam mu : ℝ) (F : Matrix (Fin d) (Fin d) ℝ) : ℝ :=
  mu / 2 * ((F * Fᵀ).trace - d) - mu * Real.log F.det + lam / 2 * Real.log F.det ^ 2

/-- The elastic energy of all particles of volume `vol`, with the strain energy `ψ`. -/
def elasticEnergy (ψ : Matrix (Fin d) (Fin d) ℝ → ℝ) (vol : ℝ) (ps : List (Particle d ℝ)) : ℝ :=
  vol * (ps.map fun p => ψ p.F).sum

/-- Stiffness in the bound of the error of a step. -/
def stiffness (lam mu s : ℝ) (d : ℕ) : ℝ := (9 / 4 + 10 * s) * (mu + d * |lam| / 2) * Real.exp (8 * s)

/-- The same for neo-Hookean elasticity. -/
def neoStiffness (lam mu s : ℝ) (d : ℕ) : ℝ := (11 / 2 * mu + (9 / 8 + 5 * s) * d * |lam|) * Real.exp (8 * s)

/-- The velocity gradient of the grid at `x`. -/
def rateAt (deg : Deg) (dx : ℝ) (w : World d) (x : Fin d → ℝ) : Matrix (Fin d) (Fin d) ℝ :=
  jacobian (field deg dx w.g w.vel) x

/-- The sum over the particles of the squared velocity gradients, times `dt²`: the squared strain increments of a step. -/
def squaredIncrements (deg : Deg) (dx : ℝ) (r : StepRecord d) : ℝ :=
  r.dt ^ 2 * (r.before.ps.map fun p => ddot (rateAt deg dx r.after p.x) (rateAt deg dx r.after p.x)).sum

/-! ### Stress power -/

lemma FFt {F : Matrix (Fin d) (Fin d) ℝ} {σ : Svd d} (hs : IsSvd F σ) :
    F * Fᵀ = σ.U * diagonal (fun i => σ.sig i ^ 2) * σ.Uᵀ := by
  have hVV : σ.Vᵀ * σ.V = 1 := mul_eq_one_comm.mp hs.orthV
  conv_lhs => rw [hs.eq]
  rw [transpose_mul, transpose_mul, transpose_transpose, diagonal_transpose,
    show σ.U * diagonal σ.sig * σ.Vᵀ * (σ.V * (diagonal σ.sig * σ.Uᵀ)) =
      σ.U * (diagonal σ.sig * (σ.Vᵀ * σ.V) * diagonal σ.sig) * σ.Uᵀ by simp only [Matrix.mul_assoc], hVV, Matrix.mul_one,
    diagonal_mul_diagonal]
  simp only [pow_two]

/-- A deformation before and after a displacement gradient, in the frame of the principal directions before. -/
lemma to_frame {F H : Matrix (Fin d) (Fin d) ℝ} {σ σ' : Svd d} (hs : IsSvd F σ) (hs' : IsSvd ((1 + H) * F) σ') :
    (σ.Uᵀ * σ'.U) * (σ.Uᵀ * σ'.U)ᵀ = 1 ∧
    (1 + σ.Uᵀ * H * σ.U) * diagonal (fun i => σ.sig i ^ 2) * (1 + σ.Uᵀ * H * σ.U)ᵀ =
      (σ.Uᵀ * σ'.U) * diagonal (fun i => σ'.sig i ^ 2) * (σ.Uᵀ * σ'.U)ᵀ := by
  have hUU : σ.Uᵀ * σ.U = 1 := mul_eq_one_comm.mp hs.orthU
  set G := σ.Uᵀ * H * σ.U with hG
  set C := σ.Uᵀ * σ'.U with hC
  refine ⟨by rw [hC, transpose_mul, transpose_transpose, Matrix.mul_assoc, ← Matrix.mul_assoc σ'.U, hs'.orthU, Matrix.one_mul, hUU], ?_⟩
  have e1 : (1 + G) = σ.Uᵀ * (1 + H) * σ.U := by
    rw [Matrix.mul_add, Matrix.add_mul, Matrix.mul_one, hUU]
  have e2 := FFt hs'
  rw [transpose_mul, show (1 + H) * F * (Fᵀ * (1 + H)ᵀ) = (1 + H) * (F * Fᵀ) * (1 + H)ᵀ by simp only [Matrix.mul_assoc], FFt hs] at e2
  rw [e1, hC, transpose_mul, transpose_mul, transpose_mul, transpose_transpose]
  calc _ = σ.Uᵀ * ((1 + H) * (σ.U * diagonal (fun i => σ.sig i ^ 2) * σ.Uᵀ) * (1 + H)ᵀ) * σ.U := by
        simp only [Matrix.mul_assoc]
    _ = _ := by rw [e2]; simp only [Matrix.mul_assoc]

/-- The power of a stress with principal values `t` in the frame of the principal directions. -/
lemma frame_power {F H tau : Matrix (Fin d) (Fin d) ℝ} {σ : Svd d} (hs : IsSvd F σ) {t : Fin d → ℝ}
    (ht : tau = σ.U * diagonal t * σ.Uᵀ) : ddot tau H = ∑ i, t i * (σ.Uᵀ * H * σ.U) i i := by
  have hUU : σ.Uᵀ * σ.U = 1 := mul_eq_one_comm.mp hs.orthU
  rw [← ddot_conj hs.orthU]
  have : σ.Uᵀ * tau * σ.U = diagonal t := by
    rw [ht]
    calc _ = (σ.Uᵀ * σ.U) * diagonal t * (σ.Uᵀ * σ.U) := by simp only [Matrix.mul_assoc]
      _ = _ := by rw [hUU, Matrix.one_mul, Matrix.mul_one]
  rw [this, ddot]
  refine Finset.sum_congr rfl fun i _ => ?_
  rw [Finset.sum_eq_single i (fun j _ hj => by rw [diagonal_apply_ne' _ hj, zero_mul]) (by simp), diagonal_apply_eq]

/-- **C116** The stress of Hencky elasticity is the derivative of the strain energy: for a displacement gradient `H` the
energy changes by `τ : H`, up to a term of second order in `H`. -/
theorem C116_power {lam mu s : ℝ} {F H tau : Matrix (Fin d) (Fin d) ℝ} {σ σ' : Svd d} (hmu : 0 ≤ mu) (hs0 : 0 ≤ s)
    (hτ : IsHenckyStress lam mu F tau) (hs : IsSvd F σ) (hs' : IsSvd ((1 + H) * F) σ') (hF : SmallStrain s F)
    (hF' : SmallStrain s ((1 + H) * F)) (hH : ddot H H ≤ 1) :
    |henckyEnergy lam mu σ'.sig - henckyEnergy lam mu σ.sig - ddot tau H| ≤ stiffness lam mu s d * ddot H H := by
  obtain ⟨hC1, hB⟩ := to_frame hs hs'
  have hdd : ddot (σ.Uᵀ * H * σ.U) (σ.Uᵀ * H * σ.U) = ddot H H := ddot_conj hs.orthU
  rw [frame_power hs (hτ.2 σ hs), ← hdd]
  exact frame_energy hmu hC1 hB (fun i => (hF σ hs i).1) (fun i => (hF' σ' hs' i).1) (fun i => (hF σ hs i).2)
    (fun i => (hF' σ' hs' i).2) hs0 (by rw [hdd]; exact hH)

/-- The neo-Hookean energy as a function of the stretches. -/
lemma neoEnergy_eq {lam mu : ℝ} {F : Matrix (Fin d) (Fin d) ℝ} {σ : Svd d} (hs : IsSvd F σ) (hF : F.det ≠ 0) :
    neoEnergy lam mu F = mu / 2 * ∑ i, (σ.sig i ^ 2 - 1) - mu * ∑ i, Real.log (σ.sig i) +
      lam / 2 * (∑ i, Real.log (σ.sig i)) ^ 2 := by
  have hUU : σ.Uᵀ * σ.U = 1 := mul_eq_one_comm.mp hs.orthU
  have e1 : (F * Fᵀ).trace = ∑ i, σ.sig i ^ 2 := by
    rw [FFt hs, Matrix.trace_mul_comm, ← Matrix.mul_assoc, hUU, Matrix.one_mul, Matrix.trace_diagonal]
  have e2 : Real.log F.det = ∑ i, Real.log (σ.sig i) := by
    have hpos := sig_pos hF hs
    have habs : ∀ {U : Matrix (Fin d) (Fin d) ℝ}, U * Uᵀ = 1 → |U.det| = 1 := by
      intro U hU
      have := congrArg Matrix.det hU
      rw [Matrix.det_mul, Matrix.det_transpose, Matrix.det_one] at this
      exact (abs_eq (by norm_num)).mpr (mul_self_eq_one_iff.mp this)
    rw [← Real.log_abs]
    conv_lhs => rw [hs.eq]
    rw [Matrix.det_mul, Matrix.det_mul, abs_mul, abs_mul, habs hs.orthU, Matrix.det_transpose,
      habs hs.orthV, Matrix.det_diagonal, one_mul, mul_one,
      abs_of_pos (Finset.prod_pos fun i _ => hpos i), Real.log_prod (fun i _ => (hpos i).ne')]
  rw [neoEnergy, e1, e2, Finset.sum_sub_distrib]
  simp

/-- **C116** The same for neo-Hookean elasticity. -/
theorem C116_neoHookean_power {lam mu s : ℝ} {F H tau : Matrix (Fin d) (Fin d) ℝ} (hmu : 0 ≤ mu) (hs0 : 0 ≤ s)
    (hτ : IsNeoHookeanStress lam mu F tau) (hF : SmallStrain s F) (hF' : SmallStrain s ((1 + H) * F)) (hH : ddot H H ≤ 1) :
    |neoEnergy lam mu ((1 + H) * F) - neoEnergy lam mu F - ddot tau H| ≤ neoStiffness lam mu s d * ddot H H := by
  have hs := someSvd_isSvd F
  have hs' := someSvd_isSvd ((1 + H) * F)
  set σ := someSvd F with hσ
  set σ' := someSvd ((1 + H) * F) with hσ'
  have hdet' : ((1 + H) * F).det ≠ 0 := by
    rw [hs'.eq, Matrix.det_mul, Matrix.det_mul, Matrix.det_diagonal]
    have hne : ∀ {U : Matrix (Fin d) (Fin d) ℝ}, U * Uᵀ = 1 → U.det ≠ 0 := by
      intro U hU h0
      have := congrArg Matrix.det hU
      rw [Matrix.det_mul, h0, zero_mul, Matrix.det_one] at this
      exact zero_ne_one this
    refine mul_ne_zero (mul_ne_zero (hne hs'.orthU) (Finset.prod_ne_zero_iff.mpr fun i _ => (hF' σ' hs' i).1.ne')) ?_
    rw [Matrix.det_transpose]; exact hne hs'.orthV
  obtain ⟨hC1, hB⟩ := to_frame hs hs'
  have hdd : ddot (σ.Uᵀ * H * σ.U) (σ.Uᵀ * H * σ.U) = ddot H H := ddot_conj hs.orthU
  have ht : tau = σ.U * diagonal (fun i => mu * (σ.sig i ^ 2 - 1) + lam * ∑ j, Real.log (σ.sig j)) * σ.Uᵀ := by
    have e2 : Real.log F.det = ∑ j, Real.log (σ.sig j) := by
      have h1 := neoEnergy_eq (lam := 0) (mu := 1) hs hτ.1.ne'
      have hUU : σ.Uᵀ * σ.U = 1 := mul_eq_one_comm.mp hs.orthU
      rw [neoEnergy, FFt hs, Matrix.trace_mul_comm, ← Matrix.mul_assoc, hUU, Matrix.one_mul, Matrix.trace_diagonal,
        Finset.sum_sub_distrib] at h1
      simp at h1
      linarith
    have e3 : diagonal (fun i => mu * (σ.sig i ^ 2 - 1) + lam * ∑ j, Real.log (σ.sig j)) =
        mu • (diagonal (fun i => σ.sig i ^ 2) - 1) + (lam * ∑ j, Real.log (σ.sig j)) • (1 : Matrix (Fin d) (Fin d) ℝ) := by
      ext i j
      by_cases hij : i = j
      · subst hij; simp
      · simp [hij]
    rw [hτ.2, e2, e3, FFt hs, Matrix.mul_add, Matrix.add_mul, Matrix.mul_smul, Matrix.smul_mul, Matrix.mul_smul, Matrix.smul_mul,
      Matrix.mul_sub, Matrix.sub_mul, Matrix.mul_one, hs.orthU]
  rw [frame_power hs ht, ← hdd, neoEnergy_eq hs' hdet', neoEnergy_eq hs hτ.1.ne']
  exact frame_neo hmu hC1 hB (fun i => (hF σ hs i).1) (fun i => (hF' σ' hs' i).1) (fun i => (hF σ hs i).2)
    (fun i => (hF' σ' hs' i).2) hs0 (by rw [hdd]; exact hH)

/-- The strain energy does not depend on the decomposition. -/
lemma strainEnergy_eq {lam mu s : ℝ} {F tau : Matrix (Fin d) (Fin d) ℝ} (hmu : 0 ≤ mu) (hs0 : 0 ≤ s)
    (hτ : IsHenckyStress lam mu F tau) (hF : SmallStrain s F) {σ : Svd d} (hs : IsSvd F σ) :
    strainEnergy lam mu F = henckyEnergy lam mu σ.sig := by
  have h0 : ddot (0 : Matrix (Fin d) (Fin d) ℝ) 0 = 0 := by simp [ddot]
  have := C116_power (H := 0) (σ' := someSvd F) hmu hs0 hτ hs (by rw [add_zero, Matrix.one_mul]; exact someSvd_isSvd F) hF
    (by rw [add_zero, Matrix.one_mul]; exact hF) (by rw [h0]; exact zero_le_one)
  rw [h0, mul_zero, show ddot tau 0 = 0 by simp [ddot], sub_zero] at this
  have := abs_nonpos_iff.mp this
  rw [strainEnergy]
  linarith

/-! ### Materials -/

/-- A material with the strain energy `ψ`, for deformations with strains up to `s`: the stress `Str F` does the work by
which `ψ` grows, up to a term of second order with the factor `k`; after the plastic update a particle has the stress of
its deformation, and the plastic flow has not created energy. -/
structure EnergyLaw (cabs : ℝ → ℝ) (svd : Matrix (Fin d) (Fin d) ℝ → Svd d) (m : Material) (s : ℝ)
    (ψ : Matrix (Fin d) (Fin d) ℝ → ℝ) (Str : Matrix (Fin d) (Fin d) ℝ → Matrix (Fin d) (Fin d) ℝ → Prop) (k : ℝ) : Prop where
  nonneg : 0 ≤ k
  power : ∀ F H tau, Str F tau → SmallStrain s F → SmallStrain s ((1 + H) * F) → ddot H H ≤ 1 →
    ψ ((1 + H) * F) ≤ ψ F + ddot tau H + k * ddot H H
  flow : ∀ (dt : ℝ) (q : Particle d ℝ) (o : PState d), 0 < dt → SmallStrain s q.F → plasticity cabs svd m dt q false = some o →
    o.exit = false → Str o.q.F o.q.tau ∧ ψ o.q.F ≤ ψ q.F

lemma small_big {s : ℝ} (h9 : s ≤ 9) {F : Matrix (Fin d) (Fin d) ℝ} (h : SmallStrain s F) {σ : Svd d} (hs : IsSvd F σ) (i : Fin d) :
    1e-4 ≤ σ.sig i := by
  obtain ⟨h1, h2⟩ := h σ hs i
  have h3 : -9 ≤ Real.log (σ.sig i) := by linarith [(abs_le.mp h2).1]
  rw [Real.le_log_iff_exp_le h1] at h3
  refine le_trans ?_ h3
  have h4 : Real.exp 9 ≤ 10 ^ 4 := by
    have : Real.exp 9 = Real.exp 1 ^ 9 := by rw [← Real.exp_nat_mul]; norm_num
    rw [this]
    calc Real.exp 1 ^ 9 ≤ 2.7182818286 ^ 9 := pow_le_pow_left₀ (Real.exp_pos _).le Real.exp_one_lt_d9.le 9
      _ ≤ _ := by norm_num
  rw [Real.exp_neg, show (1e-4 : ℝ) = (10 ^ 4)⁻¹ by norm_num]
  exact inv_anti₀ (Real.exp_pos _) h4

/-- Materials whose plastic flow is dissipative. -/
def Flows (m : Material) : Prop :=
  m.plastic = .noPlasticity ∨
  (m.plastic = .vm ∧ 0 ≤ m.qMax) ∨
  (m.plastic = .dp ∧ 0 < m.M ∧ m.qCohesion = 0) ∨
  (m.plastic = .dpSoft ∧ 0 < m.M ∧ 0 ≤ m.qCohesion ∧ 0 ≤ m.xi ∧ (m.qCohesion = 0 ∨ m.usePradhana = false)) ∨
  (m.plastic = .dpVisc ∧ m.viscExponent = 1 ∧ 0 < m.M ∧ 0 ≤ m.qCohesion ∧ 0 ≤ m.viscTime ∧
    (m.qCohesion = 0 ∨ m.usePradhana = false)) ∨
  (m.plastic = .dpMui ∧ 0 < m.mu1 ∧ m.mu1 < m.mu2 ∧ 0 < m.facQ ∧ m.qCohesion = 0 ∧ m.usePradhana = false ∧ 0 ≤ m.stressTol)

/-- **C116** Hencky elasticity, alone or with one of five plastic models. -/
theorem C116_materials {cabs : ℝ → ℝ} {svd : Matrix (Fin d) (Fin d) ℝ → Svd d} {m : Material} {s : ℝ} (ok : MatOk m d) (hf : Flows m)
    (hs0 : 0 ≤ s) (h9 : s ≤ 9) (hsvd : ∀ F, IsSvd F (svd F)) :
    EnergyLaw cabs svd m s (strainEnergy m.lam m.mu) (IsHenckyStress m.lam m.mu) (stiffness m.lam m.mu s d) := by
  refine ⟨?_, fun F H tau hτ hF hF' hH => ?_, ?_⟩
  · unfold stiffness
    have := Real.exp_pos (8 * s)
    have := abs_nonneg m.lam
    have := ok.hmu
    positivity
  · have := (abs_le.mp (C116_power ok.hmu.le hs0 hτ (someSvd_isSvd F) (someSvd_isSvd _) hF hF' hH)).2
    simp only [strainEnergy]
    linarith
  intro dt q o hdt hF h hok
  suffices H : IsHenckyStress m.lam m.mu o.q.F o.q.tau ∧ EnergyLe m.lam m.mu o.q.F q.F from
    ⟨H.1, H.2 _ _ (someSvd_isSvd _) (someSvd_isSvd _)⟩
  have hb := small_big h9 hF (hsvd q.F)
  have hv : m.plastic ≠ .vmVisc := by
    intro e; rcases hf with h | ⟨h, -⟩ | ⟨h, -⟩ | ⟨h, -⟩ | ⟨h, -⟩ | ⟨h, -⟩ <;> rw [h] at e <;> cases e
  refine ⟨C42_hencky ok (hsvd q.F) hb (fun e => absurd e hv) h, ?_⟩
  rcases hf with hm | ⟨hm, h1⟩ | ⟨hm, h1, h2⟩ | ⟨hm, h1, h2, h3, h4⟩ | ⟨hm, h1, h2, h3, h4, h5⟩ | ⟨hm, h1, h2, h3, h4, h5, h6⟩
  · obtain ⟨st, hst, rfl⟩ := plasticity_some.mp h
    obtain ⟨-, rfl⟩ := (plastModel_noPlasticity hm).mp hst
    intro s' s0 hs' hs0
    have e1 := energy_pq ok (trial_stress (q := q) ok (hsvd q.F) hb) hs0
    have e2 := energy_pq ok (trial_stress (q := q) ok (hsvd q.F) hb) (s := s') hs'
    rw [e1, e2]
  · exact C66_vonMises (hsvd q.F) hb h ok hm h1
  · exact C66_druckerPrager (hsvd q.F) hb h ok hm h1 h2.ge (.inl h2)
  · exact C66_softening (hsvd q.F) hb h ok hm h1 h2 h3 h4
  · exact C66_viscousDruckerPrager (hsvd q.F) hb h ok hm (by rw [h1]; exact zero_le_one) h2 h3 h4 hdt (.inl h1) h5 hok
  · refine C66_muI (hsvd q.F) hb h ok hm h1 h2 h3 h4.ge h6 hdt (.inl h4) fun hp => ?_
    simp only [pressureShift, h5, Bool.false_eq_true, if_false, add_zero, h4, neg_zero, zero_div] at hp
    exact hp.le

/-- **C116** Neo-Hookean elasticity. -/
theorem C116_neoHookean {cabs : ℝ → ℝ} {svd : Matrix (Fin d) (Fin d) ℝ → Svd d} {m : Material} {s : ℝ}
    (hel : m.elastic = .neoHookean) (hp : m.plastic = .noPlasticity) (hmu : 0 ≤ m.mu) (hs0 : 0 ≤ s) :
    EnergyLaw cabs svd m s (neoEnergy m.lam m.mu) (IsNeoHookeanStress m.lam m.mu) (neoStiffness m.lam m.mu s d) := by
  refine ⟨?_, fun F H tau hτ hF hF' hH => ?_, fun dt q o hdt hF h hok => ?_⟩
  · unfold neoStiffness
    have := Real.exp_pos (8 * s)
    have := abs_nonneg m.lam
    positivity
  · have := (abs_le.mp (C116_neoHookean_power hmu hs0 hτ hF hF' hH)).2
    linarith
  · obtain ⟨h1, h2⟩ := C42_neoHookean hel hp h
    rw [h1]
    exact ⟨h2, le_rfl⟩

/-! ### Runs -/

section run
variable {R : Setup (d + 2)} {st : LoopState (d + 2) (World (d + 2))} {i e : Bool} {fuel : ℕ}
variable {deg : Deg} {dx fr m vol s k : ℝ} {ψ : Matrix (Fin (d + 2)) (Fin (d + 2)) ℝ → ℝ}
  {Str : Matrix (Fin (d + 2)) (Fin (d + 2)) ℝ → Matrix (Fin (d + 2)) (Fin (d + 2)) ℝ → Prop}

/-- What is required of the particles in a step: before and after the motion the strains are at most `s`, and no
displacement gradient is larger than 1. -/
def MildStep (s : ℝ) (deg : Deg) (dx : ℝ) (r : StepRecord (d + 2)) : Prop :=
  ∀ p ∈ r.before.ps, SmallStrain s p.F ∧ SmallStrain s ((1 + r.dt • rateAt deg dx r.after p.x) * p.F) ∧
    r.dt ^ 2 * ddot (rateAt deg dx r.after p.x) (rateAt deg dx r.after p.x) ≤ 1

lemma ddot_smul_self (c : ℝ) (L : Matrix (Fin d) (Fin d) ℝ) : ddot (c • L) (c • L) = c ^ 2 * ddot L L := by
  simp only [ddot, Matrix.smul_apply, smul_eq_mul, Finset.mul_sum]
  exact Finset.sum_congr rfl fun i _ => Finset.sum_congr rfl fun j _ => by ring

lemma ddot_smul_right (c : ℝ) (A L : Matrix (Fin d) (Fin d) ℝ) : ddot A (c • L) = c * ddot A L := by
  simp only [ddot, Matrix.smul_apply, smul_eq_mul, Finset.mul_sum]
  exact Finset.sum_congr rfl fun i _ => Finset.sum_congr rfl fun j _ => by ring

lemma forall₂_sum_le {α β : Type*} {P : α → β → Prop} {f : α → ℝ} {g : β → ℝ} {l : List α} {r : List β}
    (h : List.Forall₂ P l r) (H : ∀ a b, P a b → g b ≤ f a) : (r.map g).sum ≤ (l.map f).sum := by
  induction h with
  | nil => simp
  | cons h1 _ ih => simp only [List.map_cons, List.sum_cons]; exact add_le_add (H _ _ h1) ih

lemma sum_map_add {α : Type*} (f g : α → ℝ) (l : List α) : (l.map fun a => f a + g a).sum = (l.map f).sum + (l.map g).sum := by
  induction l with
  | nil => simp
  | cons a l ih => simp only [List.map_cons, List.sum_cons, ih]; ring

lemma sum_map_mul (c : ℝ) {α : Type*} (f : α → ℝ) (l : List α) : (l.map fun a => c * f a).sum = c * (l.map f).sum := by
  induction l with
  | nil => simp
  | cons a l ih => simp only [List.map_cons, List.sum_cons, ih]; ring

/-- **C116** One step: the elastic energy grows by no more than the work of the stresses on the strains of the step and a
term of second order, and the particles have the stresses of their new deformations. -/
theorem C116_elastic (hS : R.S.P = mkTransferParams deg dx fr false m vol) (hd : deg ≠ .one) (hdx : 0 < dx) (hvol : 0 ≤ vol)
    (hpbc : R.S.pbc = false) (hcp : R.S.changePos = false) (hsched : ∀ k ps, (R.sched k ps).flatten.Perm ps)
    (hlaw : EnergyLaw R.cabs R.svd R.m s ψ Str k)
    {s1 : LoopState (d + 2) (World (d + 2))} {dt : ℝ} {g : Fin (d + 2) → ℝ} {w : World (d + 2)}
    (hdt : 0 < dt) (hst : StepOf R st s1 dt g w) (hτ : ∀ p ∈ s1.w.ps, Str p.F p.tau)
    (hmild : MildStep s deg dx ⟨s1.w, w, dt, g⟩) :
    elasticEnergy ψ vol w.ps ≤ elasticEnergy ψ vol s1.w.ps +
      stressWork deg dx vol ⟨s1.w, w, dt, g⟩ +
      k * vol * squaredIncrements deg dx ⟨s1.w, w, dt, g⟩ ∧
    ∀ q ∈ w.ps, Str q.F q.tau := by
  have hL : ∀ x, velGrad deg dx w.g w.vel x = rateAt deg dx w x := fun x => (jacobian_eq (hasFDerivAt_field hd w.g w.vel x)).symm
  have key : List.Forall₂ (fun p q => Str q.F q.tau ∧
      ψ q.F ≤ ψ p.F + dt * ddot p.tau (rateAt deg dx w p.x) +
        k * (dt ^ 2 * ddot (rateAt deg dx w p.x) (rateAt deg dx w p.x))) s1.w.ps w.ps := by
    refine forall₂_imp_mem (step_motion hS hdx hpbc hcp (hsched _) hst.phys)
      fun p hp q ⟨r, o, h1, h2, h3, h4, h5, h6, h7, h8⟩ => ?_
    obtain ⟨out, ho, rfl⟩ := plasticUpdate_some h1
    obtain ⟨m1, m2, m3⟩ := hmild p hp
    simp only at m2 m3 h2 h7
    rw [hL] at h4
    rw [← h4] at m2
    obtain ⟨k1, k2⟩ := hlaw.flow dt r out hdt m2 ho (h8 rfl)
    rw [h2, h7]
    refine ⟨k1, ?_⟩
    have hpow := hlaw.power p.F (dt • rateAt deg dx w p.x) p.tau (hτ p hp) m1 (by rw [← h4]; exact m2) (by rw [ddot_smul_self]; exact m3)
    rw [ddot_smul_self, ddot_smul_right, ← h4] at hpow
    linarith
  refine ⟨?_, fun q hq => ?_⟩
  · have h1 := forall₂_sum_le key fun p q h => h.2
    rw [sum_map_add, sum_map_add, sum_map_mul, sum_map_mul, sum_map_mul] at h1
    have h2 := mul_le_mul_of_nonneg_left h1 hvol
    simp only [elasticEnergy, stressWork, squaredIncrements]
    have e : ∀ x, ∑ i ∈ gridIndices w.g, vecMulVec (w.vel (flatIndex w.g.size i)) (shapeGrad deg dx (nodeAt w.g i) x) = rateAt deg dx w x := hL
    simp only [e]
    linarith
  · obtain ⟨p, -, h, -⟩ := forall₂_right key q hq
    exact h

/-- **C116** One step of a run between resting walls without MUSL: kinetic and elastic energy together grow by no more
than the work of gravity and a term of second order in the time step. -/
theorem C116_step (hS : R.S.P = mkTransferParams deg dx fr false m vol) (hd : deg ≠ .one) (hdx : 0 < dx) (hm : 0 < m)
    (hvol : 0 ≤ vol) (hfr : fr < -1 ∨ 0 ≤ fr ∧ fr ≤ 1) (hpbc : R.S.pbc = false) (hcp : R.S.changePos = false)
    (hmusl : R.S.useMusl = false) (hsched : ∀ k ps, (R.sched k ps).flatten.Perm ps) (hops : BrakeOps R.ops)
    (hw : StillWalls R.objs st.w.plates) (hlaw : EnergyLaw R.cabs R.svd R.m s ψ Str k)
    {s1 : LoopState (d + 2) (World (d + 2))} {dt : ℝ} {g : Fin (d + 2) → ℝ} {w : World (d + 2)}
    (hdt : 0 < dt) (hst : StepOf R st s1 dt g w) (hn : NoTinyWeights deg dx w.g s1.w.ps)
    (hτ : ∀ p ∈ s1.w.ps, Str p.F p.tau) (hmild : MildStep s deg dx ⟨s1.w, w, dt, g⟩) :
    motionEnergy m (affineFactor deg dx fr) w.ps + elasticEnergy ψ vol w.ps ≤
      motionEnergy m (affineFactor deg dx fr) s1.w.ps + elasticEnergy ψ vol s1.w.ps +
      g ⬝ᵥ (firstMoment m w.ps - firstMoment m s1.w.ps) +
      k * vol * squaredIncrements deg dx ⟨s1.w, w, dt, g⟩ := by
  obtain ⟨v, c1, -, c3⟩ := C86_run_step hS hd hdx hm hfr hpbc hcp hsched hops hw hst hn
  simp only [c1 hmusl] at c3
  have h1 := (C116_elastic hS hd hdx hvol hpbc hcp hsched hlaw hdt hst hτ hmild).1
  simp only [stressWork] at h1
  linarith

lemma elasticEnergy_begin (vol : ℝ) : elasticEnergy ψ vol (begin R st).w.ps = elasticEnergy ψ vol st.w.ps := by
  rw [begin_w]
  unfold fillMuI
  split_ifs <;> simp [elasticEnergy, Function.comp_def]

lemma stress_begin (h : ∀ p ∈ st.w.ps, Str p.F p.tau) : ∀ p ∈ (begin R st).w.ps, Str p.F p.tau := by
  rw [begin_w]
  unfold fillMuI
  split_ifs
  all_goals first
    | exact h
    | (intro p hp
       obtain ⟨q, hq, rfl⟩ := List.mem_map.mp hp
       exact h q hq)

/-- **C116** The total energy in the files of a run between resting walls, without MUSL and with constant gravity: kinetic,
elastic and potential energy together are at most what they were at the start, plus a stiffness times the squared strain
increments of the steps before. -/
theorem C116_run (hS : R.S.P = mkTransferParams deg dx fr false m vol) (hd : deg ≠ .one) (hdx : 0 < dx) (hm : 0 < m)
    (hvol : 0 ≤ vol) (hfr : fr < -1 ∨ 0 ≤ fr ∧ fr ≤ 1) (hpbc : R.S.pbc = false) (hcp : R.S.changePos = false)
    (hmusl : R.S.useMusl = false) (hgrav : R.C.gravitySpecial = false) (hmin : 0 < R.C.minDt)
    (hsched : ∀ k ps, (R.sched k ps).flatten.Perm ps) (hops : BrakeOps R.ops)
    (hw : StillWalls R.objs st.w.plates) (hlaw : EnergyLaw R.cabs R.svd R.m s ψ Str k)
    (hn : ∀ s1 dt g w, StepOf R st s1 dt g w → NoTinyWeights deg dx w.g s1.w.ps)
    (hmild : ∀ s1 dt g w, StepOf R st s1 dt g w → MildStep s deg dx ⟨s1.w, w, dt, g⟩)
    (hτ : ∀ p ∈ st.w.ps, Str p.F p.tau)
    {n : ℕ} {t : ℝ} {w : World (d + 2)}
    (hev : .particles n t w ∈ filesOf (runProgram R i e fuel st)) (hnew : .particles n t w ∉ st.out) :
    ∃ hist, Steps R st hist w ∧ t = (hist.map fun r => r.dt).sum ∧
      motionEnergy m (affineFactor deg dx fr) w.ps + elasticEnergy ψ vol w.ps - st.gravity ⬝ᵥ firstMoment m w.ps ≤
        motionEnergy m (affineFactor deg dx fr) st.w.ps + elasticEnergy ψ vol st.w.ps -
          st.gravity ⬝ᵥ firstMoment m st.w.ps +
        k * vol * (hist.map (squaredIncrements deg dx)).sum := by
  obtain ⟨hist, h1, h2⟩ := run_steps hev hnew
  refine ⟨hist, h1, h2, ?_⟩
  have hg : ∀ {s1 dt g w}, StepOf R st s1 dt g w → g = st.gravity := by
    intro s1 dt g w hst
    refine (run_inv (Inv := fun _ _ _ g => g = st.gravity) rfl ?_ hst).2
    intro s1 dt g w hst h
    rw [hst.dt_ge.2, rampGravity, hgrav, if_neg (by simp), h]
  clear h2 hev hnew
  suffices H : (∀ p ∈ w.ps, Str p.F p.tau) ∧
      motionEnergy m (affineFactor deg dx fr) w.ps + elasticEnergy ψ vol w.ps - st.gravity ⬝ᵥ firstMoment m w.ps ≤
        motionEnergy m (affineFactor deg dx fr) st.w.ps + elasticEnergy ψ vol st.w.ps -
          st.gravity ⬝ᵥ firstMoment m st.w.ps +
        k * vol * (hist.map (squaredIncrements deg dx)).sum from H.2
  induction h1 with
  | nil =>
    rw [motionEnergy_begin, firstMoment_begin, elasticEnergy_begin]
    exact ⟨stress_begin hτ, by simp⟩
  | @snoc hist s1 dt g w hh hst ih =>
    have hdt : 0 < dt := hmin.trans_le hst.dt_ge.1
    have c1 := C116_elastic hS hd hdx hvol hpbc hcp hsched hlaw hdt hst ih.1 (hmild _ _ _ _ hst)
    have c2 := C116_step hS hd hdx hm hvol hfr hpbc hcp hmusl hsched hops hw hlaw hdt hst (hn _ _ _ _ hst) ih.1 (hmild _ _ _ _ hst)
    refine ⟨c1.2, ?_⟩
    rw [hg hst] at c2
    simp only [dotProduct_sub] at c2
    simp only [List.map_append, List.map_cons, List.map_nil, List.sum_append, List.sum_cons, List.sum_nil, add_zero]
    rw [show (⟨s1.w, w, dt, g⟩ : StepRecord (d + 2)) = ⟨s1.w, w, dt, st.gravity⟩ by rw [hg hst]]
    have := ih.2
    linarith

/-- **C116** If no velocity gradient exceeds `γ`, the total energy grows by no more than a constant times the longest time step,
per time and particle: the growth goes to zero with the time step. -/
theorem C116_rate (hS : R.S.P = mkTransferParams deg dx fr false m vol) (hd : deg ≠ .one) (hdx : 0 < dx) (hm : 0 < m)
    (hvol : 0 ≤ vol) (hfr : fr < -1 ∨ 0 ≤ fr ∧ fr ≤ 1) (hpbc : R.S.pbc = false) (hcp : R.S.changePos = false)
    (hmusl : R.S.useMusl = false) (hgrav : R.C.gravitySpecial = false) (hmin : 0 < R.C.minDt)
    (hsched : ∀ k ps, (R.sched k ps).flatten.Perm ps) (hops : BrakeOps R.ops)
    (hw : StillWalls R.objs st.w.plates) (hlaw : EnergyLaw R.cabs R.svd R.m s ψ Str k)
    (hn : ∀ s1 dt g w, StepOf R st s1 dt g w → NoTinyWeights deg dx w.g s1.w.ps)
    (hmild : ∀ s1 dt g w, StepOf R st s1 dt g w → MildStep s deg dx ⟨s1.w, w, dt, g⟩)
    (hτ : ∀ p ∈ st.w.ps, Str p.F p.tau) {γ : ℝ}
    (hγ : ∀ s1 dt g w, StepOf R st s1 dt g w → ∀ p ∈ s1.w.ps, ddot (rateAt deg dx w p.x) (rateAt deg dx w p.x) ≤ γ ^ 2)
    {n : ℕ} {t : ℝ} {w : World (d + 2)}
    (hev : .particles n t w ∈ filesOf (runProgram R i e fuel st)) (hnew : .particles n t w ∉ st.out) :
    motionEnergy m (affineFactor deg dx fr) w.ps + elasticEnergy ψ vol w.ps - st.gravity ⬝ᵥ firstMoment m w.ps ≤
      motionEnergy m (affineFactor deg dx fr) st.w.ps + elasticEnergy ψ vol st.w.ps -
        st.gravity ⬝ᵥ firstMoment m st.w.ps +
      k * vol * (st.w.ps.length * γ ^ 2 * max R.C.dtMax R.C.minDt * t) := by
  obtain ⟨hist, h1, h2, h3⟩ := C116_run hS hd hdx hm hvol hfr hpbc hcp hmusl hgrav hmin hsched hops hw hlaw hn hmild hτ hev hnew
  refine h3.trans (add_le_add le_rfl (mul_le_mul_of_nonneg_left ?_ ?_))
  · rw [h2]
    clear h2 h3 hev hnew
    suffices H : w.ps.length = st.w.ps.length ∧ (hist.map (squaredIncrements deg dx)).sum ≤
        st.w.ps.length * γ ^ 2 * max R.C.dtMax R.C.minDt * (hist.map fun r => r.dt).sum from H.2
    induction h1 with
    | nil =>
      refine ⟨?_, by simp⟩
      rw [begin_w]; unfold fillMuI; split_ifs <;> simp
    | @snoc hist s1 dt g w hh hst ih =>
      have hdt : 0 < dt := hmin.trans_le hst.dt_ge.1
      have k1 := hst.dt_le
      have k2 := hγ _ _ _ _ hst
      refine ⟨(step_motion hS hdx hpbc hcp (hsched _) hst.phys).length_eq.symm.trans ih.1, ?_⟩
      simp only [List.map_append, List.map_cons, List.map_nil, List.sum_append, List.sum_cons, List.sum_nil, add_zero]
      have k3 : (s1.w.ps.map fun p => ddot (rateAt deg dx w p.x) (rateAt deg dx w p.x)).sum ≤ s1.w.ps.length * γ ^ 2 := by
        have := List.sum_le_card_nsmul (s1.w.ps.map fun p => ddot (rateAt deg dx w p.x) (rateAt deg dx w p.x)) (γ ^ 2) (by
          intro x hx
          obtain ⟨p, hp, rfl⟩ := List.mem_map.mp hx
          exact k2 p hp)
        simpa using this
      have k4 : squaredIncrements deg dx ⟨s1.w, w, dt, g⟩ ≤ st.w.ps.length * γ ^ 2 * max R.C.dtMax R.C.minDt * dt := by
        rw [← ih.1]
        have u1 := mul_le_mul_of_nonneg_left k3 (sq_nonneg dt)
        have u2 : 0 ≤ (s1.w.ps.length : ℝ) * γ ^ 2 * dt := by positivity
        have u3 := mul_le_mul_of_nonneg_left k1 u2
        simp only [squaredIncrements]
        calc _ ≤ dt ^ 2 * (s1.w.ps.length * γ ^ 2) := u1
          _ = s1.w.ps.length * γ ^ 2 * dt * dt := by ring
          _ ≤ _ := u3
          _ = _ := by ring
      have := ih.2
      linarith
  · exact mul_nonneg hlaw.nonneg hvol

end run

lemma forall₂_both {α β : Type*} {P Q : α → β → Prop} {l : List α} {r : List β} (h : List.Forall₂ P l r) :
    List.Forall₂ Q l r → List.Forall₂ (fun a b => P a b ∧ Q a b) l r := by
  induction h with
  | nil => intro _; exact .nil
  | cons h1 _ ih =>
    intro h2
    cases h2 with
    | cons h3 h4 => exact .cons ⟨h1, h3⟩ (ih h4)

lemma forall₂_left {α β : Type*} {P : α → Prop} {l : List α} {r : List β} (h : List.Forall₂ (fun a _ => P a) l r) : ∀ a ∈ l, P a := by
  induction h with
  | nil => simp
  | cons h1 _ ih =>
    intro a ha
    rcases List.mem_cons.mp ha with rfl | ha
    · exact h1
    · exact ih a ha

/-! ### The wheel -/

namespace RunEx

/-- An elastic body with the APIC scheme. -/
def elastic : Setup 2 :=
  { setup false 1 .noPlasticity with S := ⟨mkTransferParams .two 1 (-2) false 3 1, false, false, false, 1, none⟩ }

lemma elastic_run : ∃ t w, .particles 1 t w ∈ filesOf (runProgram elastic true false 10 (start wheel 0)) := by
  have hcrit := only_begin_slow (R := elastic) rfl (ps := wheel) (by simp [wheel]) wheel_slow 0 (pl := [])
  obtain ⟨r, h1, -, t, w, h2, -⟩ := C61_completes (R := elastic) (s := start wheel 0) (deg := .two)
    (dx := 1) (fr := -2) (m := 3) (vol := 1) (i := true) (e := false) (fuel := 10)
    rfl one_pos rfl rfl (by simp [start, wheel]) (fun _ _ => by simp [elastic, setup]) (.inl (.inl ⟨rfl, rfl⟩))
    (.inl rfl) rfl (by norm_num [elastic, setup, cfg, exConfig]) (by norm_num) (by norm_num [elastic, setup, cfg, exConfig])
    (by norm_num [elastic, setup, cfg, exConfig]) rfl (by norm_num [elastic, setup, cfg, exConfig])
    (fun k s1 hr hk => absurd (hcrit k s1 hr) hk.ne')
  refine ⟨t 1, w 1, ?_⟩
  rw [h1]
  show _ ∈ r.out
  rw [h2]
  simp [frameFiles, elastic, setup, cfg, exConfig]

/-- The only step of the wheel. -/
lemma elastic_step {s1 : LoopState 2 (World 2)} {dt : ℝ} {g : Fin 2 → ℝ} {w : World 2}
    (hst : StepOf (d := 0) elastic (start wheel 0) s1 dt g w) :
    s1.w.ps = wheel ∧ 0 < dt ∧ dt ≤ 1 ∧ NoTinyWeights .two 1 w.g s1.w.ps ∧ (∀ p ∈ wheel, rateAt .two 1 w p.x = spinning2 (1 / 2)) ∧
    List.Forall₂ (fun p q => q.v = p.v + dt • g ∧ q.Bmat = p.Bmat ∧ q.F = (1 + dt • spinning2 (1 / 2)) * p.F) wheel w.ps := by
  obtain ⟨m0, h0, h1⟩ := run_lattice (d := 0) (R := elastic) (dx := 1) rfl one_pos rfl rfl (by simp [start, wheel]) hst
  have hst' := hst
  obtain ⟨k, hr, -⟩ := hst'
  have hk := only_begin_slow (R := elastic) rfl (ps := wheel) (by simp [wheel]) wheel_slow 0 k s1 hr
  subst hk
  cases hr
  have hw : (begin (d := 0) elastic (start wheel 0)).w.ps = wheel := by
    rw [begin_w]; simp [fillMuI, elastic, setup, start, mkTransferParams]
  have hp : (begin (d := 0) elastic (start wheel 0)).w.plates = [] := by
    rw [begin_w]; simp [fillMuI, elastic, setup, start, mkTransferParams]
  have hm : ∀ a, ∃ j : ℤ, m0 a = j := by
    intro a
    rcases (h0 a).1 with ⟨x, hx, e⟩ | ⟨r, hr, _⟩
    · obtain ⟨q, hq, rfl⟩ := List.mem_map.mp hx
      obtain ⟨j, hj⟩ := wheel_pos q hq a
      exact ⟨j, by rw [← e, hj]⟩
    · cases hr
  have hnode : ∀ i, IsNode w.g i → ∀ a, ∃ k : ℤ, nodeAt w.g i a = k := by
    intro j hj a
    obtain ⟨k, hk⟩ := h1 a _ (List.getElem_mem (hj a))
    obtain ⟨z, hz⟩ := hm a
    refine ⟨z + k, ?_⟩
    rw [nodeAt, List.getD_eq_getElem?_getD, List.getElem?_eq_getElem (hj a), Option.getD_some, hk, hz]
    push_cast; ring
  have htiny : NoTinyWeights .two 1 w.g wheel := int_noTiny wheel_pos hnode
  have hdt : 0 < dt := lt_of_lt_of_le (by norm_num [elastic, setup, cfg, exConfig]) hst.dt_ge.1
  refine ⟨hw, hdt, ?_, by rw [hw]; exact htiny, ?_⟩
  · have e1 : elastic.C.dtMax = 1 := ex_dtMax (1 / 10) 1
    have := hst.dt_le
    rw [e1] at this
    exact this.trans (by norm_num [elastic, setup, cfg, exConfig])
  · have k1 := C115_step (R := elastic) (deg := .two) (dx := 1) (fr := -2) (m := 3) (vol := 1)
      (mibf := false) (C := spinning2 (1 / 2)) (a := 0) (o := m0) rfl (by simp) one_pos (by norm_num) (by norm_num) rfl rfl rfl hp
      (fun _ => by simp [elastic, setup])
      hst.phys h1 (by rw [hw]; exact htiny) (by rw [hw]; exact wheel_moves) (by rw [hw]; exact fun p hp => (wheel_free p hp).1)
    have k2 := C102_step (R := elastic) (deg := .two) (dx := 1) (fr := -2) (m := 3) (vol := 1) (mibf := false)
      rfl (by simp) one_pos rfl rfl (fun _ _ => by simp [elastic, setup]) hst
    rw [hw] at k1 k2
    have k3 : List.Forall₂ (fun p q => rateAt .two 1 w p.x = spinning2 (1 / 2)) wheel w.ps := by
      refine forall₂_imp_mem (forall₂_both k1 k2) ?_
      rintro p hp q ⟨⟨-, -, -, r, out, ho, e1, e2, -⟩, -, e3, -⟩
      have hF : p.F = 1 := by
        simp only [wheel, List.mem_cons, List.not_mem_nil, or_false] at hp
        rcases hp with rfl | rfl <;> rfl
      obtain ⟨sp, hsp, rfl⟩ := plasticity_some.mp ho
      obtain ⟨-, rfl⟩ := (plastModel_noPlasticity rfl).mp hsp
      have e4 : q.F = r.F := e2
      have e5 : jacobian (advect .two 1 dt w) p.x = 1 + dt • rateAt .two 1 w p.x := by
        rw [jacobian_eq (hasFDerivAt_advect (by simp) w p.x), rateAt, jacobian_eq (hasFDerivAt_field (by simp) w.g w.vel p.x)]
      have e6 := e3 rfl
      rw [e4, e1, e5, hF, Matrix.mul_one, Matrix.mul_one] at e6
      exact (smul_right_injective _ hdt.ne' (add_left_cancel e6)).symm
    refine ⟨forall₂_left k3, k1.imp ?_⟩
    rintro p q ⟨e1, -, e2, r, out, ho, e3, e4, -⟩
    obtain ⟨sp, hsp, rfl⟩ := plasticity_some.mp ho
    obtain ⟨-, rfl⟩ := (plastModel_noPlasticity rfl).mp hsp
    exact ⟨e1, e2, by rw [e4, ← e3]⟩

lemma sig_scalar {F : Matrix (Fin 2) (Fin 2) ℝ} {c : ℝ} (hFF : F * Fᵀ = c • 1) {σ : Svd 2} (hs : IsSvd F σ) (i : Fin 2) :
    σ.sig i ^ 2 = c := by
  have hUU : σ.Uᵀ * σ.U = 1 := mul_eq_one_comm.mp hs.orthU
  have e : diagonal (fun i => σ.sig i ^ 2) = c • (1 : Matrix (Fin 2) (Fin 2) ℝ) := by
    have h5 := FFt hs
    rw [hFF] at h5
    have h6 : σ.Uᵀ * (c • 1) * σ.U = σ.Uᵀ * (σ.U * diagonal (fun i => σ.sig i ^ 2) * σ.Uᵀ) * σ.U := by rw [h5]
    rw [show σ.Uᵀ * (σ.U * diagonal (fun i => σ.sig i ^ 2) * σ.Uᵀ) * σ.U =
      (σ.Uᵀ * σ.U) * diagonal (fun i => σ.sig i ^ 2) * (σ.Uᵀ * σ.U) by simp only [Matrix.mul_assoc], hUU, Matrix.one_mul,
      Matrix.mul_one, Matrix.mul_smul, Matrix.mul_one, Matrix.smul_mul, hUU] at h6
    exact h6.symm
  have := congrFun (congrFun e i) i
  simpa using this

lemma wheel_FF (dt : ℝ) : (1 + dt • spinning2 (1 / 2)) * (1 + dt • spinning2 (1 / 2))ᵀ = (1 + dt ^ 2 / 4) • (1 : Matrix (Fin 2) (Fin 2) ℝ) := by
  have := rotated_FF (C := spinning2 (1 / 2)) (F0 := 1) (dt := dt) (by simp) (by ext a b; fin_cases a <;> fin_cases b <;> simp [spinning2])
  rw [Matrix.mul_one] at this
  rw [this]
  ext a b
  fin_cases a <;> fin_cases b <;> simp [spinning2, Matrix.mul_apply, Fin.sum_univ_two] <;> ring

lemma forall_wheel {s1 : LoopState 2 (World 2)} {dt : ℝ} {g : Fin 2 → ℝ} {w : World 2}
    (hst : StepOf (d := 0) elastic (start wheel 0) s1 dt g w) : MildStep (d := 0) 1 .two 1 ⟨s1.w, w, dt, g⟩ := by
  obtain ⟨h1, h2, h3, -, h4, -⟩ := elastic_step hst
  have hC : ddot (spinning2 (1 / 2)) (spinning2 (1 / 2)) = 1 / 2 := by
    simp [ddot, spinning2, Fin.sum_univ_two]; norm_num
  intro p hp
  simp only at hp ⊢
  rw [h1] at hp
  have hF : p.F = 1 := by
    simp only [wheel, List.mem_cons, List.not_mem_nil, or_false] at hp
    rcases hp with rfl | rfl <;> rfl
  have hsq : dt ^ 2 ≤ 1 := by nlinarith
  rw [h4 p hp]
  have key : ∀ (F : Matrix (Fin 2) (Fin 2) ℝ) (c : ℝ), 1 ≤ c → c ≤ 2 → F * Fᵀ = c • 1 → SmallStrain 1 F := by
    intro F c hc1 hc2 hFF σ hs i
    have h7 := sig_scalar hFF hs i
    have h8 : 1 ≤ σ.sig i := by nlinarith [hs.nonneg i]
    have h9 : σ.sig i ≤ 2 := by nlinarith [hs.nonneg i]
    refine ⟨by linarith, ?_⟩
    rw [abs_of_nonneg (Real.log_nonneg h8)]
    have := Real.log_le_sub_one_of_pos (show 0 < σ.sig i by linarith)
    linarith
  refine ⟨?_, ?_, ?_⟩
  · rw [hF]; exact key 1 1 le_rfl (by norm_num) (by simp)
  · rw [hF]
    refine key _ (1 + dt ^ 2 / 4) (by nlinarith) (by linarith) ?_
    rw [Matrix.mul_one]; exact wheel_FF dt
  · rw [hC]; linarith

lemma one_sig {σ : Svd 2} (hs : IsSvd 1 σ) (i : Fin 2) : Real.log (σ.sig i) = 0 := by
  have h7 : σ.sig i ^ 2 = 1 := sig_scalar (by simp) hs i
  have h8 : σ.sig i = 1 := by nlinarith [hs.nonneg i]
  rw [h8, Real.log_one]

lemma one_free (lam mu : ℝ) : IsHenckyStress (d := 2) lam mu 1 0 := by
  refine ⟨by simp, fun σ hs => ?_⟩
  simp [one_sig hs]

lemma one_energy (lam mu : ℝ) : strainEnergy (d := 2) lam mu 1 = 0 := by
  simp [strainEnergy, henckyEnergy, one_sig (someSvd_isSvd 1)]

lemma wheel_energy : motionEnergy 3 4 wheel = (3 / 4 : ℝ) := by
  simp [motionEnergy, wheel, Particle.init, ddot, spinning2, Fin.sum_univ_two]
  norm_num

lemma wheel_elastic (lam mu : ℝ) : elasticEnergy (strainEnergy lam mu) 1 wheel = 0 := by
  simp [elasticEnergy, wheel, Particle.init, one_energy]

/-- **C116** The term of second order cannot be dropped: without gravity and without walls the total energy of the elastic
wheel, kinetic energy only at the start, is larger in the next frame. -/
theorem C116_conserved_false : ∃ t w, .particles 1 t w ∈ filesOf (runProgram elastic true false 10 (start wheel 0)) ∧
    motionEnergy 3 4 wheel + elasticEnergy (strainEnergy elastic.m.lam elastic.m.mu) 1 wheel <
      motionEnergy 3 4 w.ps + elasticEnergy (strainEnergy elastic.m.lam elastic.m.mu) 1 w.ps := by
  obtain ⟨t, w, hev⟩ := elastic_run
  refine ⟨t, w, hev, ?_⟩
  rcases run_particles (d := 0) hev (by simp [start]) with ⟨hh, -, -⟩ | ⟨s1, dt, g, hst, rfl⟩
  · cases hh
  obtain ⟨-, hdt, -, -, -, h5⟩ := elastic_step hst
  have hg : g = 0 := by
    refine (run_inv (Inv := fun _ _ _ g => g = 0) rfl ?_ hst).2
    intro s1 dt g w hst h
    rw [hst.dt_ge.2, rampGravity, h]
    rw [if_neg (by simp [elastic, setup, cfg, exConfig])]
  subst hg
  unfold wheel at h5
  obtain ⟨q1, l1, ⟨a1, b1, c1⟩, h6, hl⟩ := List.forall₂_cons_left_iff.mp h5
  obtain ⟨q2, l2, ⟨a2, b2, c2⟩, h7, hl2⟩ := List.forall₂_cons_left_iff.mp h6
  rw [List.forall₂_nil_left_iff] at h7
  subst h7
  subst hl2
  simp only [smul_zero, add_zero] at a1 a2
  have hF : ∀ {q : Particle 2 ℝ}, q.F = (1 + dt • spinning2 (1 / 2)) * 1 → 0 < strainEnergy elastic.m.lam elastic.m.mu q.F := by
    intro q hq
    rw [Matrix.mul_one] at hq
    have h1 := fun i => sig_scalar (c := 1 + dt ^ 2 / 4) (F := q.F) (by rw [hq]; exact wheel_FF dt) (someSvd_isSvd q.F) i
    have h2 : ∀ i, 0 < Real.log ((someSvd q.F).sig i) := fun i => by
      have : 0 < dt ^ 2 := by positivity
      exact Real.log_pos (by nlinarith [h1 i, (someSvd_isSvd q.F).nonneg i])
    have hmu : 0 < elastic.m.mu := (Ex.mat_ok .noPlasticity).hmu
    have hlam : 0 ≤ elastic.m.lam := by norm_num [elastic, setup, Ex.mat, Material.lam]
    simp only [strainEnergy, henckyEnergy, Fin.sum_univ_two]
    have := h2 0
    have := h2 1
    positivity
  have e1 := hF (q := q1) c1
  have e2 := hF (q := q2) c2
  rw [wheel_elastic, add_zero, hl]
  have e3 : motionEnergy 3 4 [q1, q2] = motionEnergy 3 4 wheel := by
    simp only [motionEnergy, wheel, List.map_cons, List.map_nil, a1, a2, b1, b2]
  rw [e3]
  simp only [elasticEnergy, List.map_cons, List.map_nil, List.sum_cons, List.sum_nil]
  linarith

/-- `C116_run` and `C116_rate` for a spinning wheel, whose only energy at the start is kinetic. -/
example : ∃ t w, .particles 1 t w ∈ filesOf (runProgram elastic true false 10 (start wheel 0)) ∧
    motionEnergy 3 4 w.ps + elasticEnergy (strainEnergy elastic.m.lam elastic.m.mu) 1 w.ps ≤
      3 / 4 + stiffness elastic.m.lam elastic.m.mu 1 2 * (2 * t) := by
  obtain ⟨t, w, hev⟩ := elastic_run
  refine ⟨t, w, hev, ?_⟩
  have h := C116_rate (d := 0) (R := elastic) (st := start wheel 0) (deg := .two) (dx := 1) (fr := -2) (m := 3) (vol := 1) (s := 1) (γ := 1)
    rfl (by simp) one_pos (by norm_num) zero_le_one (.inl (by norm_num)) rfl rfl rfl rfl (by norm_num [elastic, setup, cfg, exConfig])
    (fun _ _ => by simp [elastic, setup]) brake2 (.inl ⟨rfl, fun p hp => by simp [start] at hp⟩) 
    (C116_materials (Ex.mat_ok .noPlasticity) (.inl rfl) zero_le_one (by norm_num) someSvd_isSvd) (fun _ _ _ _ h => (elastic_step h).2.2.2.1)
    (fun _ _ _ _ h => forall_wheel h) ?_ ?_ hev (by simp [start])
  · have hκ : affineFactor .two (1 : ℝ) (-2) = 4 := by norm_num [affineFactor]
    have e1 : motionEnergy 3 4 (start wheel 0).w.ps = (3 / 4 : ℝ) := wheel_energy
    have e2 : elasticEnergy (strainEnergy elastic.m.lam elastic.m.mu) 1 (start wheel 0).w.ps = 0 := wheel_elastic _ _
    have e3 : max elastic.C.dtMax elastic.C.minDt = 1 := by
      rw [show elastic.C.dtMax = 1 from ex_dtMax (1 / 10) 1]
      exact max_eq_left (by norm_num [elastic, setup, cfg, exConfig])
    have e4 : (start wheel 0).w.ps.length = 2 := by simp [start, wheel]
    have e5 : (start wheel 0).gravity = 0 := rfl
    rw [hκ, e1, e2, e3, e4, e5] at h
    simp only [zero_dotProduct] at h
    norm_num at h
    linarith
  · intro p hp
    have hF : p.F = 1 ∧ p.tau = 0 := by
      simp only [start, wheel, List.mem_cons, List.not_mem_nil, or_false] at hp
      rcases hp with rfl | rfl <;> exact ⟨rfl, rfl⟩
    rw [hF.1, hF.2]
    exact one_free _ _
  · intro s1 dt g w hst p hp
    obtain ⟨h1, -, -, -, h4, -⟩ := elastic_step hst
    rw [h1] at hp
    rw [h4 p hp]
    simp [ddot, spinning2, Fin.sum_univ_two]; norm_num

/-- `C116_materials` and `C116_neoHookean`: the materials of the examples. -/
example : EnergyLaw (d := 2) abs someSvd (Ex.mat .vm) 1 (strainEnergy (Ex.mat .vm).lam (Ex.mat .vm).mu)
      (IsHenckyStress (Ex.mat .vm).lam (Ex.mat .vm).mu) (stiffness (Ex.mat .vm).lam (Ex.mat .vm).mu 1 2) ∧
    EnergyLaw (d := 2) abs someSvd rubber.m 1 (neoEnergy rubber.m.lam rubber.m.mu) (IsNeoHookeanStress rubber.m.lam rubber.m.mu)
      (neoStiffness rubber.m.lam rubber.m.mu 1 2) :=
  ⟨C116_materials (Ex.mat_ok .vm) (.inr (.inl ⟨rfl, by norm_num [Ex.mat]⟩)) zero_le_one (by norm_num) someSvd_isSvd,
    C116_neoHookean rfl rfl (Ex.mat_ok .vm).hmu.le zero_le_one⟩

/-- `C116_neoHookean_power`: a block stretched by half and then by a tenth more. -/
example : |neoEnergy 1 1 ((1 + (1 / 10 : ℝ) • (1 : Matrix (Fin 2) (Fin 2) ℝ)) * ((3 / 2 : ℝ) • 1)) - neoEnergy 1 1 ((3 / 2 : ℝ) • (1 : Matrix (Fin 2) (Fin 2) ℝ)) -
    ddot ((1 : ℝ) • (((3 / 2 : ℝ) • (1 : Matrix (Fin 2) (Fin 2) ℝ)) * ((3 / 2 : ℝ) • (1 : Matrix (Fin 2) (Fin 2) ℝ))ᵀ - 1) +
      (1 * Real.log ((3 / 2 : ℝ) • (1 : Matrix (Fin 2) (Fin 2) ℝ)).det) • 1) ((1 / 10 : ℝ) • 1)| ≤
    neoStiffness 1 1 1 2 * ddot ((1 / 10 : ℝ) • (1 : Matrix (Fin 2) (Fin 2) ℝ)) ((1 / 10 : ℝ) • 1) := by
  have small : ∀ c : ℝ, 1 ≤ c → c ≤ 2 → SmallStrain 1 (c • (1 : Matrix (Fin 2) (Fin 2) ℝ)) := by
    intro c h1 h2 σ hs i
    have h3 := sig_scalar (c := c ^ 2) (F := c • 1) (by rw [transpose_smul, transpose_one, Matrix.smul_mul, Matrix.mul_smul, Matrix.mul_one, smul_smul, sq]) hs i
    have h4 : σ.sig i = c := by
      have := hs.nonneg i
      nlinarith
    rw [h4]
    refine ⟨by linarith, ?_⟩
    rw [abs_of_nonneg (Real.log_nonneg h1)]
    have := Real.log_le_sub_one_of_pos (show 0 < c by linarith)
    linarith
  refine C116_neoHookean_power zero_le_one zero_le_one ⟨by simp [Matrix.det_fin_two], rfl⟩ (small _ (by norm_num) (by norm_num)) ?_ ?_
  · rw [show (1 + (1 / 10 : ℝ) • (1 : Matrix (Fin 2) (Fin 2) ℝ)) * ((3 / 2 : ℝ) • 1) = (33 / 20 : ℝ) • 1 by
      rw [Matrix.mul_smul, Matrix.mul_one, smul_add, smul_smul, ← add_smul]; norm_num]
    exact small _ (by norm_num) (by norm_num)
  · simp [ddot, Fin.sum_univ_two]; norm_num

end RunEx

end
end Verif.Props
