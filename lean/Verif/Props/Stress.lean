import Verif.Lemmas.Isotropy
import Verif.Lemmas.Consistent
import Verif.Props.Plastic

set_option linter.unusedSectionVars false
set_option linter.unusedSimpArgs false
set_option linter.unusedVariables false

/-!
# C42, C43, C44: the stored stress

The stress stored after the update is the elastic stress of the stored deformation gradient (C42), the
saved pressure and shear stress are the invariants of the elastic strain (C43), and the update is
objective and isotropic (C44). All three hold for every plastic model at once.
-/

namespace Verif.Props
open Verif Matrix

variable {d : ℕ}

/-! ### Specifications -/

/-- `tau` is the Kirchhoff stress of Hencky elasticity for `F`: whatever decomposition
`F = U diag(σ) Vᵀ` is taken, `tau = U diag(λ Σ log σ + 2μ log σ_i) Uᵀ`; and `F` is invertible. -/
def IsHenckyStress (lam mu : ℝ) (F tau : Matrix (Fin d) (Fin d) ℝ) : Prop :=
  F.det ≠ 0 ∧ ∀ s : Svd d, IsSvd F s →
    tau = s.U * diagonal (fun i => lam * ∑ j, Real.log (s.sig j) + 2 * mu * Real.log (s.sig i)) * s.Uᵀ

/-- `tau` is the Kirchhoff stress of neo-Hookean elasticity for `F`. -/
def IsNeoHookeanStress (lam mu : ℝ) (F tau : Matrix (Fin d) (Fin d) ℝ) : Prop :=
  0 < F.det ∧ tau = mu • (F * Fᵀ - 1) + (lam * Real.log F.det) • (1 : Matrix (Fin d) (Fin d) ℝ)

/-! ### Lemmas -/

lemma orth_det_ne {U : Matrix (Fin d) (Fin d) ℝ} (h : U * Uᵀ = 1) : U.det ≠ 0 := by
  intro h0
  have := congrArg Matrix.det h
  rw [Matrix.det_mul, h0, zero_mul, Matrix.det_one] at this
  exact zero_ne_one this

lemma sig_pos {F : Matrix (Fin d) (Fin d) ℝ} (hF : F.det ≠ 0) {s : Svd d} (hs : IsSvd F s) (i : Fin d) :
    0 < s.sig i := by
  refine lt_of_le_of_ne (hs.nonneg i) fun h0 => hF ?_
  rw [hs.eq, Matrix.det_mul, Matrix.det_mul, Matrix.det_diagonal,
    Finset.prod_eq_zero (Finset.mem_univ i) h0.symm, mul_zero, zero_mul]

lemma expF_isSvd {s : Svd d} (hU : s.U * s.Uᵀ = 1) (hV : s.V * s.Vᵀ = 1) (h : Fin d → ℝ) :
    IsSvd (s.expF h) ⟨s.U, fun i => Real.exp (h i), s.V⟩ :=
  ⟨rfl, hU, hV, fun _ => (Real.exp_pos _).le⟩

lemma det_expF_ne {s : Svd d} (hU : s.U * s.Uᵀ = 1) (hV : s.V * s.Vᵀ = 1) (h : Fin d → ℝ) :
    (s.expF h).det ≠ 0 := by
  rw [det_expF]
  exact mul_ne_zero (mul_ne_zero (orth_det_ne hU) (Real.exp_pos _).ne') (orth_det_ne hV)

/-- The stress computed by the code for a consistent strain is the Hencky stress of the deformation. -/
lemma henckyStress_expF {s : Svd d} (hU : s.U * s.Uᵀ = 1) (hV : s.V * s.Vᵀ = 1) (lam mu : ℝ)
    (h : Fin d → ℝ) : IsHenckyStress lam mu (s.expF h) (henckyTau lam mu s.U h) := by
  refine ⟨det_expF_ne hU hV h, fun s' hs' => ?_⟩
  have h1 := expF_isSvd hU hV h
  have e : s.U * diagonal (fun i => Real.exp (h i)) * s.Vᵀ = s'.U * diagonal s'.sig * s'.Vᵀ := hs'.eq
  obtain ⟨-, hsum⟩ := svd_fun_left hU hV hs'.orthU hs'.orthV (fun i => (Real.exp_pos _).le) hs'.nonneg e
    Real.log
  simp only [Real.log_exp] at hsum
  obtain ⟨hm, -⟩ := svd_fun_left hU hV hs'.orthU hs'.orthV (fun i => (Real.exp_pos _).le) hs'.nonneg e
    fun x => lam * (∑ j, h j) + 2 * mu * Real.log x
  simp only [Real.log_exp] at hm
  rw [henckyTau]
  simp only [mul_one]
  rw [hm, hsum]

lemma neoHookeanTau_eq {F : Matrix (Fin d) (Fin d) ℝ} (hF : F.det ≠ 0) (lam mu : ℝ) :
    neoHookeanTau lam mu F = mu • (F * Fᵀ - 1) + (lam * Real.log F.det) • (1 : Matrix (Fin d) (Fin d) ℝ) := by
  have hi : (Fᵀ)⁻¹ * Fᵀ = 1 := Matrix.nonsing_inv_mul _ (by rw [Matrix.det_transpose]; exact isUnit_iff_ne_zero.mpr hF)
  rw [neoHookeanTau, add_mul, smul_mul_assoc, smul_mul_assoc, sub_mul, hi]

/-! ### C42 -/

/-- **C42** For every plastic model and hardening law, every particle state and time step: whenever the
update is defined, the stored stress is the Hencky stress of the stored deformation gradient, provided the
singular values of the stored deformation gradient are not below the cut-off 1e-4 of the code. For the
viscous von Mises model the pressure is assumed not to be below its (softened) lower limit; there the
statement fails, see `C42_capped_false`. -/
theorem C42_stored {cabs} {svd : Matrix (Fin d) (Fin d) ℝ → Svd d} {m : Material} (ok : MatOk m d)
    {dt : ℝ} {q : Particle d ℝ} {exit : Bool} {out : PState d} (hs : IsSvd q.F (svd q.F))
    (hc : m.plastic = .vmVisc → m.pMin * Real.exp (-m.xi * q.epsPlVol) ≤ trialP m (svd q.F))
    (h : plasticity cabs svd m dt q exit = some out)
    (hb : ∀ s', IsSvd out.q.F s' → ∀ i, 1e-4 ≤ s'.sig i) :
    IsHenckyStress m.lam m.mu out.q.F out.q.tau := by
  obtain ⟨st, h1, rfl⟩ := plasticity_some.mp h
  have hcons : Cons (svd q.F) ⟨q, (svd q.F).hencky, 0, exit⟩ st := by
    refine cons_plastModel ?_ h1
    intro hp
    have := hc hp
    rw [(trial_eq ok hs).1] at this
    exact not_lt.mpr this
  simp only [newTau_hencky ok.hel]
  simp only at hb
  rcases hcons with e | ⟨e, e'⟩
  · rw [e]
    exact henckyStress_expF hs.orthU hs.orthV _ _ _
  · simp only at e e'
    rw [e] at hb
    rw [e, e']
    conv_lhs => rw [← expF_hencky hs (hb _ hs)]
    exact henckyStress_expF hs.orthU hs.orthV _ _ _

/-- **C42** The same with a condition on the state before the update: singular values
above the cut-off 1e-4 of the code, and for the viscous von Mises model the pressure is
assumed not to be below its (softened) lower limit; there the statement fails, see `C42_capped_false`. -/
theorem C42_hencky {cabs} {svd : Matrix (Fin d) (Fin d) ℝ → Svd d} {m : Material} (ok : MatOk m d)
    {dt : ℝ} {q : Particle d ℝ} {exit : Bool} {out : PState d} (hs : IsSvd q.F (svd q.F))
    (hb : ∀ i, 1e-4 ≤ (svd q.F).sig i)
    (hc : m.plastic = .vmVisc → m.pMin * Real.exp (-m.xi * q.epsPlVol) ≤ trialP m (svd q.F))
    (h : plasticity cabs svd m dt q exit = some out) :
    IsHenckyStress m.lam m.mu out.q.F out.q.tau := by
  obtain ⟨st, h1, rfl⟩ := plasticity_some.mp h
  have hcons : Cons (svd q.F) ⟨q, (svd q.F).hencky, 0, exit⟩ st := by
    refine cons_plastModel ?_ h1
    intro hp
    have := hc hp
    rw [(trial_eq ok hs).1] at this
    exact not_lt.mpr this
  have e : st.q.F = (svd q.F).expF st.hencky := by
    rcases hcons with e | ⟨e, e'⟩
    · exact e
    · rw [e, e']; exact (expF_hencky hs hb).symm
  simp only [newTau_hencky ok.hel]
  rw [e]
  exact henckyStress_expF hs.orthU hs.orthV _ _ _

/-- The same for the neo-Hookean law. -/
theorem C42_neoHookean {cabs} {svd : Matrix (Fin d) (Fin d) ℝ → Svd d} {m : Material}
    (hel : m.elastic = .neoHookean) {dt : ℝ} {q : Particle d ℝ} {exit : Bool} {out : PState d}
    (hp : m.plastic = .noPlasticity) (h : plasticity cabs svd m dt q exit = some out) :
    out.q.F = q.F ∧ IsNeoHookeanStress m.lam m.mu q.F out.q.tau := by
  obtain ⟨st, h1, rfl⟩ := plasticity_some.mp h
  obtain ⟨h2, rfl⟩ := (plastModel_noPlasticity hp).mp h1
  refine ⟨rfl, h2 hel, ?_⟩
  simp only [newTau, hel]
  exact neoHookeanTau_eq (h2 hel).ne' _ _

/-- The neo-Hookean stress is computed exactly for deformations with a positive determinant; otherwise it is not a number. -/
theorem C42_neoHookean_defined {cabs} {svd : Matrix (Fin d) (Fin d) ℝ → Svd d} {m : Material}
    (hel : m.elastic = .neoHookean) (hp : m.plastic = .noPlasticity) (dt : ℝ) (q : Particle d ℝ) (exit : Bool) :
    (plasticity cabs svd m dt q exit).isSome ↔ 0 < q.F.det := by
  constructor
  · intro h
    obtain ⟨out, ho⟩ := Option.isSome_iff_exists.mp h
    obtain ⟨st, h1, -⟩ := plasticity_some.mp ho
    exact ((plastModel_noPlasticity hp).mp h1).1 hel
  · intro h
    rw [plasticity_some.mpr ⟨_, (plastModel_noPlasticity hp).mpr ⟨fun _ => h, rfl⟩, rfl⟩]
    rfl

/-- Without plasticity the deformation gradient is not changed, and the stress is its elastic stress. -/
theorem C42_elastic {cabs} {svd : Matrix (Fin d) (Fin d) ℝ → Svd d} {m : Material} (hel : m.elastic = .hencky)
    (hp : m.plastic = .noPlasticity) (dt : ℝ) (q : Particle d ℝ) (exit : Bool) (hs : IsSvd q.F (svd q.F))
    (hb : ∀ i, 1e-4 ≤ (svd q.F).sig i) :
    ∃ out, plasticity cabs svd m dt q exit = some out ∧ out.q = { q with tau := out.q.tau } ∧
      out.exit = exit ∧ out.count = 0 ∧ out.q.tau = elasticTau m (svd q.F) ∧
      IsHenckyStress m.lam m.mu q.F out.q.tau := by
  have ht : newTau m (svd q.F) (svd q.F).hencky q.F = elasticTau m (svd q.F) := by
    rw [newTau_hencky hel, elasticTau_eq hs]
  refine ⟨_, plasticity_some.mpr ⟨⟨q, (svd q.F).hencky, 0, exit⟩,
    (plastModel_noPlasticity hp).mpr ⟨fun h => (by rw [hel] at h; cases h), rfl⟩, rfl⟩, rfl, rfl, rfl, ht, ?_⟩
  show IsHenckyStress m.lam m.mu q.F (newTau m (svd q.F) (svd q.F).hencky q.F)
  rw [newTau_hencky hel]
  conv_lhs => rw [← expF_hencky hs hb]
  exact henckyStress_expF hs.orthU hs.orthV _ _ _

/-- An orthogonal deformation has no Hencky stress. -/
lemma henckyStress_orth {lam mu : ℝ} {F tau : Matrix (Fin d) (Fin d) ℝ} (hF : F * Fᵀ = 1)
    (h : IsHenckyStress lam mu F tau) : tau = 0 := by
  rw [h.2 ⟨F, fun _ => 1, 1⟩ ⟨by simp, hF, by simp, fun _ => zero_le_one⟩]
  simp

/-- **C42** fails in the capped branch of the viscous von Mises model: the deformation gradient is reset to a
rotation, whose stress is zero, but the stored stress is the trial stress. -/
theorem C42_capped_false {cabs} {svd : Matrix (Fin d) (Fin d) ℝ → Svd d} {m : Material} (ok : MatOk m d)
    (hm : m.plastic = .vmVisc) (dt : ℝ) (q : Particle d ℝ) (exit : Bool) (hs : IsSvd q.F (svd q.F))
    (hc : trialP m (svd q.F) < m.pMin * Real.exp (-m.xi * q.epsPlVol)) (h0 : trialP m (svd q.F) ≠ 0) :
    ∃ out, plasticity cabs svd m dt q exit = some out ∧ out.q.F * out.q.Fᵀ = 1 ∧
      out.q.tau = elasticTau m (svd q.F) ∧ ¬ IsHenckyStress m.lam m.mu out.q.F out.q.tau := by
  have hc' : -m.K d * (mkTrial (svd q.F).hencky).trace < m.pMin * Real.exp (-m.xi * q.epsPlVol) := by
    rw [← (trial_eq ok hs).1]; exact hc
  have horth : (svd q.F).U * (svd q.F).Vᵀ * ((svd q.F).U * (svd q.F).Vᵀ)ᵀ = 1 := by
    rw [Matrix.transpose_mul, Matrix.transpose_transpose, Matrix.mul_assoc, ← Matrix.mul_assoc (svd q.F).Vᵀ,
      orth_comm hs.orthV, Matrix.one_mul, hs.orthU]
  refine ⟨_, plasticity_some.mpr ⟨_, by simp only [plastModel, hm, plastVMVisc]; rw [if_pos hc'], rfl⟩, ?_⟩
  simp only [newTau_hencky ok.hel]
  refine ⟨horth, (elasticTau_eq hs).symm, fun h => h0 ?_⟩
  have := henckyStress_orth horth h
  rw [trialP, elasticTau_eq hs, this]
  simp [savedP]

/-! ### C43 -/

/-- **C43** The pressure and shear stress written to the particle files are `-K tr` and `e_mu |dev|` of the
elastic Hencky strain `log σ` of the stored deformation gradient. -/
theorem C43_invariants {cabs} {svd : Matrix (Fin d) (Fin d) ℝ → Svd d} {m : Material} (ok : MatOk m d)
    {dt : ℝ} {q : Particle d ℝ} {exit : Bool} {out : PState d} (hs : IsSvd q.F (svd q.F))
    (hb : ∀ i, 1e-4 ≤ (svd q.F).sig i)
    (hc : m.plastic = .vmVisc → m.pMin * Real.exp (-m.xi * q.epsPlVol) ≤ trialP m (svd q.F))
    (h : plasticity cabs svd m dt q exit = some out) {s : Svd d} (hs' : IsSvd out.q.F s) :
    savedP out.q.tau = -(m.K d) * ∑ i, Real.log (s.sig i) ∧
    savedQ m.qPrefac out.q.tau =
      m.eMu * Real.sqrt (∑ i, (Real.log (s.sig i) - (∑ j, Real.log (s.sig j)) / d) ^ 2) := by
  have hst := (C42_hencky ok hs hb hc h).2 s hs'
  have e : out.q.tau = henckyTau m.lam m.mu s.U fun i => Real.log (s.sig i) := by
    rw [hst, henckyTau]; simp only [mul_one]
  obtain ⟨h1, h2⟩ := saved_trial ok hs'.orthU fun i => Real.log (s.sig i)
  rw [e]
  refine ⟨h1, h2.trans ?_⟩
  rw [mkTrial_norm, vnorm]
  congr 2
  simp only [dotProduct, devOf, sq]

/-- For every stress of Hencky form, i.e. also for a stress not produced by the plastic update. -/
theorem C43_any {m : Material} (ok : MatOk m d) {F tau : Matrix (Fin d) (Fin d) ℝ}
    (h : IsHenckyStress m.lam m.mu F tau) {s : Svd d} (hs : IsSvd F s) :
    savedP tau = -(m.K d) * ∑ i, Real.log (s.sig i) ∧
    savedQ m.qPrefac tau =
      m.eMu * Real.sqrt (∑ i, (Real.log (s.sig i) - (∑ j, Real.log (s.sig j)) / d) ^ 2) := by
  have e : tau = henckyTau m.lam m.mu s.U fun i => Real.log (s.sig i) := by
    rw [h.2 s hs, henckyTau]; simp only [mul_one]
  obtain ⟨h1, h2⟩ := saved_trial ok hs.orthU fun i => Real.log (s.sig i)
  rw [e]
  refine ⟨h1, h2.trans ?_⟩
  rw [mkTrial_norm, vnorm]
  congr 2
  simp only [dotProduct, devOf, sq]

/-! ### C44 -/

/-- **C44** The stored stress is symmetric, whatever the model. -/
theorem C44_symmetric {cabs} {svd : Matrix (Fin d) (Fin d) ℝ → Svd d} {m : Material}
    {dt : ℝ} {q : Particle d ℝ} {exit : Bool} {out : PState d}
    (h : plasticity cabs svd m dt q exit = some out) : out.q.tauᵀ = out.q.tau := by
  obtain ⟨st, h1, rfl⟩ := plasticity_some.mp h
  simp only [newTau]
  cases m.elastic with
  | hencky =>
    simp only [henckyTau, Matrix.transpose_mul, Matrix.transpose_transpose, Matrix.diagonal_transpose,
      Matrix.mul_assoc]
  | neoHookean =>
    simp only
    by_cases hF : st.q.F.det = 0
    · have : (st.q.Fᵀ)⁻¹ = 0 := Matrix.nonsing_inv_apply_not_isUnit _ (by
        rw [Matrix.det_transpose, hF]; exact not_isUnit_zero)
      simp [neoHookeanTau, this, Matrix.transpose_mul]
    · rw [neoHookeanTau_eq hF]
      simp [Matrix.transpose_mul]

lemma trialOf_eq (s : Svd d) {tr nn : ℝ} (htr : (mkTrial s.hencky).trace = tr)
    (hnn : (mkTrial s.hencky).norm = nn) :
    mkTrial s.hencky = trialOf s (fun x => Real.log (max |x| 1e-4))
      (fun x => if nn > 0 then (Real.log (max |x| 1e-4) - tr / d) / nn else Real.log (max |x| 1e-4) - tr / d)
      tr nn := by
  subst htr hnn
  have hd : (mkTrial s.hencky).dir =
      if vnorm (devOf s.hencky) > 0 then (fun i => devOf s.hencky i / vnorm (devOf s.hencky))
      else devOf s.hencky := rfl
  show Trial.mk _ _ _ _ = Trial.mk _ _ _ _
  congr 1
  funext i
  show (mkTrial s.hencky).dir i = _
  rw [hd, mkTrial_norm]
  split_ifs <;> rfl

/-- Both decompositions of rotated deformations have the same trial invariants. -/
lemma rotated {F R Q : Matrix (Fin d) (Fin d) ℝ} (hR : R * Rᵀ = 1) (hQ : Q * Qᵀ = 1) {s₁ s₂ : Svd d}
    (h₁ : IsSvd F s₁) (h₂ : IsSvd (R * F * Qᵀ) s₂) :
    IsSvd (R * F * Qᵀ) ⟨R * s₁.U, s₁.sig, Q * s₁.V⟩ := by
  refine ⟨?_, ?_, ?_, h₁.nonneg⟩
  · conv_lhs => rw [h₁.eq]
    simp only [Matrix.transpose_mul, Matrix.mul_assoc]
  · rw [Matrix.transpose_mul, Matrix.mul_assoc, ← Matrix.mul_assoc s₁.U, h₁.orthU, Matrix.one_mul, hR]
  · rw [Matrix.transpose_mul, Matrix.mul_assoc, ← Matrix.mul_assoc s₁.V, h₁.orthV, Matrix.one_mul, hQ]

/-- `C44_objective` with two unrelated functions that decompose, for any invertible deformation. -/
lemma objective_two {cabs} {svd svd' : Matrix (Fin d) (Fin d) ℝ → Svd d} {m : Material} (dt : ℝ)
    (q : Particle d ℝ) (exit : Bool) {R Q : Matrix (Fin d) (Fin d) ℝ} (hR : R * Rᵀ = 1) (hQ : Q * Qᵀ = 1)
    (hRd : R.det = 1) (hQd : Q.det = 1) (hF : q.F.det ≠ 0)
    (h₁ : IsSvd q.F (svd q.F)) (h₂ : IsSvd (R * q.F * Qᵀ) (svd' (R * q.F * Qᵀ))) :
    (plasticity cabs svd m dt q exit = none ∧
      plasticity cabs svd' m dt { q with F := R * q.F * Qᵀ } exit = none) ∨
    ∃ a b, plasticity cabs svd m dt q exit = some a ∧
      plasticity cabs svd' m dt { q with F := R * q.F * Qᵀ } exit = some b ∧
      b.q = { a.q with F := R * a.q.F * Qᵀ, tau := R * a.q.tau * Rᵀ } ∧
      b.count = a.count ∧ b.exit = a.exit := by
  set s₁ := svd q.F with hs₁
  set s₂ := svd' (R * q.F * Qᵀ) with hs₂
  have hr := rotated hR hQ h₁ h₂
  have hp₁ := sig_pos hF h₁
  have hF₂ : (R * q.F * Qᵀ).det ≠ 0 := by
    rw [Matrix.det_mul, Matrix.det_mul, Matrix.det_transpose, hRd, hQd]; simpa using hF
  have hp₂ := sig_pos hF₂ h₂
  have e : R * s₁.U * diagonal s₁.sig * (Q * s₁.V)ᵀ = s₂.U * diagonal s₂.sig * s₂.Vᵀ := hr.eq.symm.trans h₂.eq
  have left := fun φ => svd_fun_left hr.orthU hr.orthV h₂.orthU h₂.orthV h₁.nonneg h₂.nonneg e φ
  have two := fun φ => svd_fun_two hr.orthU hr.orthV h₂.orthU h₂.orthV hp₁ hp₂ e φ
  have sums : ∀ φ : ℝ → ℝ, ∑ i, φ (s₁.sig i) = ∑ i, φ (s₂.sig i) := fun φ => (left φ).2
  have htr : (mkTrial s₂.hencky).trace = (mkTrial s₁.hencky).trace :=
    (sums fun x => Real.log (max |x| 1e-4)).symm
  have hnn : (mkTrial s₂.hencky).norm = (mkTrial s₁.hencky).norm := by
    rw [mkTrial_norm, mkTrial_norm, vnorm, vnorm]
    congr 1
    have h1 : (∑ j, s₁.hencky j) = ∑ j, s₂.hencky j := sums fun x => Real.log (max |x| 1e-4)
    simp only [dotProduct, devOf, h1]
    exact (sums fun x => (Real.log (max |x| 1e-4) - (∑ j, s₂.hencky j) / d) *
      (Real.log (max |x| 1e-4) - (∑ j, s₂.hencky j) / d)).symm
  have key := iso_plastModel (cabs := cabs) (m := m) (dt := dt) (s₁ := s₁) (s₂ := s₂)
    (tr := (mkTrial s₁.hencky).trace) (nn := (mkTrial s₁.hencky).norm) (k := id)
    (L := fun x => Real.log (max |x| 1e-4))
    (D := fun x => if (mkTrial s₁.hencky).norm > 0 then
      (Real.log (max |x| 1e-4) - (mkTrial s₁.hencky).trace / d) / (mkTrial s₁.hencky).norm
      else Real.log (max |x| 1e-4) - (mkTrial s₁.hencky).trace / d)
    (q := q) (F₁ := q.F) (F₂ := R * q.F * Qᵀ) (c := 0) (e := exit) h₁.eq h₂.eq
    (by rw [Matrix.det_mul, Matrix.det_mul, Matrix.det_transpose, hRd, hQd, one_mul, mul_one])
  rw [← trialOf_eq s₁ rfl rfl, ← trialOf_eq s₂ htr hnn] at key
  have p₁ : plasticity cabs svd m dt q exit = (plastModel cabs m dt s₁ (mkTrial s₁.hencky)
      ⟨q, s₁.hencky, 0, exit⟩).bind fun st =>
        some { st with q := { st.q with tau := newTau m s₁ st.hencky st.q.F } } := rfl
  have p₂ : plasticity cabs svd' m dt { q with F := R * q.F * Qᵀ } exit =
      (plastModel cabs m dt s₂ (mkTrial s₂.hencky)
      ⟨{ q with F := R * q.F * Qᵀ }, s₂.hencky, 0, exit⟩).bind fun st =>
        some { st with q := { st.q with tau := newTau m s₂ st.hencky st.q.F } } := rfl
  rcases key with ⟨k1, k2⟩ | ⟨a, b, k1, k2, iso⟩
  · left
    exact ⟨by rw [p₁, show plastModel cabs m dt s₁ (mkTrial s₁.hencky) ⟨q, s₁.hencky, 0, exit⟩ = none from k1]; rfl,
      by rw [p₂, show plastModel cabs m dt s₂ (mkTrial s₂.hencky)
        ⟨{ q with F := R * q.F * Qᵀ }, s₂.hencky, 0, exit⟩ = none from k2]; rfl⟩
  · right
    obtain ⟨g, k, ga, gb, fa, fb⟩ := iso.fn
    refine ⟨{ a with q := { a.q with tau := newTau m s₁ a.hencky a.q.F } },
      { b with q := { b.q with tau := newTau m s₂ b.hencky b.q.F } },
      by rw [p₁, show plastModel cabs m dt s₁ (mkTrial s₁.hencky) ⟨q, s₁.hencky, 0, exit⟩ = some a from k1]; rfl,
      by rw [p₂, show plastModel cabs m dt s₂ (mkTrial s₂.hencky)
        ⟨{ q with F := R * q.F * Qᵀ }, s₂.hencky, 0, exit⟩ = some b from k2]; rfl, ?_, iso.count, iso.exit⟩
    have hFb : b.q.F = R * a.q.F * Qᵀ := by
      rw [fa, fb, ← two k]
      simp only [Matrix.transpose_mul, Matrix.mul_assoc]
    have htau : newTau m s₂ b.hencky b.q.F = R * newTau m s₁ a.hencky a.q.F * Rᵀ := by
      unfold newTau
      cases m.elastic with
      | hencky =>
        simp only [henckyTau]
        have hsum : ∑ j, a.hencky j = ∑ j, b.hencky j := by
          simp only [ga, gb]; exact sums g
        have := (left fun x => m.lam * (∑ j, b.hencky j) * 1 + 2 * m.mu * g x).1
        simp only [← gb, ← ga] at this
        rw [← this, hsum]
        simp only [Matrix.transpose_mul, Matrix.mul_assoc]
      | neoHookean =>
        simp only
        have hRu : Rᵀ * R = 1 := orth_comm hR
        have hQu : Qᵀ * Q = 1 := orth_comm hQ
        have hRi : (Rᵀ)⁻¹ = R := Matrix.inv_eq_right_inv hRu
        have hQi : (Qᵀ)⁻¹ = Q := Matrix.inv_eq_right_inv hQu
        have hd : (R * a.q.F * Qᵀ).det = a.q.F.det := by
          rw [Matrix.det_mul, Matrix.det_mul, Matrix.det_transpose, hRd, hQd]; ring
        have ht : ((R * a.q.F * Qᵀ)ᵀ)⁻¹ = R * (a.q.Fᵀ)⁻¹ * Qᵀ := by
          simp only [Matrix.transpose_mul, Matrix.transpose_transpose, Matrix.mul_inv_rev]
          rw [hRi, Matrix.inv_eq_right_inv hQ, Matrix.mul_assoc]
        have ht2 : (R * a.q.F * Qᵀ)ᵀ = Q * (a.q.Fᵀ * Rᵀ) := by
          simp only [Matrix.transpose_mul, Matrix.transpose_transpose]
        rw [hFb, neoHookeanTau, neoHookeanTau, hd, ht, ht2]
        have : m.mu • (R * a.q.F * Qᵀ - R * (a.q.Fᵀ)⁻¹ * Qᵀ) +
            (m.lam * Real.log a.q.F.det) • (R * (a.q.Fᵀ)⁻¹ * Qᵀ) =
            R * (m.mu • (a.q.F - (a.q.Fᵀ)⁻¹) + (m.lam * Real.log a.q.F.det) • (a.q.Fᵀ)⁻¹) * Qᵀ := by
          simp only [Matrix.mul_add, Matrix.add_mul, Matrix.mul_sub, Matrix.sub_mul, Matrix.mul_smul,
            Matrix.smul_mul]
        rw [this]
        simp only [Matrix.mul_assoc]
        rw [← Matrix.mul_assoc Qᵀ Q, hQu, Matrix.one_mul]
    rw [iso.scal]
    simp only [hFb, htau]
    rw [← hFb, htau]

/-- **C44** Objectivity and isotropy of the whole plastic update, for every plastic model and both elastic
laws. If the deformation is rotated (`R`) and the reference configuration is rotated (`Q`), then the updated
deformation gradient is rotated in the same way, the stress is rotated by `R`, and all other particle
quantities, the counter and the exit flag are the same; the update is undefined in both cases or in none. The
two calls may use unrelated decompositions. -/
theorem C44_objective {cabs} {svd : Matrix (Fin d) (Fin d) ℝ → Svd d} {m : Material} (dt : ℝ)
    (q : Particle d ℝ) (exit : Bool) {R Q : Matrix (Fin d) (Fin d) ℝ} (hR : R * Rᵀ = 1) (hQ : Q * Qᵀ = 1)
    (hRd : R.det = 1) (hQd : Q.det = 1) (hF : 0 < q.F.det)
    (h₁ : IsSvd q.F (svd q.F)) (h₂ : IsSvd (R * q.F * Qᵀ) (svd (R * q.F * Qᵀ))) :
    (plasticity cabs svd m dt q exit = none ∧
      plasticity cabs svd m dt { q with F := R * q.F * Qᵀ } exit = none) ∨
    ∃ a b, plasticity cabs svd m dt q exit = some a ∧
      plasticity cabs svd m dt { q with F := R * q.F * Qᵀ } exit = some b ∧
      b.q = { a.q with F := R * a.q.F * Qᵀ, tau := R * a.q.tau * Rᵀ } ∧
      b.count = a.count ∧ b.exit = a.exit :=
  objective_two dt q exit hR hQ hRd hQd hF.ne' h₁ h₂

/-- **C44** Without plasticity a particle that is not strained (its deformation gradient is a rotation) is
free of stress, for both elastic laws. -/
theorem C44_undeformed {cabs} {svd : Matrix (Fin d) (Fin d) ℝ → Svd d} {m : Material}
    (hp : m.plastic = .noPlasticity) (dt : ℝ) (q : Particle d ℝ) (exit : Bool) (hs : IsSvd q.F (svd q.F))
    (hF : q.F * q.Fᵀ = 1) (hd : q.F.det = 1) :
    ∃ out, plasticity cabs svd m dt q exit = some out ∧ out.q = { q with tau := 0 } := by
  refine ⟨_, plasticity_some.mpr ⟨⟨q, (svd q.F).hencky, 0, exit⟩,
    (plastModel_noPlasticity hp).mpr ⟨fun _ => by simp [hd], rfl⟩, rfl⟩, ?_⟩
  suffices h : newTau m (svd q.F) (svd q.F).hencky q.F = 0 by simp only [h]
  cases hel : m.elastic with
  | hencky =>
    rw [newTau_hencky hel]
    have e : q.F * diagonal (fun _ => (1 : ℝ)) * (1 : Matrix (Fin d) (Fin d) ℝ)ᵀ =
        (svd q.F).U * diagonal (svd q.F).sig * (svd q.F).Vᵀ := by
      rw [← hs.eq]; simp
    have hf := fun φ => svd_fun_left hF (by simp) hs.orthU hs.orthV (fun _ => zero_le_one) hs.nonneg e φ
    have h1 : ∑ j, (svd q.F).hencky j = 0 := by
      have := (hf fun x => Real.log (max |x| 1e-4)).2
      rw [show (∑ j, (svd q.F).hencky j) = ∑ j, Real.log (max |(svd q.F).sig j| 1e-4) from rfl, ← this]
      norm_num
    have h2 := (hf fun x => m.lam * 0 * 1 + 2 * m.mu * Real.log (max |x| 1e-4)).1
    rw [henckyTau, h1]
    refine h2.symm.trans ?_
    norm_num
  | neoHookean =>
    simp only [newTau, hel]
    rw [neoHookeanTau_eq (by rw [hd]; exact one_ne_zero), hF, hd]
    simp

/-- **C44** The two functions computing the first Piola-Kirchhoff stress agree with the stress that is
stored: `P Fᵀ` is the Kirchhoff stress. -/
theorem C44_henckyPiola (lam mu : ℝ) {F : Matrix (Fin d) (Fin d) ℝ} {s : Svd d} (hs : IsSvd F s)
    (hF : F.det ≠ 0) : IsHenckyStress lam mu F (henckyPiola lam mu s * Fᵀ) := by
  have hp := sig_pos hF hs
  have e : F = s.expF fun i => Real.log (s.sig i) := by
    conv_lhs => rw [hs.eq]
    rw [Svd.expF]
    simp only [Real.exp_log (hp _)]
  have h := henckyStress_expF hs.orthU hs.orthV lam mu fun i => Real.log (s.sig i)
  rw [← e] at h
  convert h using 1
  rw [henckyPiola, henckyTau]
  conv_lhs => rw [hs.eq]
  simp only [Matrix.transpose_mul, Matrix.transpose_transpose, Matrix.diagonal_transpose]
  have : ∀ A : Matrix (Fin d) (Fin d) ℝ, s.U * A * s.Vᵀ * (s.V * (diagonal s.sig * s.Uᵀ)) =
      s.U * (A * diagonal s.sig) * s.Uᵀ := by
    intro A
    simp only [Matrix.mul_assoc]
    rw [← Matrix.mul_assoc s.Vᵀ, orth_comm hs.orthV, Matrix.one_mul]
  rw [this]
  congr 2
  rw [Matrix.trace_diagonal, Matrix.diagonal_mul_diagonal, Matrix.add_mul, Matrix.smul_mul,
    Matrix.smul_mul, Matrix.diagonal_mul_diagonal, Matrix.diagonal_mul_diagonal, ← Matrix.diagonal_smul,
    ← Matrix.diagonal_smul, Matrix.diagonal_add]
  congr 1
  funext i
  have := (hp i).ne'
  simp only [abs_of_pos (hp _), Pi.smul_apply, smul_eq_mul]
  field_simp
  ring

theorem C44_neoHookeanPiola (lam mu : ℝ) {F : Matrix (Fin d) (Fin d) ℝ} (hF : 0 < F.det) :
    IsNeoHookeanStress lam mu F (neoHookeanPiola lam mu F * Fᵀ) :=
  ⟨hF, neoHookeanTau_eq hF.ne' lam mu⟩

/-! ### Concrete cases -/

/-- A particle at `diag(exp(1/2), exp(-1/4))` flowing plastically in the von Mises model. -/
example : ∃ out, plasticity id (Ex.svd (1 / 2) (-1 / 4)) (Ex.mat .vm) 1 (Ex.part (1 / 2) (-1 / 4)) false =
    some out ∧ IsHenckyStress 0 1 out.q.F out.q.tau := by
  obtain ⟨out, h, -⟩ := C34_vonMises (cabs := id) (svd := Ex.svd (1 / 2) (-1 / 4)) (Ex.mat_ok .vm) rfl
    (by norm_num [Ex.mat]) 1 (Ex.part (1 / 2) (-1 / 4)) false (Ex.isSvd _ _)
  refine ⟨out, h, ?_⟩
  have := C42_hencky (Ex.mat_ok .vm) (Ex.isSvd (1 / 2) (-1 / 4)) (Ex.big (by norm_num) (by norm_num) _)
    (fun hh => nomatch hh) h
  rwa [Ex.mat_lam, Ex.mat_mu] at this

/-- The capped branch is reached: pressure -20 with lower limit -10. -/
example : ∃ out, plasticity id (Ex.svd 10 10) (Ex.mat .vmVisc) 1 (Ex.part 10 10) false = some out ∧
    out.q.F * out.q.Fᵀ = 1 ∧ ¬ IsHenckyStress 0 1 out.q.F out.q.tau := by
  have ht := ex_trial .vmVisc (a := 10) (b := 10) (by norm_num) (by norm_num) _ (Ex.isSvd 10 10)
  obtain ⟨out, h, h1, -, h2⟩ := C42_capped_false (cabs := id) (svd := Ex.svd 10 10) (Ex.mat_ok .vmVisc) rfl 1
    (Ex.part 10 10) false (Ex.isSvd _ _)
    (by rw [ht.1]; norm_num [Ex.mat, Ex.part, Particle.init]) (by rw [ht.1]; norm_num)
  exact ⟨out, h, h1, by rwa [Ex.mat_lam, Ex.mat_mu] at h2⟩

/-- A quarter turn. -/
def turn : Matrix (Fin 2) (Fin 2) ℝ := !![0, -1; 1, 0]

lemma turn_orth : turn * turnᵀ = 1 := by
  ext i j; fin_cases i <;> fin_cases j <;> simp [turn, Matrix.mul_apply, Fin.sum_univ_two]

lemma turn_det : turn.det = 1 := by simp [turn, Matrix.det_fin_two]

open Classical in
/-- Decompositions of `diag(exp(1/2), exp(-1/4))` and of everything else as if it were the rotated state. -/
noncomputable def turnSvd : Matrix (Fin 2) (Fin 2) ℝ → Svd 2 := fun F =>
  if F = (Ex.part (1 / 2) (-1 / 4)).F then Ex.svd (1 / 2) (-1 / 4) F
  else ⟨turn, ![Real.exp (1 / 2), Real.exp (-1 / 4)], 1⟩

/-- C44 applied to a quarter turn of a plastically flowing particle. -/
example : ∃ a b, plasticity id turnSvd (Ex.mat .vm) 1 (Ex.part (1 / 2) (-1 / 4)) false = some a ∧
    plasticity id turnSvd (Ex.mat .vm) 1
      { Ex.part (1 / 2) (-1 / 4) with F := turn * (Ex.part (1 / 2) (-1 / 4)).F * 1ᵀ } false = some b ∧
    b.q.tau = turn * a.q.tau * turnᵀ := by
  have h1 : IsSvd (Ex.part (1 / 2) (-1 / 4)).F (turnSvd (Ex.part (1 / 2) (-1 / 4)).F) := by
    rw [turnSvd, if_pos rfl]; exact Ex.isSvd _ _
  have hne : turn * (Ex.part (1 / 2) (-1 / 4)).F * (1 : Matrix (Fin 2) (Fin 2) ℝ)ᵀ ≠
      (Ex.part (1 / 2) (-1 / 4)).F := by
    intro h
    have := congrFun (congrFun h 1) 0
    simp [turn, Ex.part, Matrix.mul_apply, Fin.sum_univ_two, Matrix.diagonal_apply, Matrix.vecMul_diagonal] at this
  have h2 : IsSvd (turn * (Ex.part (1 / 2) (-1 / 4)).F * 1ᵀ)
      (turnSvd (turn * (Ex.part (1 / 2) (-1 / 4)).F * 1ᵀ)) := by
    rw [turnSvd, if_neg hne]
    refine ⟨by simp [Ex.part], turn_orth, by simp, ?_⟩
    intro i; fin_cases i <;> simp [Real.exp_nonneg]
  have hF : 0 < (Ex.part (1 / 2) (-1 / 4)).F.det := by
    simp only [Ex.part, Matrix.det_diagonal, Fin.prod_univ_two]
    simp [Real.exp_pos, mul_pos]
  rcases C44_objective (cabs := id) (m := Ex.mat .vm) 1 (Ex.part (1 / 2) (-1 / 4)) false turn_orth
    (Q := 1) (by simp) turn_det (by simp) hF h1 h2 with ⟨h, -⟩ | ⟨a, b, ha, hb, hq, -⟩
  · obtain ⟨out, h', -⟩ := C34_vonMises (cabs := id) (svd := turnSvd) (Ex.mat_ok .vm) rfl
      (by norm_num [Ex.mat]) 1 (Ex.part (1 / 2) (-1 / 4)) false h1
    rw [h] at h'; cases h'
  · exact ⟨a, b, ha, hb, by rw [hq]⟩

end Verif.Props
