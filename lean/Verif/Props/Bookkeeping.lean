import Verif.Lemmas.Book
import Verif.Props.Run
import Verif.Props.Mui
import Verif.Props.Viscous
import Verif.Props.CamClayMui
import Verif.Lemmas.Svd

set_option linter.unusedSectionVars false
set_option linter.unusedSimpArgs false
set_option linter.unusedVariables false

/-!
# C64, C65, C66: what the plastic update books

The saved plastic rate is the rate of the saved plastic strain (C64), the saved plastic strains are exactly
the strains taken out of the elastic deformation (C65), and plastic flow does not create elastic energy (C66).
-/

namespace Verif.Props
open Verif Matrix

noncomputable section

variable {d : ℕ}

/-! ### Specifications -/

/-- Volumetric part of the logarithmic strain with principal stretches `sig`. -/
def volStrain (sig : Fin d → ℝ) : ℝ := ∑ i, Real.log (sig i)

/-- Deviatoric part of the logarithmic strain. -/
def devStrain (sig : Fin d → ℝ) (i : Fin d) : ℝ := Real.log (sig i) - volStrain sig / d

/-- Its magnitude. -/
def shearStrain (sig : Fin d → ℝ) : ℝ := Real.sqrt (∑ i, devStrain sig i ^ 2)

/-- Energy density of Hencky elasticity. -/
def henckyEnergy (lam mu : ℝ) (sig : Fin d → ℝ) : ℝ :=
  mu * ∑ i, Real.log (sig i) ^ 2 + lam / 2 * (∑ i, Real.log (sig i)) ^ 2

/-- The deformation `F'` stores at most the elastic energy of `F`. -/
def EnergyLe (lam mu : ℝ) (F' F : Matrix (Fin d) (Fin d) ℝ) : Prop :=
  ∀ s' s : Svd d, IsSvd F' s' → IsSvd F s → henckyEnergy lam mu s'.sig ≤ henckyEnergy lam mu s.sig

/-! ### Lemmas -/

section
variable {cabs : ℝ → ℝ} {svd : Matrix (Fin d) (Fin d) ℝ → Svd d} {m : Material} {dt : ℝ} {q : Particle d ℝ}
  {exit : Bool} {out : PState d}

lemma plasticity_book (ok : MatOk m d) (htol : 0 ≤ m.stressTol) (hdt : dt ≠ 0)
    (h : plasticity cabs svd m dt q exit = some out) :
    ∃ δ a b, Book m dt (svd q.F) (mkTrial (svd q.F).hencky) ⟨q, (svd q.F).hencky, 0, exit⟩ out δ a b ∧
      (m.plastic ≠ .mccMui → δ = 0) ∧ m.eMu * δ ≤ m.stressTol := by
  obtain ⟨st, h1, rfl⟩ := plasticity_some.mp h
  obtain ⟨δ, a, b, ⟨b1, b2, b3, b4⟩, h2⟩ := book_plastModel ok (trialOk_mk ok.hd _) hdt htol h1
  exact ⟨δ, a, b, ⟨b1, b2, b3, b4⟩, h2⟩

lemma hencky_log {s : Svd d} (hb : ∀ i, 1e-4 ≤ s.sig i) (i : Fin d) : s.hencky i = Real.log (s.sig i) := by
  rw [← hencky_of_big hb i, Real.log_exp]

lemma trial_vol {s : Svd d} (hb : ∀ i, 1e-4 ≤ s.sig i) : (mkTrial s.hencky).trace = volStrain s.sig := by
  simp only [mkTrial_trace, volStrain, hencky_log hb]

lemma trial_dev {s : Svd d} (hb : ∀ i, 1e-4 ≤ s.sig i) : devOf s.hencky = devStrain s.sig := by
  funext i
  simp only [devOf, devStrain, volStrain, hencky_log hb]

lemma trial_shear {s : Svd d} (hb : ∀ i, 1e-4 ≤ s.sig i) : (mkTrial s.hencky).norm = shearStrain s.sig := by
  rw [mkTrial_norm, trial_dev hb, vnorm, shearStrain]
  simp only [dotProduct, sq]

/-! ### C65 -/

/-- The new deformation and the books, in one statement: the new deformation gradient has the same singular
vectors, `δ` is the shear strain removed but not booked. -/
lemma strain_split (ok : MatOk m d) (htol : 0 ≤ m.stressTol) (hdt : dt ≠ 0) (hs : IsSvd q.F (svd q.F))
    (hb : ∀ i, 1e-4 ≤ (svd q.F).sig i) (h : plasticity cabs svd m dt q exit = some out) :
    ∃ δ sig', IsSvd out.q.F ⟨(svd q.F).U, sig', (svd q.F).V⟩ ∧ (∀ i, 0 < sig' i) ∧
      volStrain sig' + out.q.epsPlVol = volStrain (svd q.F).sig + q.epsPlVol ∧
      (∀ i, shearStrain (svd q.F).sig * devStrain sig' i =
        (shearStrain (svd q.F).sig - (out.q.epsPlDev - q.epsPlDev) - δ) * devStrain (svd q.F).sig i) ∧
      (shearStrain (svd q.F).sig = 0 → ∀ i, devStrain sig' i = 0) ∧
      (m.plastic ≠ .mccMui → δ = 0) ∧ m.eMu * δ ≤ m.stressTol := by
  obtain ⟨δ, a, b, hB, hδ, hδ'⟩ := plasticity_book ok htol hdt h
  set s := svd q.F
  set t := mkTrial s.hencky with ht
  have hF : out.q.F = s.expF (fun i => a * t.dir i + b) := by
    rcases hB.F with e | ⟨e, e'⟩
    · exact e
    · have : s.hencky = fun i => a * t.dir i + b := funext e'
      rw [e, ← this]; exact (expF_hencky hs hb).symm
  have hlog : ∀ i, Real.log (Real.exp (a * t.dir i + b)) = a * t.dir i + b := fun i => Real.log_exp _
  have hsum : ∑ i, (a * t.dir i + b) = d * b := by rw [ht]; exact sum_ab ok.hd _ a b
  have hvol : volStrain (fun i => Real.exp (a * t.dir i + b)) = d * b := by
    simp only [volStrain, hlog]; exact hsum
  have hdne := ok.dne
  have hdev : ∀ i, devStrain (fun i => Real.exp (a * t.dir i + b)) i = a * t.dir i := by
    intro i
    simp only [devStrain, hvol, hlog]
    field_simp
    ring
  have hd0 : ∀ i, devStrain s.sig i = shearStrain s.sig * t.dir i := by
    intro i
    rw [← trial_dev hb, ← trial_shear hb]
    exact congrFun (mkTrial_dir s.hencky) i
  have hvol' := hB.vol
  have hdev' := hB.dev
  simp only at hvol' hdev'
  rw [ht, trial_vol hb] at hvol'
  rw [ht, trial_shear hb] at hdev'
  refine ⟨δ, fun i => Real.exp (a * t.dir i + b), ?_, fun i => Real.exp_pos _, ?_, ?_, ?_, hδ, hδ'⟩
  · rw [hF]; exact expF_isSvd hs.orthU hs.orthV _
  · rw [hvol]; linarith
  · intro i
    rw [hdev, hd0, show shearStrain s.sig - (out.q.epsPlDev - q.epsPlDev) - δ = a by linarith]
    ring
  · intro h0 i
    rw [hdev, show t.dir = 0 from mkTrial_dir_zero (by rw [trial_shear hb]; exact h0)]
    simp

/-- **C65** Every plastic model: the change of the saved volumetric plastic strain is exactly the change of
volume that the plastic update makes to the deformation gradient. -/
theorem C65_volume (ok : MatOk m d) (htol : 0 ≤ m.stressTol) (hdt : dt ≠ 0) (hs : IsSvd q.F (svd q.F))
    (hb : ∀ i, 1e-4 ≤ (svd q.F).sig i) (h : plasticity cabs svd m dt q exit = some out) :
    Real.log |out.q.F.det| + out.q.epsPlVol = Real.log |q.F.det| + q.epsPlVol := by
  obtain ⟨δ, sig', h1, h2, h3, -⟩ := strain_split ok htol hdt hs hb h
  have key : ∀ {F : Matrix (Fin d) (Fin d) ℝ} {s : Svd d}, IsSvd F s → (∀ i, 0 < s.sig i) →
      Real.log |F.det| = volStrain s.sig := by
    intro F s hs hp
    have hdet : ∀ {U : Matrix (Fin d) (Fin d) ℝ}, U * Uᵀ = 1 → |U.det| = 1 := by
      intro U hU
      have := congrArg Matrix.det hU
      rw [Matrix.det_mul, Matrix.det_transpose, Matrix.det_one] at this
      exact (abs_eq (by norm_num)).mpr (mul_self_eq_one_iff.mp this)
    rw [hs.eq, Matrix.det_mul, Matrix.det_mul, abs_mul, abs_mul, hdet hs.orthU, Matrix.det_transpose,
      hdet hs.orthV, Matrix.det_diagonal, one_mul, mul_one,
      abs_of_pos (Finset.prod_pos fun i _ => hp i), Real.log_prod (fun i _ => (hp i).ne')]
    rfl
  rw [key h1 h2, key hs fun i => lt_of_lt_of_le (by norm_num) (hb i)]
  exact h3

/-- **C65** Every plastic model but MCCMui: the plastic update keeps the principal directions, scales the
deviatoric logarithmic strain, and books exactly the magnitude removed; for MCCMui up to the stress tolerance, see
`C65_mccMui`. -/
theorem C65_shear (ok : MatOk m d) (htol : 0 ≤ m.stressTol) (hdt : dt ≠ 0) (hs : IsSvd q.F (svd q.F))
    (hb : ∀ i, 1e-4 ≤ (svd q.F).sig i) (hm : m.plastic ≠ .mccMui)
    (h : plasticity cabs svd m dt q exit = some out) :
    ∃ sig', IsSvd out.q.F ⟨(svd q.F).U, sig', (svd q.F).V⟩ ∧ (∀ i, 0 < sig' i) ∧
      (∀ i, shearStrain (svd q.F).sig * devStrain sig' i =
        (shearStrain (svd q.F).sig - (out.q.epsPlDev - q.epsPlDev)) * devStrain (svd q.F).sig i) ∧
      (shearStrain (svd q.F).sig = 0 → ∀ i, devStrain sig' i = 0) := by
  obtain ⟨δ, sig', h1, h2, -, h4, h5, h6, -⟩ := strain_split ok htol hdt hs hb h
  rw [h6 hm] at h4
  simp only [sub_zero] at h4
  exact ⟨sig', h1, h2, h4, h5⟩

/-- **C65** For MCCMui the same up to a shear strain `δ` not booked, with `e_mu δ` at most the stress
tolerance. -/
theorem C65_mccMui (ok : MatOk m d) (htol : 0 ≤ m.stressTol) (hdt : dt ≠ 0) (hs : IsSvd q.F (svd q.F))
    (hb : ∀ i, 1e-4 ≤ (svd q.F).sig i) (hm : m.plastic = .mccMui)
    (h : plasticity cabs svd m dt q exit = some out) :
    ∃ δ sig', m.eMu * δ ≤ m.stressTol ∧ IsSvd out.q.F ⟨(svd q.F).U, sig', (svd q.F).V⟩ ∧ (∀ i, 0 < sig' i) ∧
      (∀ i, shearStrain (svd q.F).sig * devStrain sig' i =
        (shearStrain (svd q.F).sig - (out.q.epsPlDev - q.epsPlDev) - δ) * devStrain (svd q.F).sig i) ∧
      (shearStrain (svd q.F).sig = 0 → ∀ i, devStrain sig' i = 0) := by
  obtain ⟨δ, sig', h1, h2, -, h4, h5, -, h7⟩ := strain_split ok htol hdt hs hb h
  exact ⟨δ, sig', h7, h1, h2, h4, h5⟩

/-! ### C66 -/

lemma energy_pq (ok : MatOk m d) {F tau : Matrix (Fin d) (Fin d) ℝ} (h : IsHenckyStress m.lam m.mu F tau)
    {s : Svd d} (hs : IsSvd F s) :
    henckyEnergy m.lam m.mu s.sig =
      m.mu * (savedQ m.qPrefac tau / m.eMu) ^ 2 + savedP tau ^ 2 / (2 * m.K d) := by
  obtain ⟨h1, h2⟩ := C43_any ok h hs
  have he := ok.eMu_pos.ne'
  have hK := ok.hK.ne'
  have hd := ok.dne
  set T := ∑ i, Real.log (s.sig i) with hT
  have hsq : ∑ i, (Real.log (s.sig i) - T / d) ^ 2 = ∑ i, Real.log (s.sig i) ^ 2 - T ^ 2 / d := by
    have : ∀ i, (Real.log (s.sig i) - T / d) ^ 2 =
        Real.log (s.sig i) ^ 2 - 2 * (T / d) * Real.log (s.sig i) + (T / d) ^ 2 := fun i => by ring
    simp only [this, Finset.sum_add_distrib, Finset.sum_sub_distrib, ← Finset.mul_sum, ← hT, Finset.sum_const,
      Finset.card_univ, Fintype.card_fin, nsmul_eq_mul]
    field_simp
    ring
  have hn : 0 ≤ ∑ i, (Real.log (s.sig i) - T / d) ^ 2 := Finset.sum_nonneg fun _ _ => sq_nonneg _
  rw [h1, h2, mul_div_cancel_left₀ _ he, Real.sq_sqrt hn, hsq, henckyEnergy, ← hT]
  have : (-(m.K d) * T) ^ 2 / (2 * m.K d) = m.K d * T ^ 2 / 2 := by field_simp
  rw [this, Material.K]
  field_simp
  ring

lemma trial_stress (ok : MatOk m d) (hs : IsSvd q.F (svd q.F)) (hb : ∀ i, 1e-4 ≤ (svd q.F).sig i) :
    IsHenckyStress m.lam m.mu q.F (elasticTau m (svd q.F)) := by
  have e : elasticTau m (svd q.F) = henckyTau m.lam m.mu (svd q.F).U (svd q.F).hencky := elasticTau_eq hs
  rw [e]
  conv_lhs => rw [← expF_hencky hs hb]
  exact henckyStress_expF hs.orthU hs.orthV _ _ _

/-- If neither the shear stress nor the magnitude of the pressure grows, the elastic energy does not grow. -/
lemma energy_of_stress (ok : MatOk m d) (hs : IsSvd q.F (svd q.F)) (hb : ∀ i, 1e-4 ≤ (svd q.F).sig i)
    (hc : m.plastic = .vmVisc → m.pMin * Real.exp (-m.xi * q.epsPlVol) ≤ trialP m (svd q.F))
    (h : plasticity cabs svd m dt q exit = some out) (hQ : newQ m out ≤ trialQ m (svd q.F))
    (hP : |newP out| ≤ |trialP m (svd q.F)|) : EnergyLe m.lam m.mu out.q.F q.F := by
  intro s' s hs' hs0
  rw [energy_pq ok (C42_hencky ok hs hb hc h) hs', energy_pq ok (trial_stress ok hs hb) hs0]
  have he := ok.eMu_pos
  have hK := ok.hK
  have hmu := ok.hmu
  have hq0 : 0 ≤ newQ m out := by
    have := ok.hq
    simp only [newQ, savedQ]; positivity
  have h1 : (newQ m out / m.eMu) ^ 2 ≤ (trialQ m (svd q.F) / m.eMu) ^ 2 :=
    pow_le_pow_left₀ (by positivity) (by gcongr) 2
  have h2 : newP out ^ 2 ≤ trialP m (svd q.F) ^ 2 := sq_le_sq.mpr hP
  have h3 : newP out ^ 2 / (2 * m.K d) ≤ trialP m (svd q.F) ^ 2 / (2 * m.K d) := by gcongr
  exact add_le_add (mul_le_mul_of_nonneg_left h1 hmu.le) h3

variable (hs : IsSvd q.F (svd q.F)) (hb : ∀ i, 1e-4 ≤ (svd q.F).sig i)
  (h : plasticity cabs svd m dt q exit = some out)
include hs hb h

/-- **C66** von Mises. -/
theorem C66_vonMises (ok : MatOk m d) (hm : m.plastic = .vm) (hq : 0 ≤ m.qMax) :
    EnergyLe m.lam m.mu out.q.F q.F := by
  obtain ⟨out', h', h1, h2, -⟩ := C34_vonMises (cabs := cabs) ok hm hq dt q exit hs
  obtain rfl := Option.some.inj (h.symm.trans h')
  refine energy_of_stress ok hs hb (fun e => absurd (hm.symm.trans e) (by simp)) h ?_ (by rw [h2])
  rw [h1]; exact min_le_left _ _

/-- Where a projection to the tip does not raise the magnitude of the pressure. -/
lemma abs_tip {x P : ℝ} (hx : 0 ≤ x) (hP : P ≤ -x) : |-x| ≤ |P| := by
  rw [abs_neg, abs_of_nonneg hx, abs_of_nonpos (by linarith)]; linarith

/-- **C66** Drucker-Prager: without cohesion, or if the trial pressure is not in the gap of width `1e-10 / M`
above the tip, see `C66_gap_false`. -/
theorem C66_druckerPrager (ok : MatOk m d) (hm : m.plastic = .dp) (hM : 0 < m.M) (hc : 0 ≤ m.qCohesion)
    (hgap : m.qCohesion = 0 ∨ m.M * trialP m (svd q.F) + m.qCohesion ≤ 0 ∨
      1e-10 ≤ m.M * trialP m (svd q.F) + m.qCohesion) :
    EnergyLe m.lam m.mu out.q.F q.F := by
  obtain ⟨out', h', -, -, h1, h2, -⟩ := C35_druckerPrager (cabs := cabs) ok hm hM hc dt q exit hs
  obtain rfl := Option.some.inj (h.symm.trans h')
  have hQ0 : 0 ≤ trialQ m (svd q.F) := by
    have := ok.hq
    simp only [trialQ, savedQ]; positivity
  refine energy_of_stress ok hs hb (fun e => absurd (hm.symm.trans e) (by simp)) h ?_ ?_
  · rcases lt_or_ge (m.M * trialP m (svd q.F) + m.qCohesion) 1e-10 with hl | hl
    · rw [(h1 hl).2]; exact hQ0
    · rw [(h2 hl).2.1]; exact min_le_left _ _
  · rcases lt_or_ge (m.M * trialP m (svd q.F) + m.qCohesion) 1e-10 with hl | hl
    · rw [(h1 hl).1]
      rcases hgap with h0 | h0 | h0
      · simp [h0]
      · rw [neg_div]
        refine abs_tip hs hb h (by positivity) ?_
        rw [← neg_div, le_div_iff₀ hM]; linarith
      · linarith
    · rw [(h2 hl).1]

/-- **C66** Softening Drucker-Prager: without cohesion or without the volume correction. -/
theorem C66_softening (ok : MatOk m d) (hm : m.plastic = .dpSoft) (hM : 0 < m.M) (hc : 0 ≤ m.qCohesion)
    (hxi : 0 ≤ m.xi) (hv : m.qCohesion = 0 ∨ m.usePradhana = false) :
    EnergyLe m.lam m.mu out.q.F q.F := by
  obtain ⟨out', h', ⟨e, -, -, -, h1⟩, -⟩ := C36_softening (cabs := cabs) ok hm hM hc hxi dt q exit hs
  obtain rfl := Option.some.inj (h.symm.trans h')
  have hQ0 : 0 ≤ trialQ m (svd q.F) := by
    have := ok.hq
    simp only [trialQ, savedQ]; positivity
  refine energy_of_stress ok hs hb (fun e => absurd (hm.symm.trans e) (by simp)) h ?_ ?_
  · rcases h1 with ⟨h1, -⟩ | ⟨h1, -⟩
    · rw [h1]; exact min_le_left _ _
    · rw [h1]; exact hQ0
  · rcases h1 with ⟨-, h1, -⟩ | ⟨-, h1, h2, -⟩
    · rw [h1]
    · rw [h1]
      rcases hv with h0 | h0
      · simp [softCohesion, h0]
      · simp only [pressureShift, h0, Bool.false_eq_true, if_false, add_zero] at h2
        rw [neg_div] at h2 ⊢
        exact abs_tip hs hb h (by simp only [softCohesion]; positivity) h2

/-- **C66** Viscous von Mises, yield stress positive (above the tolerance of the Newton iteration if that is
used), also below the pressure limit. -/
theorem C66_viscousVonMises (ok : MatOk m d) (hm : m.plastic = .vmVisc) (hn : 0 ≤ m.viscExponent)
    (hτ : 0 ≤ m.viscTime) (hdt : 0 < dt)
    (hy : (m.viscExponent = 1 ∧ m.xi = 0 ∧ 0 ≤ m.qMax) ∨
      ¬ (m.viscExponent = 1 ∧ m.xi = 0) ∧ 1e-2 ≤ m.qMin ∧ m.qMin ≤ m.qMax) (hok : out.exit = false) :
    EnergyLe m.lam m.mu out.q.F q.F := by
  by_cases hcap : m.pMin * Real.exp (-m.xi * q.epsPlVol) ≤ trialP m (svd q.F)
  · have key : newP out = trialP m (svd q.F) ∧ newQ m out ≤ trialQ m (svd q.F) := by
      rcases hy with ⟨h1, h2, h3⟩ | ⟨h1, h2, h3⟩
      · obtain ⟨out', h', k1, k2, k3, -⟩ := C37_viscousVonMises (cabs := cabs) ok hm h1 h2 h3 hτ hdt q exit hs
          (by rw [h2] at hcap; simpa using hcap)
        obtain rfl := Option.some.inj (h.symm.trans h')
        refine ⟨k1, ?_⟩
        rcases le_or_gt (trialQ m (svd q.F)) m.qMax with hl | hl
        · exact le_of_eq (by rw [newQ, k2 hl]; rfl)
        · exact (k3 hl).2.1.le
      · have hyld : ∀ e, 1e-2 ≤ vmYield m e := by
          intro e
          have : 0 ≤ (m.qMax - m.qMin) * Real.exp (-m.xi * e) :=
            mul_nonneg (by linarith) (Real.exp_pos _).le
          simp only [vmYield]; linarith
        rcases lt_or_ge (vmYield m q.epsPlDev) (trialQ m (svd q.F)) with hl | hl
        · obtain ⟨-, -, k1, -, qn, -, -, -, k2⟩ := C51_vonMises ok hm h1 hn hτ hdt q exit hs hcap
            (le_trans (by norm_num) (hyld _)) hl h hok
          exact ⟨k1, (k2 (hyld _)).2.1⟩
        · obtain ⟨st, k1, rfl⟩ := plasticity_some.mp h
          obtain ⟨hP, hQ⟩ := trial_eq ok hs
          rw [hP] at hcap
          rw [hQ] at hl
          simp only [plastModel, hm, plastVMVisc, if_neg (not_lt.mpr hcap)] at k1
          rw [if_neg (show ¬ m.eMu * (mkTrial (svd q.F).hencky).norm >
            m.qMin + (m.qMax - m.qMin) * Real.exp (-m.xi * q.epsPlDev) from not_lt.mpr hl)] at k1
          obtain rfl := Option.some.inj k1
          have e : newTau m (svd q.F) (svd q.F).hencky q.F = elasticTau m (svd q.F) := by
            rw [newTau_hencky ok.hel, elasticTau_eq hs]
          simp only [newP, newQ, e]
          exact ⟨rfl, le_rfl⟩
    exact energy_of_stress ok hs hb (fun _ => hcap) h key.2 (by rw [key.1])
  · obtain ⟨st, k1, rfl⟩ := plasticity_some.mp h
    obtain ⟨hP, hQ⟩ := trial_eq ok hs
    rw [hP] at hcap
    simp only [plastModel, hm, plastVMVisc, if_pos (not_le.mp hcap), Option.some.injEq] at k1
    subst k1
    intro s' s hs' hs0
    simp only at hs'
    have h0 : IsSvd ((svd q.F).U * (svd q.F).Vᵀ) ⟨(svd q.F).U, fun _ => 1, (svd q.F).V⟩ :=
      ⟨by simp, hs.orthU, hs.orthV, fun _ => zero_le_one⟩
    have e := hs'.eq.symm.trans h0.eq
    have e1 := (svd_fun_left hs'.orthU hs'.orthV h0.orthU h0.orthV hs'.nonneg h0.nonneg e Real.log).2
    have e2 := (svd_fun_left hs'.orthU hs'.orthV h0.orthU h0.orthV hs'.nonneg h0.nonneg e
      (fun x => Real.log x ^ 2)).2
    simp only [Real.log_one, Finset.sum_const_zero, ne_eq, OfNat.ofNat_ne_zero, not_false_eq_true, zero_pow] at e1 e2
    rw [energy_pq ok (trial_stress ok hs hb) hs0, henckyEnergy, e1, e2]
    have := ok.hK
    have := ok.hmu
    norm_num
    positivity

/-- **C66** Viscous Drucker-Prager, without cohesion or without the volume correction. -/
theorem C66_viscousDruckerPrager (ok : MatOk m d) (hm : m.plastic = .dpVisc) (hn : 0 ≤ m.viscExponent)
    (hM : 0 < m.M) (hc : 0 ≤ m.qCohesion) (hτ : 0 ≤ m.viscTime) (hdt : 0 < dt)
    (hy : m.viscExponent = 1 ∨ 1e-2 ≤ m.M * (trialP m (svd q.F) + pressureShift m d q) + m.qCohesion)
    (hv : m.qCohesion = 0 ∨ m.usePradhana = false) (hok : out.exit = false) :
    EnergyLe m.lam m.mu out.q.F q.F := by
  have hQ0 : 0 ≤ trialQ m (svd q.F) := by
    have := ok.hq
    simp only [trialQ, savedQ]; positivity
  have htip : trialP m (svd q.F) + pressureShift m d q < -m.qCohesion / m.M →
      |-m.qCohesion / m.M| ≤ |trialP m (svd q.F)| := by
    intro hl
    rcases hv with h0 | h0
    · simp [h0]
    · simp only [pressureShift, h0, Bool.false_eq_true, if_false, add_zero] at hl
      rw [neg_div] at hl ⊢
      exact abs_tip hs hb h (by positivity) hl.le
  refine energy_of_stress ok hs hb (fun e => absurd (hm.symm.trans e) (by simp)) h ?_ ?_
  all_goals
    rcases eq_or_ne m.viscExponent 1 with h1 | h1
    · obtain ⟨out', h', k1, k2, k3, k4, k5, -⟩ := C38_viscousDruckerPrager (cabs := cabs) ok hm h1 hM hc hτ hdt q
        exit hs rfl rfl rfl rfl
      obtain rfl := Option.some.inj (h.symm.trans h')
      first
      | rcases lt_trichotomy (trialP m (svd q.F) + pressureShift m d q) (-m.qCohesion / m.M) with hl | hl | hl
        · rw [(k1 hl).2]; exact hQ0
        · exact (k5 hl).le
        · rcases le_or_gt (trialQ m (svd q.F))
            (m.M * (trialP m (svd q.F) + pressureShift m d q) + m.qCohesion) with hg | hg
          · exact le_of_eq (by rw [newQ, (k3 hl hg).2.1]; rfl)
          · exact (k4 hl hg).2.1.le
      | rcases lt_or_ge (trialP m (svd q.F) + pressureShift m d q) (-m.qCohesion / m.M) with hl | hl
        · rw [(k1 hl).1]; exact htip hl
        · rw [k2 hl]
    · have hY := hy.resolve_left h1
      have hl : -m.qCohesion / m.M < trialP m (svd q.F) + pressureShift m d q := by
        rw [div_lt_iff₀ hM]; nlinarith
      rcases lt_or_ge (m.M * (trialP m (svd q.F) + pressureShift m d q) + m.qCohesion)
        (trialQ m (svd q.F)) with hg | hg
      · obtain ⟨-, -, k1, -, qn, -, -, -, k2⟩ := C51_druckerPrager ok hm h1 hn hM hτ hdt q exit hs rfl rfl rfl rfl
          hl hg h hok
        first
        | exact (k2 hY).2.1
        | rw [k1]
      · obtain ⟨st, k1, rfl⟩ := plasticity_some.mp h
        obtain ⟨hP, hQ⟩ := trial_eq ok hs
        have hS : (if m.usePradhana = true then -m.K d * q.epsPlVolPradhana else 0) = pressureShift m d q := rfl
        simp only [plastModel, hm, plastDPVisc, ite_muI, hS, ← hP, ← hQ, if_neg (not_lt.mpr hl.le)] at k1
        rw [if_neg (fun hh => absurd hh.2 (not_lt.mpr hg))] at k1
        obtain rfl := Option.some.inj k1
        have e : newTau m (svd q.F) (svd q.F).hencky q.F = elasticTau m (svd q.F) := by
          rw [newTau_hencky ok.hel, elasticTau_eq hs]
        simp only [newP, newQ, e]
        exact le_rfl

/-- **C66** mu(I) Drucker-Prager, without cohesion or without the volume correction, and not for a tensile state
right of the tip. -/
theorem C66_muI (ok : MatOk m d) (hm : m.plastic = .dpMui) (h1 : 0 < m.mu1) (h12 : m.mu1 < m.mu2)
    (hfq : 0 < m.facQ) (hc : 0 ≤ m.qCohesion) (htol : 0 ≤ m.stressTol) (hdt : 0 < dt)
    (hv : m.qCohesion = 0 ∨ m.usePradhana = false)
    (hpos : -m.qCohesion / m.mu1 < trialP m (svd q.F) + pressureShift m d q → 0 ≤ trialP m (svd q.F)) :
    EnergyLe m.lam m.mu out.q.F q.F := by
  have hQ0 : 0 ≤ trialQ m (svd q.F) := by
    have := ok.hq
    simp only [trialQ, savedQ]; positivity
  have hf := ok.fMu_pos
  by_cases hp : -m.qCohesion / m.mu1 < trialP m (svd q.F) + pressureShift m d q ∧
      m.mu1 * (trialP m (svd q.F) + pressureShift m d q) + m.qCohesion + m.stressTol < trialQ m (svd q.F)
  · obtain ⟨out', h', k1, k2, -, -, -, -, -, ⟨qn, k3, -, -, k4, -⟩, -⟩ := C39_muI (cabs := cabs) ok hm h1 h12 hfq hc
      htol hdt q exit hs rfl rfl rfl rfl rfl hp.1 hp.2
    obtain rfl := Option.some.inj (h.symm.trans h')
    refine energy_of_stress ok hs hb (fun e => absurd (hm.symm.trans e) (by simp)) h ?_ (by rw [k1])
    rw [(k4 (hpos hp.1)).2, k3]
    have : 0 ≤ m.fMu * dt * out.q.deltaGamma := by positivity
    linarith
  · have hor : trialP m (svd q.F) + pressureShift m d q ≤ -m.qCohesion / m.mu1 ∨
        trialQ m (svd q.F) ≤ m.mu1 * (trialP m (svd q.F) + pressureShift m d q) + m.qCohesion + m.stressTol := by
      by_contra hcon
      push Not at hcon
      exact hp hcon
    obtain ⟨out', h', -, -, k1, k2, -⟩ := C39_other (cabs := cabs) ok hm dt q exit hs rfl rfl rfl rfl hor
    obtain rfl := Option.some.inj (h.symm.trans h')
    rcases lt_or_ge (trialP m (svd q.F) + pressureShift m d q) (-m.qCohesion / m.mu1) with hl | hl
    · refine energy_of_stress ok hs hb (fun e => absurd (hm.symm.trans e) (by simp)) h ?_ ?_
      · rw [(k1 hl).2.1]; exact hQ0
      · rw [(k1 hl).1]
        rcases hv with h0 | h0
        · simp [h0]
        · simp only [pressureShift, h0, Bool.false_eq_true, if_false, add_zero] at hl
          rw [neg_div] at hl ⊢
          exact abs_tip hs hb h (by positivity) hl.le
    · have := (k2 hl).2.1
      refine energy_of_stress ok hs hb (fun e => absurd (hm.symm.trans e) (by simp)) h ?_ ?_
      · exact le_of_eq (by rw [newQ, this]; rfl)
      · exact le_of_eq (by rw [newP, this]; rfl)

omit hs hb h

/-- **C66** fails in the gap above the tip of the Drucker-Prager cone: there the code moves the stress back to the
tip, which for a cohesive material raises the tension (by less than `1e-10 / M`) and with it the energy. -/
theorem C66_gap_false : ∃ out a, plasticity abs (Ex.svd a a) (Ex.mat .dp) 1 (Ex.part a a) false = some out ∧
    ¬ EnergyLe (Ex.mat .dp).lam (Ex.mat .dp).mu out.q.F (Ex.part a a).F := by
  set a : ℝ := 1 / 16 - 1 / 10 ^ 11 with ha
  have ha1 : -1 / 2 ≤ a := by rw [ha]; norm_num
  have hs := Ex.isSvd a a
  have ok := Ex.mat_ok .dp
  obtain ⟨e1, e2⟩ := ex_trial .dp (a := a) (b := a) ha1 ha1 _ hs
  have hb := Ex.big ha1 ha1 (Ex.part a a).F
  obtain ⟨out, h, -, -, h1, -⟩ := C35_druckerPrager (cabs := abs) ok rfl (by norm_num [Ex.mat])
    (by norm_num [Ex.mat]) 1 (Ex.part a a) false hs
  obtain ⟨h1, h2⟩ := h1 (by rw [e1, ha]; norm_num [Ex.mat])
  refine ⟨out, a, h, fun hle => ?_⟩
  obtain ⟨δ, sig', hsv, -⟩ := strain_split (q := Ex.part a a) ok (by norm_num [Ex.mat]) one_ne_zero hs hb h
  have := hle _ _ hsv hs
  rw [energy_pq ok (C42_hencky ok hs hb (by intro h0; cases h0) h) hsv, energy_pq ok (trial_stress ok hs hb) hs] at this
  change _ * (newQ _ out / _) ^ 2 + newP out ^ 2 / _ ≤ _ * (trialQ _ _ / _) ^ 2 + trialP _ _ ^ 2 / _ at this
  rw [h1, h2, e1, e2, Ex.mat_K] at this
  norm_num [Ex.mat, ha] at this

/-! ### C64 -/

/-- **C64** One update, every model but DPMui: the saved plastic rate times the time step is the change of the
saved plastic strain (in the units of the saved rate); or both are left as they were. -/
theorem C64_update (ok : MatOk m d) (htol : 0 ≤ m.stressTol) (hdt : dt ≠ 0) (hm : m.plastic ≠ .dpMui)
    (h : plasticity cabs svd m dt q exit = some out) :
    out.q.deltaGamma * dt = m.dPre * (out.q.epsPlDev - q.epsPlDev) ∨
      (out.q.deltaGamma = q.deltaGamma ∧ out.q.epsPlDev = q.epsPlDev) := by
  obtain ⟨δ, a, b, hB, -⟩ := plasticity_book ok htol hdt h
  rcases hB.rate with e | e | ⟨e, -⟩
  · exact .inl e
  · exact .inr e
  · exact absurd e hm

/-- **C64** Exception: for DPMui a particle projected to the tip gets the plastic increment, not the rate. -/
theorem C64_muI_tip_false (ok : MatOk m d) (hm : m.plastic = .dpMui) (hs : IsSvd q.F (svd q.F))
    (htip : trialP m (svd q.F) + pressureShift m d q < -m.qCohesion / m.mu1)
    (h : plasticity cabs svd m dt q exit = some out) :
    out.q.deltaGamma = m.dPre * (out.q.epsPlDev - q.epsPlDev) ∧
      (0 < trialQ m (svd q.F) → dt ≠ 1 →
        out.q.deltaGamma * dt ≠ m.dPre * (out.q.epsPlDev - q.epsPlDev) ∧ 0 < out.q.deltaGamma) := by
  obtain ⟨out', h', -, -, k1, -, k3, -⟩ := C39_other (cabs := cabs) ok hm dt q exit hs rfl rfl rfl rfl (.inl htip.le)
  obtain rfl := Option.some.inj (h.symm.trans h')
  obtain ⟨-, k2, k4, -⟩ := k1 htip
  have hf := ok.fMu_pos
  have he := ok.eMu_pos
  have hp := ok.dPre_pos
  have e : out.q.deltaGamma = m.dPre * (out.q.epsPlDev - q.epsPlDev) := by
    rw [k3, k2, ← k4, ok.fMu_eq]
    field_simp
    ring
  refine ⟨e, fun hQ hd1 => ⟨fun hcon => ?_, ?_⟩⟩
  · have : out.q.deltaGamma * dt = out.q.deltaGamma := hcon.trans e.symm
    have h0 : out.q.deltaGamma * (dt - 1) = 0 := by linarith
    rcases mul_eq_zero.mp h0 with h0 | h0
    · rw [h0, mul_zero] at k4; linarith
    · exact hd1 (by linarith)
  · by_contra hcon
    have : m.fMu * out.q.deltaGamma ≤ 0 := mul_nonpos_of_nonneg_of_nonpos hf.le (not_lt.mp hcon)
    linarith

/-- **C64** Without MUSL nothing resets the rate: a von Mises particle that has yielded and is not deformed further
keeps the old rate, although its plastic strain does not change any more. -/
theorem C64_stale_false (ok : MatOk m d) (hm : m.plastic = .vm) (hq : 0 ≤ m.qMax) (htol : 0 ≤ m.stressTol) (hdt : 0 < dt)
    (hsvd : ∀ F, IsSvd F (svd F)) (hb : ∀ i, 1e-4 ≤ (svd q.F).sig i) (hy : m.qMax < trialQ m (svd q.F))
    (h : plasticity cabs svd m dt q exit = some out) (hb' : ∀ i, 1e-4 ≤ (svd out.q.F).sig i) :
    0 < out.q.deltaGamma ∧ ∃ out', plasticity cabs svd m dt out.q exit = some out' ∧
      out'.q.deltaGamma = out.q.deltaGamma ∧ out'.q.epsPlDev = out.q.epsPlDev := by
  have hf := ok.fMu_pos
  have hhe := C42_hencky ok (hsvd q.F) hb (fun e => absurd (hm.symm.trans e) (by simp)) h
  obtain ⟨o, h', h1, -, -, -, -, -, -, h2, -⟩ := C34_vonMises (cabs := cabs) ok hm hq dt q exit (hsvd q.F)
  obtain rfl := Option.some.inj (h.symm.trans h')
  rw [min_eq_right hy.le] at h1
  have h2 := (h2 hy).resolve_right hdt.ne'
  have htq : trialQ m (svd out.q.F) = m.qMax := by
    rw [← h1, newQ, (C43_any ok hhe (hsvd out.q.F)).2, (trial_eq ok (hsvd _)).2, trial_shear hb']
    rfl
  obtain ⟨o, h', -, -, -, h3, -⟩ := C34_vonMises (cabs := cabs) ok hm hq dt out.q exit (hsvd out.q.F)
  have h3 := h3 htq.le
  refine ⟨?_, o, h', by rw [h3], by rw [h3]⟩
  have : 0 < out.q.deltaGamma * dt := by
    rw [h2, h1]
    exact div_pos (by linarith) hf
  exact pos_of_mul_pos_left this hdt.le

end

section run
variable {d : ℕ} {R : Setup (d + 2)} {i e : Bool} {fuel : ℕ} {s : LoopState (d + 2) (World (d + 2))}

lemma updated_rate (ok : MatOk R.m (d + 2)) (htol : 0 ≤ R.m.stressTol) (hm : R.m.plastic ≠ .dpMui) {dt : ℝ}
    (hdt : dt ≠ 0) {p p' : Particle (d + 2) ℝ} (h : Updated R dt p p') :
    p'.deltaGamma * dt = R.m.dPre * (p'.epsPlDev - p.epsPlDev) ∨
      (R.S.useMusl = false ∧ p'.deltaGamma = p.deltaGamma ∧ p'.epsPlDev = p.epsPlDev) := by
  obtain ⟨q, r, x, v, ⟨_, _, _, _, _, _, hq⟩, hu, rfl, -, hg⟩ := h
  obtain ⟨out, ho, rfl⟩ := plasticUpdate_some hu
  have e : q.epsPlDev = p.epsPlDev := by rw [hq]
  rcases C64_update ok htol hdt hm ho with h | ⟨h1, h2⟩
  · left; rw [← e]; exact h
  · cases hM : R.S.useMusl
    · right
      rw [hM] at hg
      exact ⟨rfl, h1.trans hg, h2.trans e⟩
    · left
      rw [hM, if_pos rfl] at hg
      simp only [h1, hg, h2, e]; ring

/-- **C64** With MUSL: in every particle file of a run but that of the initial state, the saved plastic rate of each
particle is the change of its saved plastic strain in the last step divided by the length of that step (times the
constant between the two measures). -/
theorem C64_run_partial (ok : MatOk R.m (d + 2)) (htol : 0 ≤ R.m.stressTol) (hm : R.m.plastic ≠ .dpMui)
    (hmin : 0 < R.C.minDt) (hmusl : R.S.useMusl = true) {n : ℕ} {t : ℝ} {w : World (d + 2)}
    (hev : .particles n t w ∈ filesOf (runProgram R i e fuel s)) (hnew : .particles n t w ∉ s.out) :
    (n = 0 ∧ t = 0 ∧ w = (begin R s).w) ∨
      ∃ s1 dt g, StepOf R s s1 dt g w ∧ t = s1.time + dt ∧ 0 < dt ∧
        List.Forall₂ (fun p p' => p'.deltaGamma = R.m.dPre * ((p'.epsPlDev - p.epsPlDev) / dt)) s1.w.ps w.ps := by
  rcases run_particles hev hnew with h | ⟨s1, dt, g, h, ht⟩
  · exact .inl h
  · have hdt : 0 < dt := lt_of_lt_of_le hmin h.dt_ge.1
    refine .inr ⟨s1, dt, g, h, ht, hdt, (physStep_forall₂ h.phys).imp fun p p' hp => ?_⟩
    rcases updated_rate ok htol hm hdt.ne' hp with hr | ⟨hr, -⟩
    · rw [← mul_div_assoc, eq_div_iff hdt.ne']; exact hr
    · rw [hmusl] at hr; cases hr

/-- **C64** Without MUSL the same, except for particles whose plastic strain and saved rate are both as before the
step (see `C64_stale_false` for one whose rate is then wrong). -/
theorem C64_run_usl_partial (ok : MatOk R.m (d + 2)) (htol : 0 ≤ R.m.stressTol) (hm : R.m.plastic ≠ .dpMui)
    (hmin : 0 < R.C.minDt) {n : ℕ} {t : ℝ} {w : World (d + 2)}
    (hev : .particles n t w ∈ filesOf (runProgram R i e fuel s)) (hnew : .particles n t w ∉ s.out) :
    (n = 0 ∧ t = 0 ∧ w = (begin R s).w) ∨
      ∃ s1 dt g, StepOf R s s1 dt g w ∧ t = s1.time + dt ∧ 0 < dt ∧
        List.Forall₂ (fun p p' => p'.deltaGamma = R.m.dPre * ((p'.epsPlDev - p.epsPlDev) / dt) ∨
          (p'.deltaGamma = p.deltaGamma ∧ p'.epsPlDev = p.epsPlDev)) s1.w.ps w.ps := by
  rcases run_particles hev hnew with h | ⟨s1, dt, g, h, ht⟩
  · exact .inl h
  · have hdt : 0 < dt := lt_of_lt_of_le hmin h.dt_ge.1
    refine .inr ⟨s1, dt, g, h, ht, hdt, (physStep_forall₂ h.phys).imp fun p p' hp => ?_⟩
    rcases updated_rate ok htol hm hdt.ne' hp with hr | ⟨-, hr⟩
    · left; rw [← mul_div_assoc, eq_div_iff hdt.ne']; exact hr
    · exact .inr hr

lemma step_volume (ok : MatOk R.m (d + 2)) (htol : 0 ≤ R.m.stressTol) (hsvd : ∀ F, IsSvd F (R.svd F)) {dt : ℝ}
    (hdt : dt ≠ 0) {L F : Matrix (Fin (d + 2)) (Fin (d + 2)) ℝ} {q : Particle (d + 2) ℝ} {r : Particle (d + 2) ℝ × Bool}
    (hF : q.F = trialF dt L F) (h : plasticUpdate R dt q = some r) (hb : ∀ a, 1e-4 ≤ (R.svd (trialF dt L F)).sig a) :
    Real.log |r.1.F.det| + r.1.epsPlVol = Real.log |F.det| + q.epsPlVol + Real.log |(1 + dt • L).det| := by
  obtain ⟨out, ho, rfl⟩ := plasticUpdate_some h
  have hF' : q.F = (1 + dt • L) * F := by
    rw [hF, trialF, add_mul, one_mul, smul_mul_assoc]
  rw [← hF] at hb
  have := C65_volume ok htol hdt (hsvd q.F) hb ho
  simp only
  rw [this, hF', Matrix.det_mul, abs_mul]
  have hne : ((1 + dt • L) * F).det ≠ 0 := by
    rw [← hF', (hsvd q.F).eq, Matrix.det_mul, Matrix.det_mul, Matrix.det_diagonal]
    refine mul_ne_zero (mul_ne_zero (orth_det_ne (hsvd _).orthU) ?_) ?_
    · refine Finset.prod_ne_zero_iff.mpr fun a _ => ?_
      have := hb a
      intro h0
      rw [h0] at this
      norm_num at this
    · rw [Matrix.det_transpose]; exact orth_det_ne (hsvd _).orthV
  rw [Matrix.det_mul] at hne
  obtain ⟨h1, h2⟩ := mul_ne_zero_iff.mp hne
  rw [Real.log_mul (abs_ne_zero.mpr h1) (abs_ne_zero.mpr h2)]
  ring

/-- **C65** Over the update of a particle with MUSL (`deformationUpdate`): logarithmic volume plus saved volumetric
plastic strain changes by `log |det (1 + dt L)|`, `L` the velocity gradient at the particle. Plasticity moves volume
between the two but creates none. -/
theorem C65_step_musl (ok : MatOk R.m (d + 2)) (htol : 0 ≤ R.m.stressTol) (hsvd : ∀ F, IsSvd F (R.svd F)) {dt : ℝ}
    (hdt : dt ≠ 0) {n : Fin (d + 2) → ℕ} {v : ℕ → Fin (d + 2) → ℝ} {p : Particle (d + 2) ℝ} {st : Stencil (d + 2) ℝ}
    {r : Particle (d + 2) ℝ × Bool} (h : deformFullParticle R dt n v (p, st) = some r)
    (hb : ∀ a, 1e-4 ≤ (R.svd (trialF dt (interpGrad n v st) p.F)).sig a) :
    Real.log |r.1.F.det| + r.1.epsPlVol =
      Real.log |p.F.det| + p.epsPlVol + Real.log |(1 + dt • interpGrad n v st).det| :=
  step_volume (q := { p with deltaGamma := 0, F := trialF dt (interpGrad n v st) p.F }) ok htol hsvd hdt rfl h hb

/-- **C65** The same without MUSL (`G2P`). -/
theorem C65_step_usl (ok : MatOk R.m (d + 2)) (htol : 0 ≤ R.m.stressTol) (hsvd : ∀ F, IsSvd F (R.svd F)) {dt : ℝ}
    (hdt : dt ≠ 0) (hu : R.S.useMusl = false) {n : Fin (d + 2) → ℕ} {v : EulerArr (d + 2) ℝ} {p : Particle (d + 2) ℝ}
    {st : Stencil (d + 2) ℝ} {r : Particle (d + 2) ℝ × Bool} (h : g2pFullParticle R dt n v (p, st) = some r)
    (hb : ∀ a, 1e-4 ≤ (R.svd (trialF dt (interpGrad n v.v st) p.F)).sig a) :
    Real.log |r.1.F.det| + r.1.epsPlVol =
      Real.log |p.F.det| + p.epsPlVol + Real.log |(1 + dt • interpGrad n v.v st).det| := by
  simp only [g2pFullParticle, hu, Bool.false_eq_true, if_false] at h
  have := step_volume (q := { g2pTransfer R.S.P n v p st with F := trialF dt (interpGrad n v.v st) p.F }) ok htol hsvd hdt
    rfl h hb
  exact this

end run

/-! ### Examples -/

/-- `C64_update`, `C65_volume`, `C65_shear`, `C66_druckerPrager` for a state far outside the cone in shear: the update
exists, books a positive strain, and the hypotheses hold. -/
example : ∃ out, plasticity abs (Ex.svd (1 / 2) (-1 / 2)) (Ex.mat .dp) 1 (Ex.part (1 / 2) (-1 / 2)) false = some out ∧
    0 < out.q.epsPlDev ∧
    (out.q.deltaGamma * 1 = (Ex.mat .dp).dPre * (out.q.epsPlDev - 0) ∨ (out.q.deltaGamma = 0 ∧ out.q.epsPlDev = 0)) ∧
    Real.log |out.q.F.det| + out.q.epsPlVol = Real.log |(Ex.part (1 / 2) (-1 / 2)).F.det| + 0 ∧
    EnergyLe 0 1 out.q.F (Ex.part (1 / 2) (-1 / 2)).F := by
  have hs := Ex.isSvd (1 / 2) (-1 / 2)
  have hb := Ex.big (a := 1 / 2) (b := -1 / 2) (by norm_num) (by norm_num) (Ex.part (1 / 2) (-1 / 2)).F
  have ok := Ex.mat_ok .dp
  obtain ⟨e1, e2⟩ := ex_trial .dp (a := 1 / 2) (b := -1 / 2) (by norm_num) (by norm_num) _ hs
  obtain ⟨out, h, -, -, -, h1, -, h2, -⟩ := C35_druckerPrager (cabs := abs) ok rfl (by norm_num [Ex.mat])
    (by norm_num [Ex.mat]) 1 (Ex.part (1 / 2) (-1 / 2)) false hs
  rw [e1, e2] at h1
  rw [e2, Ex.mat_eMu, (h1 (by norm_num [Ex.mat])).2.1] at h2
  refine ⟨out, h, ?_, ?_, C65_volume ok (by norm_num [Ex.mat]) one_ne_zero hs hb h, ?_⟩
  · have : 0 < Real.sqrt 2 := Ex.sq2_pos
    rw [h2, show (Ex.part (1 / 2) (-1 / 2)).epsPlDev = 0 from rfl, zero_add]
    exact div_pos (by norm_num [Ex.mat]) this
  · exact C64_update ok (by norm_num [Ex.mat]) one_ne_zero (by simp [Ex.mat]) h
  · have := C66_druckerPrager hs hb h ok rfl (by norm_num [Ex.mat]) (by norm_num [Ex.mat])
      (.inr (.inr (by rw [e1]; norm_num [Ex.mat])))
    rwa [Ex.mat_lam, Ex.mat_mu] at this

/-- `C64_muI_tip_false`, `C66_muI`: a state in tension with shear, step 1/2. -/
example : ∃ out, plasticity abs (Ex.svd (1 / 2) 0) (Ex.mat .dpMui) (1 / 2) (Ex.part (1 / 2) 0) false = some out ∧
    out.q.deltaGamma * (1 / 2) ≠ (Ex.mat .dpMui).dPre * (out.q.epsPlDev - 0) ∧ EnergyLe 0 1 out.q.F (Ex.part (1 / 2) 0).F := by
  have hs := Ex.isSvd (1 / 2) 0
  have hb := Ex.big (a := 1 / 2) (b := 0) (by norm_num) (by norm_num) (Ex.part (1 / 2) 0).F
  have ok := Ex.mat_ok .dpMui
  obtain ⟨e1, e2⟩ := ex_trial .dpMui (a := 1 / 2) (b := 0) (by norm_num) (by norm_num) _ hs
  have htip : trialP (Ex.mat .dpMui) (Ex.svd (1 / 2) 0 (Ex.part (1 / 2) 0).F) + pressureShift (Ex.mat .dpMui) 2 (Ex.part (1 / 2) 0)
      < -(Ex.mat .dpMui).qCohesion / (Ex.mat .dpMui).mu1 := by
    rw [e1]; norm_num [Ex.mat, pressureShift]
  have hfq : (Ex.mat .dpMui).facQ = 1 := by norm_num [Ex.mat, Material.facQ]
  obtain ⟨out, h, -⟩ := C39_other (cabs := abs) ok rfl (1 / 2) (Ex.part (1 / 2) 0) false hs rfl rfl rfl rfl (.inl htip.le)
  refine ⟨out, h, ((C64_muI_tip_false ok rfl hs htip h).2 (by rw [e2]; norm_num) (by norm_num)).1, ?_⟩
  have := C66_muI hs hb h ok rfl (by norm_num [Ex.mat]) (by norm_num [Ex.mat]) (by rw [hfq]; norm_num)
    (by norm_num [Ex.mat]) (by norm_num [Ex.mat]) (by norm_num) (.inr rfl) (fun hl => absurd htip (not_lt.mpr hl.le))
  rwa [Ex.mat_lam, Ex.mat_mu] at this

/-- `C66` for the other models: the hypotheses hold for the same states. -/
example {pm : PlasticModel} (hpm : pm ∈ [PlasticModel.vm, .dpSoft, .vmVisc, .dpVisc]) {out : PState 2}
    (h : plasticity abs (Ex.svd (1 / 2) (-1 / 2)) (Ex.mat pm) 1 (Ex.part (1 / 2) (-1 / 2)) false = some out)
    (hok : out.exit = false) : EnergyLe (Ex.mat pm).lam (Ex.mat pm).mu out.q.F (Ex.part (1 / 2) (-1 / 2)).F := by
  have hs := Ex.isSvd (1 / 2) (-1 / 2)
  have hb := Ex.big (a := 1 / 2) (b := -1 / 2) (by norm_num) (by norm_num) (Ex.part (1 / 2) (-1 / 2)).F
  simp only [List.mem_cons, List.not_mem_nil, or_false] at hpm
  rcases hpm with rfl | rfl | rfl | rfl
  · exact C66_vonMises hs hb h (Ex.mat_ok _) rfl (by norm_num [Ex.mat])
  · exact C66_softening hs hb h (Ex.mat_ok _) rfl (by norm_num [Ex.mat]) (by norm_num [Ex.mat]) (by norm_num [Ex.mat]) (.inr rfl)
  · exact C66_viscousVonMises hs hb h (Ex.mat_ok _) rfl (by norm_num [Ex.mat]) (by norm_num [Ex.mat]) one_pos
      (.inl ⟨rfl, rfl, by norm_num [Ex.mat]⟩) hok
  · exact C66_viscousDruckerPrager hs hb h (Ex.mat_ok _) rfl (by norm_num [Ex.mat]) (by norm_num [Ex.mat])
      (by norm_num [Ex.mat]) (by norm_num [Ex.mat]) one_pos (.inl rfl) (.inr rfl) hok

/-- `C65_mccMui`: the Cam-Clay state of C53. -/
example : ∃ out δ sig', plasticity abs (Ex.svd (1 / 4) (-1 / 2)) (Ex.cam .mccMui .expoImpl) 1 (Ex.part (1 / 4) (-1 / 2)) false
      = some out ∧ (Ex.cam .mccMui .expoImpl).eMu * δ ≤ 1e-5 ∧ IsSvd out.q.F ⟨1, sig', 1⟩ := by
  obtain ⟨out, h, -⟩ := ex_mccMui
  obtain ⟨δ, sig', h1, h2, -⟩ := C65_mccMui (q := Ex.part (1 / 4) (-1 / 2)) (Ex.cam_ok .mccMui .expoImpl)
    (by norm_num [Ex.cam, Ex.mat]) one_ne_zero
    (Ex.isSvd _ _) (Ex.big (by norm_num) (by norm_num) _) rfl h
  exact ⟨out, δ, sig', h, h1, h2⟩

/-- Lower bounds of singular values do not depend on the decomposition. -/
lemma sig_ge {F : Matrix (Fin d) (Fin d) ℝ} {s s' : Svd d} (hs : IsSvd F s) (hs' : IsSvd F s') {c : ℝ}
    (h : ∀ i, c ≤ s.sig i) (i : Fin d) : c ≤ s'.sig i := by
  have := (svd_fun_left hs.orthU hs.orthV hs'.orthU hs'.orthV hs.nonneg hs'.nonneg (hs.eq.symm.trans hs'.eq)
    (fun x => if x < c then 1 else 0)).2
  rw [Finset.sum_eq_zero fun i _ => if_neg (not_lt.mpr (h i))] at this
  have h0 := (Finset.sum_eq_zero_iff_of_nonneg fun i _ => by split_ifs <;> norm_num).mp this.symm i (Finset.mem_univ i)
  by_contra hc
  rw [if_pos (not_le.mp hc)] at h0
  norm_num at h0

/-- `C64_stale_false`: simple shear of twice the yield strain and more. -/
example : ∃ out out', plasticity abs someSvd (Ex.mat .vm) 1 (Ex.part (1 / 2) (-1 / 2)) false = some out ∧
    0 < out.q.deltaGamma ∧ plasticity abs someSvd (Ex.mat .vm) 1 out.q false = some out' ∧
    out'.q.deltaGamma = out.q.deltaGamma ∧ out'.q.epsPlDev = out.q.epsPlDev := by
  have hs := Ex.isSvd (1 / 2) (-1 / 2)
  have hb0 := Ex.big (a := 1 / 2) (b := -1 / 2) (by norm_num) (by norm_num) (Ex.part (1 / 2) (-1 / 2)).F
  have ok := Ex.mat_ok .vm
  obtain ⟨e1, e2⟩ := ex_trial .vm (a := 1 / 2) (b := -1 / 2) (by norm_num) (by norm_num) _ hs
  have hb := sig_ge hs (someSvd_isSvd _) hb0
  have e3 : trialQ (Ex.mat .vm) (someSvd (Ex.part (1 / 2) (-1 / 2)).F) = 1 := by
    rw [trialQ, (C43_any ok (trial_stress ok (someSvd_isSvd _) hb) hs).2,
      ← (C43_any ok (trial_stress ok hs hb0) hs).2]
    exact e2.trans (by norm_num)
  obtain ⟨out, h, h1, h2, -⟩ := C34_vonMises (cabs := abs) (svd := someSvd) ok rfl (by norm_num [Ex.mat]) 1
    (Ex.part (1 / 2) (-1 / 2)) false (someSvd_isSvd _)
  have hy : (Ex.mat .vm).qMax < trialQ (Ex.mat .vm) (someSvd (Ex.part (1 / 2) (-1 / 2)).F) := by
    rw [e3]; norm_num [Ex.mat]
  have hb' : ∀ i, 1e-4 ≤ (someSvd out.q.F).sig i := by
    have hst := C42_hencky ok (someSvd_isSvd _) hb (by intro h0; cases h0) h
    obtain ⟨-, sig', hsv, hp, -⟩ := strain_split (q := Ex.part (1 / 2) (-1 / 2)) ok (by norm_num [Ex.mat]) one_ne_zero
      (someSvd_isSvd _) hb h
    refine sig_ge hsv (someSvd_isSvd _) fun i => ?_
    have hE := C66_vonMises (someSvd_isSvd _) hb h ok rfl (by norm_num [Ex.mat]) _ _ hsv hs
    rw [Ex.mat_lam, Ex.mat_mu] at hE
    simp only [henckyEnergy, Fin.sum_univ_two, Ex.svd, Matrix.cons_val_zero, Matrix.cons_val_one, Real.log_exp] at hE
    have hl : -1 ≤ Real.log (sig' i) := by
      fin_cases i
      · show -1 ≤ Real.log (sig' 0)
        nlinarith [sq_nonneg (Real.log (sig' 1)), sq_nonneg (Real.log (sig' 0) - 1)]
      · show -1 ≤ Real.log (sig' 1)
        nlinarith [sq_nonneg (Real.log (sig' 0)), sq_nonneg (Real.log (sig' 1) - 1)]
    have h3 := Real.exp_le_exp.mpr hl
    rw [Real.exp_log (hp i)] at h3
    refine le_trans ?_ h3
    have h4 : Real.exp (-1) = Real.exp (-1 / 2) * Real.exp (-1 / 2) := by rw [← Real.exp_add]; norm_num
    have h5 := Real.add_one_le_exp (-1 / 2 : ℝ)
    rw [h4]
    norm_num at h5 ⊢
    nlinarith
  obtain ⟨k1, out', k2, k3⟩ := C64_stale_false ok rfl (by norm_num [Ex.mat]) (by norm_num [Ex.mat]) one_pos someSvd_isSvd hb hy h hb'
  exact ⟨out, out', h, k1, k2, k3⟩

end
end Verif.Props
