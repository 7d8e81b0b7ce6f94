import Verif.Lemmas.Plastic
import Verif.Lemmas.PlasticEx

set_option linter.unusedSectionVars false
set_option linter.unusedSimpArgs false
set_option linter.unusedVariables false

/-!
# C34, C35, C36: admissibility of the rate-independent models

`savedP`, `savedQ` are the pressure and shear stress written to the output files. "Trial" refers to the
stress the particle would get without plasticity (`C42_elastic`).
-/

namespace Verif.Props
open Verif Matrix

variable {d : ℕ}

/-- Stress the particle would get in a purely elastic step. -/
noncomputable def elasticTau (m : Material) (s : Svd d) : Matrix (Fin d) (Fin d) ℝ :=
  henckyTau m.lam m.mu s.U fun i => Real.log (max (s.sig i) 1e-4)

/-- Trial pressure and shear stress. -/
noncomputable def trialP (m : Material) (s : Svd d) : ℝ := savedP (elasticTau m s)
noncomputable def trialQ (m : Material) (s : Svd d) : ℝ := savedQ m.qPrefac (elasticTau m s)

/-- Pressure and shear stress after the update. -/
noncomputable def newP (out : PState d) : ℝ := savedP out.q.tau
noncomputable def newQ (m : Material) (out : PState d) : ℝ := savedQ m.qPrefac out.q.tau

/-- The plastic update leaves the kinematic quantities alone. -/
def SameMotion (q q' : Particle d ℝ) : Prop :=
  q'.x = q.x ∧ q'.v = q.v ∧ q'.pic = q.pic ∧ q'.flip = q.flip ∧ q'.Bmat = q.Bmat

lemma elasticTau_eq {m : Material} {F} {s : Svd d} (hs : IsSvd F s) :
    elasticTau m s = henckyTau m.lam m.mu s.U s.hencky := by
  unfold elasticTau Svd.hencky
  congr 1
  funext i
  rw [abs_of_nonneg (hs.nonneg i)]

lemma trial_eq {m : Material} (ok : MatOk m d) {F} {s : Svd d} (hs : IsSvd F s) :
    trialP m s = -m.K d * (mkTrial s.hencky).trace ∧ trialQ m s = m.eMu * (mkTrial s.hencky).norm := by
  unfold trialP trialQ
  rw [elasticTau_eq hs]
  exact saved_trial ok hs.orthU _

lemma det_of_trace {F} {s : Svd d} (hs : IsSvd F s) (hb : ∀ i, 1e-4 ≤ s.sig i) {h' : Fin d → ℝ}
    (he : ∑ i, h' i = ∑ i, s.hencky i) : (s.expF h').det = F.det := by
  conv_rhs => rw [← expF_hencky hs hb]
  rw [det_expF, det_expF, he]

lemma shear_trace (hd : 0 < d) (h : Fin d → ℝ) (c : ℝ) :
    ∑ i, (h - c • (mkTrial h).dir) i = ∑ i, h i := by
  simp only [Pi.sub_apply, Pi.smul_apply, smul_eq_mul, Finset.sum_sub_distrib, ← Finset.mul_sum,
    sum_dir hd, mul_zero, sub_zero]

lemma shear_form (h : Fin d → ℝ) (c : ℝ) (i : Fin d) :
    (h - c • (mkTrial h).dir) i =
      ((mkTrial h).norm - c) * (mkTrial h).dir i + (mkTrial h).trace / d := by
  simp only [Pi.sub_apply, Pi.smul_apply, smul_eq_mul]
  have := hencky_eq h i
  linarith

/-- Invariants after removing the shear strain `c`, at most the total one. -/
lemma saved_shear {m : Material} (ok : MatOk m d) {U : Matrix (Fin d) (Fin d) ℝ} (hU : U * Uᵀ = 1)
    {t : Trial d} (h : Fin d → ℝ) (ht : t = mkTrial h) {c : ℝ} (hc : c ≤ t.norm) (hpos : 0 < t.norm) :
    savedP (henckyTau m.lam m.mu U (t.hencky - c • t.dir)) = -m.K d * t.trace ∧
    savedQ m.qPrefac (henckyTau m.lam m.mu U (t.hencky - c • t.dir)) = m.eMu * (t.norm - c) := by
  subst ht
  have := saved_ab ok hU h _ _ (shear_form h c)
  rw [saved_dir_pos hpos, abs_of_nonneg (by linarith)] at this
  refine ⟨?_, this.2⟩
  rw [mkTrial_hencky, this.1]
  have := ok.dne
  field_simp

lemma saved_trial' {m : Material} (ok : MatOk m d) {U : Matrix (Fin d) (Fin d) ℝ} (hU : U * Uᵀ = 1)
    {t : Trial d} (h : Fin d → ℝ) (ht : t = mkTrial h) :
    savedP (henckyTau m.lam m.mu U h) = -m.K d * t.trace ∧
    savedQ m.qPrefac (henckyTau m.lam m.mu U h) = m.eMu * t.norm := by
  subst ht; exact saved_trial ok hU h

/-- Invariants of an isotropic strain with pressure `pr`. -/
lemma saved_iso {m : Material} (ok : MatOk m d) {U : Matrix (Fin d) (Fin d) ℝ} (hU : U * Uᵀ = 1) (pr : ℝ) :
    savedP (henckyTau m.lam m.mu U fun _ => -pr / (m.K d * d)) = pr ∧
    savedQ m.qPrefac (henckyTau m.lam m.mu U fun _ => -pr / (m.K d * d)) = 0 := by
  have := saved_ab ok hU (0 : Fin d → ℝ) 0 (-pr / (m.K d * d)) (h' := fun _ => -pr / (m.K d * d)) (by intro i; ring)
  rw [abs_zero, zero_mul, mul_zero] at this
  refine ⟨?_, this.2⟩
  rw [this.1]
  have := ok.dne
  have := ok.hK.ne'
  field_simp

lemma ex_trial (pm) {a b : ℝ} (ha : -1 / 2 ≤ a) (hb : -1 / 2 ≤ b) (F) (hF : IsSvd F (Ex.svd a b F)) :
    trialP (Ex.mat pm) (Ex.svd a b F) = -(a + b) ∧ trialQ (Ex.mat pm) (Ex.svd a b F) = |a - b| := by
  obtain ⟨h1, h2⟩ := trial_eq (Ex.mat_ok pm) hF
  have := Ex.sq2_pos
  rw [h1, h2, Ex.hencky ha hb, Ex.trace, Ex.norm, Ex.mat_K, Ex.mat_eMu]
  exact ⟨by ring, by field_simp⟩

/-! ### C34 -/

/-- **C34** -/
theorem C34_vonMises {cabs} {svd : Matrix (Fin d) (Fin d) ℝ → Svd d} {m : Material} (ok : MatOk m d)
    (hm : m.plastic = .vm) (hq : 0 ≤ m.qMax) (dt : ℝ) (q : Particle d ℝ) (exit : Bool)
    (hs : IsSvd q.F (svd q.F)) :
    ∃ out, plasticity cabs svd m dt q exit = some out ∧
      newQ m out = min (trialQ m (svd q.F)) m.qMax ∧
      newP out = trialP m (svd q.F) ∧
      ((∀ i, 1e-4 ≤ (svd q.F).sig i) → out.q.F.det = q.F.det) ∧
      (trialQ m (svd q.F) ≤ m.qMax → out.q = { q with tau := elasticTau m (svd q.F) }) ∧
      out.q.epsPlDev = q.epsPlDev + (trialQ m (svd q.F) - newQ m out) / m.eMu ∧
      q.epsPlDev ≤ out.q.epsPlDev ∧ out.q.epsPlVol = q.epsPlVol ∧
      (m.qMax < trialQ m (svd q.F) → out.q.deltaGamma * dt = (trialQ m (svd q.F) - newQ m out) / m.fMu ∨ dt = 0) ∧
      SameMotion q out.q ∧ out.exit = exit := by
  refine ⟨_, plasticity_some.mpr ⟨plastVM m dt (svd q.F) (mkTrial (svd q.F).hencky)
    ⟨q, (svd q.F).hencky, 0, exit⟩, by simp only [plastModel, hm], rfl⟩, ?_⟩
  obtain ⟨hP, hQ⟩ := trial_eq ok hs
  have he := ok.eMu_pos
  have hU := hs.orthU
  simp only [newQ, newP, newTau_hencky ok.hel]
  set s := svd q.F
  set t := mkTrial s.hencky
  rw [hP, hQ]
  by_cases hdg : t.norm - m.qMax / m.eMu > 0
  · have hn : m.qMax < m.eMu * t.norm := by
      have : m.qMax / m.eMu < t.norm := by linarith
      rw [div_lt_iff₀ he] at this; linarith
    have hnp : 0 < t.norm := by
      by_contra hcon
      have : t.norm = 0 := le_antisymm (not_lt.mp hcon) (mkTrial_norm_nonneg _)
      rw [this, mul_zero] at hn; linarith
    obtain ⟨sp, sq⟩ := saved_shear ok hU (t := t) s.hencky rfl (c := t.norm - m.qMax / m.eMu)
      (by have : 0 ≤ m.qMax / m.eMu := by positivity
          linarith) hnp
    have sq' : m.eMu * (t.norm - (t.norm - m.qMax / m.eMu)) = m.qMax := by field_simp; ring
    simp only [plastVM, if_pos hdg]
    refine ⟨?_, sp, ?_, ?_, ?_, ?_, by trivial, ?_, ⟨rfl, rfl, rfl, rfl, rfl⟩, by trivial⟩
    · exact (sq.trans sq').trans (min_eq_right hn.le).symm
    · intro hb
      exact det_of_trace hs hb (shear_trace ok.hd _ _)
    · intro hle; linarith
    · rw [show savedQ _ _ = m.qMax from sq.trans sq']
      field_simp
    · linarith
    · intro _
      rw [show savedQ _ _ = m.qMax from sq.trans sq']
      by_cases hdt : dt = 0
      · exact Or.inr hdt
      · left
        have h1 := ok.fMu_eq
        have h2 := ok.dPre_pos.ne'
        rw [h1]
        field_simp
  · have hn : m.eMu * t.norm ≤ m.qMax := by
      have : t.norm ≤ m.qMax / m.eMu := by linarith [not_lt.mp hdg]
      rw [le_div_iff₀ he] at this; linarith
    obtain ⟨sp, sq⟩ := saved_trial' ok hU (t := t) s.hencky rfl
    simp only [plastVM, if_neg hdg]
    refine ⟨?_, sp, fun _ => by trivial, ?_, ?_, le_rfl, by trivial, fun h => absurd h (not_lt.mpr hn),
      ⟨rfl, rfl, rfl, rfl, rfl⟩, by trivial⟩
    · exact sq.trans (min_eq_left hn).symm
    · intro _; rw [elasticTau_eq hs]
    · rw [show savedQ _ _ = m.eMu * t.norm from sq, sub_self, zero_div, add_zero]

/-- The theorem applies to a state outside the yield surface: shear stress 1 is returned to 1/4. -/
example : ∃ out, plasticity abs (Ex.svd (1 / 2) (-1 / 2)) (Ex.mat .vm) 1 (Ex.part (1 / 2) (-1 / 2)) false
      = some out ∧ newQ (Ex.mat .vm) out = 1 / 4 ∧ newP out = 0 := by
  obtain ⟨out, h, hq, hp, -⟩ := C34_vonMises (cabs := abs) (Ex.mat_ok .vm) rfl (by norm_num [Ex.mat]) 1
    (Ex.part (1 / 2) (-1 / 2)) false (Ex.isSvd (1 / 2) (-1 / 2))
  obtain ⟨e1, e2⟩ := ex_trial .vm (a := 1 / 2) (b := -1 / 2) (by norm_num) (by norm_num) _ (Ex.isSvd _ _)
  refine ⟨out, h, ?_, ?_⟩
  · rw [hq, e2]; norm_num [Ex.mat]
  · rw [hp, e1]; norm_num

/-! ### C35 -/

/-- **C35** -/
theorem C35_druckerPrager {cabs} {svd : Matrix (Fin d) (Fin d) ℝ → Svd d} {m : Material} (ok : MatOk m d)
    (hm : m.plastic = .dp) (hM : 0 < m.M) (hc : 0 ≤ m.qCohesion) (dt : ℝ) (q : Particle d ℝ) (exit : Bool)
    (hs : IsSvd q.F (svd q.F)) :
    ∃ out, plasticity cabs svd m dt q exit = some out ∧
      newQ m out ≤ m.M * newP out + m.qCohesion ∧
      -m.qCohesion / m.M ≤ newP out ∧
      (m.M * trialP m (svd q.F) + m.qCohesion < 1e-10 →
        newP out = -m.qCohesion / m.M ∧ newQ m out = 0) ∧
      (1e-10 ≤ m.M * trialP m (svd q.F) + m.qCohesion →
        newP out = trialP m (svd q.F) ∧
        newQ m out = min (trialQ m (svd q.F)) (m.M * trialP m (svd q.F) + m.qCohesion) ∧
        ((∀ i, 1e-4 ≤ (svd q.F).sig i) → out.q.F.det = q.F.det)) ∧
      (1e-10 ≤ m.M * trialP m (svd q.F) + m.qCohesion →
        trialQ m (svd q.F) ≤ m.M * trialP m (svd q.F) + m.qCohesion →
        out.q = { q with tau := elasticTau m (svd q.F) }) ∧
      out.q.epsPlDev = q.epsPlDev + (trialQ m (svd q.F) - newQ m out) / m.eMu ∧
      q.epsPlDev ≤ out.q.epsPlDev ∧
      out.q.epsPlVol = q.epsPlVol + (newP out - trialP m (svd q.F)) / m.K d ∧
      SameMotion q out.q ∧ out.exit = exit := by
  refine ⟨_, plasticity_some.mpr ⟨plastDP m dt (svd q.F) (mkTrial (svd q.F).hencky)
    ⟨q, (svd q.F).hencky, 0, exit⟩, by simp only [plastModel, hm], rfl⟩, ?_⟩
  obtain ⟨hP, hQ⟩ := trial_eq ok hs
  have he := ok.eMu_pos
  have hU := hs.orthU
  have hdp := ok.dPre_pos
  simp only [newQ, newP, newTau_hencky ok.hel]
  set s := svd q.F
  set t := mkTrial s.hencky
  have htn : 0 ≤ t.norm := mkTrial_norm_nonneg _
  rw [hP, hQ]
  by_cases hy : m.M * (-m.K d * t.trace) + m.qCohesion < 1e-10
  · obtain ⟨sp, sq⟩ := saved_iso ok hU (-m.qCohesion / m.M)
    simp only [plastDP, if_pos hy]
    rw [show savedP _ = _ from sp, show savedQ _ _ = _ from sq]
    refine ⟨?_, le_rfl, fun _ => ⟨rfl, rfl⟩, fun h => absurd hy (not_lt.mpr h),
      fun h => absurd hy (not_lt.mpr h), ?_, ?_, rfl, ⟨rfl, rfl, rfl, rfl, rfl⟩, by trivial⟩
    · apply le_of_eq; field_simp; ring
    · field_simp; ring
    · have : 0 ≤ 1 / m.dPre * (m.dPre * t.norm) := by positivity
      linarith
  · have hy' : 1e-10 ≤ m.M * (-m.K d * t.trace) + m.qCohesion := not_lt.mp hy
    set Y := m.M * (-m.K d * t.trace) + m.qCohesion with hY
    have htip : -m.qCohesion / m.M ≤ -m.K d * t.trace := by
      rw [div_le_iff₀ hM]; norm_num at hy'; linarith
    have hY0 : 0 ≤ Y := le_trans (by norm_num) hy'
    by_cases hdg : m.dPre * (t.norm - Y / m.eMu) > 0
    · have h1 : 0 < t.norm - Y / m.eMu := (pos_iff_pos_of_mul_pos hdg).mp hdp
      have hn : Y < m.eMu * t.norm := by
        have : Y / m.eMu < t.norm := by linarith
        rw [div_lt_iff₀ he] at this; linarith
      have hYe : 0 ≤ Y / m.eMu := by positivity
      have hnp : 0 < t.norm := by linarith
      have hcc : 1 / m.dPre * (m.dPre * (t.norm - Y / m.eMu)) = t.norm - Y / m.eMu := by
        field_simp
      obtain ⟨sp, sq⟩ := saved_shear ok hU (t := t) s.hencky rfl (c := t.norm - Y / m.eMu) (by linarith) hnp
      have sq' : m.eMu * (t.norm - (t.norm - Y / m.eMu)) = Y := by field_simp; ring
      simp only [plastDP, ← hY, if_neg hy, if_pos hdg, hcc]
      rw [show savedP _ = _ from sp, show savedQ _ _ = Y from sq.trans sq']
      refine ⟨le_rfl, htip, fun h => absurd h hy, fun _ => ⟨rfl, (min_eq_right hn.le).symm, ?_⟩,
        fun _ h => absurd hn (not_lt.mpr h), ?_, by linarith, by simp, ⟨rfl, rfl, rfl, rfl, rfl⟩, by trivial⟩
      · intro hb
        exact det_of_trace hs hb (shear_trace ok.hd _ _)
      · field_simp
    · have h1 : t.norm - Y / m.eMu ≤ 0 := by
        by_contra hcon
        exact hdg (mul_pos hdp (not_le.mp hcon))
      have hn : m.eMu * t.norm ≤ Y := by
        have : t.norm ≤ Y / m.eMu := by linarith
        rw [le_div_iff₀ he] at this; linarith
      obtain ⟨sp, sq⟩ := saved_trial' ok hU (t := t) s.hencky rfl
      simp only [plastDP, ← hY, if_neg hy, if_neg hdg]
      rw [show savedP _ = _ from sp, show savedQ _ _ = _ from sq]
      refine ⟨hn, htip, fun h => absurd h hy, fun _ => ⟨rfl, (min_eq_left hn).symm, fun _ => by trivial⟩,
        fun _ _ => ?_, by simp, le_rfl, by simp, ⟨rfl, rfl, rfl, rfl, rfl⟩, by trivial⟩
      rw [elasticTau_eq hs]

/-- Shear stress 1 at pressure 0 is returned to the cohesion 1/8. -/
example : ∃ out, plasticity abs (Ex.svd (1 / 2) (-1 / 2)) (Ex.mat .dp) 1 (Ex.part (1 / 2) (-1 / 2)) false
      = some out ∧ newQ (Ex.mat .dp) out = 1 / 8 ∧ newP out = 0 := by
  obtain ⟨out, h, -, -, -, hs, -⟩ := C35_druckerPrager (cabs := abs) (Ex.mat_ok .dp) rfl
    (by norm_num [Ex.mat]) (by norm_num [Ex.mat]) 1
    (Ex.part (1 / 2) (-1 / 2)) false (Ex.isSvd (1 / 2) (-1 / 2))
  obtain ⟨e1, e2⟩ := ex_trial .dp (a := 1 / 2) (b := -1 / 2) (by norm_num) (by norm_num) _ (Ex.isSvd _ _)
  rw [e1, e2] at hs
  obtain ⟨hp, hq, -⟩ := hs (by norm_num [Ex.mat])
  exact ⟨out, h, by rw [hq]; norm_num [Ex.mat], by rw [hp]; norm_num⟩

/-! ### C36 -/

/-- Cohesion left after the plastic shear strain `eps`. -/
noncomputable def softCohesion (m : Material) (eps : ℝ) : ℝ := m.qCohesion * Real.exp (-m.xi * eps)

/-- Shift of the pressure axis by the volume correction. -/
noncomputable def pressureShift (m : Material) (d : ℕ) (q : Particle d ℝ) : ℝ :=
  if m.usePradhana then -m.K d * q.epsPlVolPradhana else 0

/-- **C36** The new stress satisfies the shifted yield condition for the cohesion `c` used by the update,
which lies between zero and the cohesion at the beginning; or it is at the tip for that cohesion. -/
theorem C36_softening {cabs} {svd : Matrix (Fin d) (Fin d) ℝ → Svd d} {m : Material} (ok : MatOk m d)
    (hm : m.plastic = .dpSoft) (hM : 0 < m.M) (hc : 0 ≤ m.qCohesion) (hxi : 0 ≤ m.xi) (dt : ℝ)
    (q : Particle d ℝ) (exit : Bool) (hs : IsSvd q.F (svd q.F)) :
    ∃ out, plasticity cabs svd m dt q exit = some out ∧
      (∃ e, q.epsPlDev ≤ e ∧ e ≤ out.q.epsPlDev ∧
        (-softCohesion m q.epsPlDev / m.M < trialP m (svd q.F) + pressureShift m d q →
          m.M * (trialP m (svd q.F) + pressureShift m d q) + softCohesion m q.epsPlDev
            < trialQ m (svd q.F) →
          m.eMu * (e - q.epsPlDev) = trialQ m (svd q.F) -
            (m.M * (trialP m (svd q.F) + pressureShift m d q) + softCohesion m q.epsPlDev)) ∧
        let c := softCohesion m e
        (newQ m out = min (trialQ m (svd q.F)) (m.M * (newP out + pressureShift m d q) + c) ∧
            newP out = trialP m (svd q.F) ∧ -c / m.M ≤ newP out + pressureShift m d q ∧
            (m.usePradhana = true → out.q.epsPlVolPradhana = 0) ∨
          newQ m out = 0 ∧ newP out = -c / m.M ∧
            trialP m (svd q.F) + pressureShift m d q ≤ -c / m.M ∧
            (m.usePradhana = true → out.q.epsPlVolPradhana =
              q.epsPlVolPradhana + (newP out - trialP m (svd q.F)) / m.K d))) ∧
      (m.usePradhana = false → out.q.epsPlVolPradhana = q.epsPlVolPradhana) ∧
      q.epsPlDev ≤ out.q.epsPlDev ∧
      0 ≤ softCohesion m out.q.epsPlDev ∧ softCohesion m out.q.epsPlDev ≤ softCohesion m q.epsPlDev ∧
      (-softCohesion m q.epsPlDev / m.M < trialP m (svd q.F) + pressureShift m d q →
        trialQ m (svd q.F) ≤
          m.M * (trialP m (svd q.F) + pressureShift m d q) + softCohesion m q.epsPlDev →
        out.q.F = q.F ∧ out.q.tau = elasticTau m (svd q.F) ∧ out.q.epsPlDev = q.epsPlDev ∧
          out.q.epsPlVol = q.epsPlVol ∧ out.q.deltaGamma = 0) ∧
      (trialP m (svd q.F) + pressureShift m d q ≤ -softCohesion m q.epsPlDev / m.M →
        newQ m out = 0 ∧ newP out = -softCohesion m q.epsPlDev / m.M) ∧
      out.q.epsPlDev = q.epsPlDev + (trialQ m (svd q.F) - newQ m out) / m.eMu ∧
      out.q.epsPlVol = q.epsPlVol + (newP out - trialP m (svd q.F)) / m.K d ∧
      SameMotion q out.q ∧ out.exit = exit := by
  refine ⟨_, plasticity_some.mpr ⟨plastDPSoft m dt (svd q.F) (mkTrial (svd q.F).hencky)
    ⟨q, (svd q.F).hencky, 0, exit⟩, by simp only [plastModel, hm], rfl⟩, ?_⟩
  obtain ⟨hP, hQ⟩ := trial_eq ok hs
  have he := ok.eMu_pos
  have hU := hs.orthU
  have hdp := ok.dPre_pos
  have hanti : ∀ {a b : ℝ}, a ≤ b → softCohesion m b ≤ softCohesion m a := fun {a b} hab =>
    mul_le_mul_of_nonneg_left (Real.exp_le_exp.mpr (by nlinarith)) hc
  have hnn : ∀ a, 0 ≤ softCohesion m a := fun a => mul_nonneg hc (Real.exp_pos _).le
  have htip : ∀ a, -m.qCohesion / m.M * Real.exp (-m.xi * a) = -softCohesion m a / m.M := by
    intro a; unfold softCohesion; ring
  simp only [newQ, newP, newTau_hencky ok.hel]
  set s := svd q.F
  set t := mkTrial s.hencky
  have htn : 0 ≤ t.norm := mkTrial_norm_nonneg _
  rw [hP, hQ]
  set S := pressureShift m d q with hS
  have hS' : (if m.usePradhana = true then -m.K d * q.epsPlVolPradhana else 0) = S := rfl
  set pT := -m.K d * t.trace with hpT
  have hcanc : ∀ x, 1 / m.dPre * (m.dPre * x) = x := fun x => by field_simp
  have hyield : ∀ a, m.M * (pT + S) + -(-softCohesion m a / m.M) * m.M =
      m.M * (pT + S) + softCohesion m a := by
    intro a; field_simp
  simp only [plastDPSoft, htip, hS', ← hpT, hcanc, hyield]
  have hsol : ∀ a, m.M * (-softCohesion m a / m.M) + softCohesion m a = 0 := by
    intro a; field_simp; ring
  by_cases h1 : pT + S ≤ -softCohesion m q.epsPlDev / m.M
  · obtain ⟨sp, sq⟩ := saved_iso ok hU (-softCohesion m q.epsPlDev / m.M)
    simp only [if_pos h1]
    rw [show savedP _ = _ from sp, show savedQ _ _ = _ from sq]
    refine ⟨⟨q.epsPlDev, le_rfl, by linarith, fun h => absurd h1 (not_le.mpr h),
        Or.inr ⟨rfl, rfl, h1, fun h => if_pos h⟩⟩, fun h => if_neg (by simp [h]), by linarith, hnn _, hanti (by linarith),
      fun h => absurd h1 (not_le.mpr h), fun _ => ⟨rfl, rfl⟩, ?_, rfl, ⟨rfl, rfl, rfl, rfl, rfl⟩, by trivial⟩
    field_simp; ring
  · simp only [if_neg h1]
    have h1' := not_le.mp h1
    have hYpos : 0 < m.M * (pT + S) + softCohesion m q.epsPlDev := by
      have := mul_lt_mul_of_pos_left h1' hM
      have := hsol q.epsPlDev
      linarith
    by_cases h2 : m.eMu * t.norm ≤ m.M * (pT + S) + softCohesion m q.epsPlDev
    · obtain ⟨sp, sq⟩ := saved_trial' ok hU (t := t) s.hencky rfl
      simp only [if_pos h2]
      rw [show savedP _ = _ from sp, show savedQ _ _ = _ from sq]
      refine ⟨⟨q.epsPlDev, le_rfl, le_rfl, fun _ h => absurd h2 (not_le.mpr h),
        Or.inl ⟨(min_eq_left h2).symm, rfl, h1'.le, fun h => if_pos h⟩⟩, fun h => if_neg (by simp [h]), le_rfl, hnn _, le_rfl,
        fun _ _ => ⟨by trivial, (elasticTau_eq hs).symm, by trivial, by trivial, by trivial⟩, fun h => absurd h h1,
        by simp, by simp [hpT, t], ⟨rfl, rfl, rfl, rfl, rfl⟩, by trivial⟩
    · simp only [if_neg h2]
      have h2' := not_le.mp h2
      have hYe : 0 < (m.M * (pT + S) + softCohesion m q.epsPlDev) / m.eMu := by positivity
      set Y := m.M * (pT + S) + softCohesion m q.epsPlDev with hY
      have hgt : Y / m.eMu < t.norm := by rw [div_lt_iff₀ he]; linarith
      set tmp := q.epsPlDev + (t.norm - Y / m.eMu) with htmp
      have htmp1 : q.epsPlDev ≤ tmp := by linarith
      have htmp2 : m.eMu * (tmp - q.epsPlDev) = m.eMu * t.norm - Y := by rw [htmp]; field_simp; ring
      by_cases h3 : pT + S < -softCohesion m tmp / m.M
      · obtain ⟨sp, sq⟩ := saved_iso ok hU (-softCohesion m tmp / m.M)
        simp only [if_pos h3]
        rw [show savedP _ = _ from sp, show savedQ _ _ = _ from sq]
        refine ⟨⟨tmp, htmp1, by linarith, fun _ _ => htmp2,
          Or.inr ⟨rfl, rfl, h3.le, fun h => if_pos h⟩⟩, fun h => if_neg (by simp [h]), by linarith, hnn _, hanti (by linarith),
          fun _ h => absurd h h2, fun h => absurd h h1, ?_, rfl, ⟨rfl, rfl, rfl, rfl, rfl⟩, by trivial⟩
        field_simp; ring
      · have h3' := not_lt.mp h3
        simp only [if_neg h3]
        set Y' := m.M * (pT + S) + softCohesion m tmp with hY'
        have hY'0 : 0 ≤ Y' := by
          have := mul_le_mul_of_nonneg_left h3' hM.le
          have := hsol tmp
          linarith
        have hle : Y' ≤ Y := by have := hanti htmp1; linarith
        have hY'e : 0 ≤ Y' / m.eMu := by positivity
        have hle' : Y' / m.eMu ≤ Y / m.eMu := by gcongr
        have hnp : 0 < t.norm := by linarith
        obtain ⟨sp, sq⟩ := saved_shear ok hU (t := t) s.hencky rfl (c := t.norm - Y' / m.eMu) (by linarith) hnp
        have sq' : m.eMu * (t.norm - (t.norm - Y' / m.eMu)) = Y' := by field_simp; ring
        rw [show savedP _ = pT from sp, show savedQ _ _ = Y' from sq.trans sq']
        refine ⟨⟨tmp, htmp1, by linarith, fun _ _ => htmp2,
          Or.inl ⟨(min_eq_right (hle.trans h2'.le)).symm, rfl, h3', fun h => if_pos h⟩⟩,
          fun h => if_neg (by simp [h]), by linarith, hnn _,
          hanti (by linarith), fun _ h => absurd h h2, fun h => absurd h h1, ?_, by simp,
          ⟨rfl, rfl, rfl, rfl, rfl⟩, by trivial⟩
        field_simp

/-- A state beyond the tip: pressure -1 is returned to the tip pressure -1/8. -/
example : ∃ out, plasticity abs (Ex.svd 1 0) (Ex.mat .dpSoft) 1 (Ex.part 1 0) false
      = some out ∧ newQ (Ex.mat .dpSoft) out = 0 ∧ newP out = -1 / 8 := by
  obtain ⟨out, h, -, -, -, -, -, -, ht, -⟩ := C36_softening (cabs := abs) (Ex.mat_ok .dpSoft) rfl
    (by norm_num [Ex.mat]) (by norm_num [Ex.mat]) (by norm_num [Ex.mat]) 1
    (Ex.part 1 0) false (Ex.isSvd 1 0)
  obtain ⟨e1, e2⟩ := ex_trial .dpSoft (a := 1) (b := 0) (by norm_num) (by norm_num) _ (Ex.isSvd _ _)
  rw [e1] at ht
  obtain ⟨hq, hp⟩ := ht (by norm_num [Ex.mat, softCohesion, pressureShift])
  exact ⟨out, h, hq, by rw [hp]; norm_num [Ex.mat, softCohesion]⟩

end Verif.Props
