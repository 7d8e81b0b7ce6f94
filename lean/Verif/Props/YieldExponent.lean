import Verif.Props.Yield

set_option linter.unusedSectionVars false
set_option linter.unusedSimpArgs false
set_option linter.unusedVariables false

/-!
# C71: yield conditions in the particle files of the viscous models, for every exponent and with softening
-/

namespace Verif.Props
open Verif Matrix
noncomputable section
variable {d : ℕ} {R : Setup (d + 2)} {i e : Bool} {fuel : ℕ} {s : LoopState (d + 2) (World (d + 2))}

/-- The shear stress `q` is the one at which material with the yield stress `y` flows at `rate`, up to `tol`: by the law of
Duvaut and Lions with its overstress, by the law of Perzyna with its factor. -/
def FlowsAt (m : Material) (tol y q rate : ℝ) : Prop :=
  if m.useDuvautLions then |q - (y + m.fMu * (m.viscTime * rate) ^ m.viscExponent)| < tol
  else |q / (1 + m.viscTime * rate) ^ m.viscExponent - y| < tol

lemma abs_abs_sub {a b : ℝ} (hb : 0 ≤ b) : |(|a| - b)| ≤ |a - b| := by
  have := abs_abs_sub_abs_le a b
  rwa [abs_of_nonneg hb] at this

lemma flowsAt_of_residual {m : Material} (hf : 0 < m.fMu) (hτ : 0 ≤ m.viscTime) {y qn rate : ℝ} (hr : 0 ≤ rate) (hy : 0 ≤ y)
    (h : |flowResidual m y qn rate| < 1e-2) : FlowsAt m 1e-2 y |qn| rate := by
  unfold FlowsAt
  unfold flowResidual at h
  have hτr : 0 ≤ m.viscTime * rate := by positivity
  split_ifs at h ⊢
  · have h1 : 0 ≤ m.fMu * (m.viscTime * rate) ^ m.viscExponent := by positivity
    refine (abs_abs_sub (by positivity)).trans_lt ?_
    rwa [← sub_sub]
  · set w := (1 + m.viscTime * rate) ^ m.viscExponent with hw
    have hwp : 0 < w := by positivity
    have e1 : (1 / (1 + m.viscTime * rate)) ^ m.viscExponent = 1 / w := by
      rw [Real.div_rpow zero_le_one (by positivity), Real.one_rpow]
    rw [e1, mul_one_div] at h
    have e2 : |qn| / w = |qn / w| := by rw [abs_div, abs_of_pos hwp]
    rw [e2]
    exact (abs_abs_sub hy).trans_lt h

lemma flowsAt_of_eq {m : Material} (hn : m.viscExponent = 1) (hτ : 0 ≤ m.viscTime) {y qn rate : ℝ} (hr : 0 ≤ rate)
    (h : FlowEq m y qn rate) : FlowsAt m 1e-2 y qn rate := by
  unfold FlowsAt
  unfold FlowEq at h
  have hτr : 0 ≤ m.viscTime * rate := by positivity
  rw [hn, Real.rpow_one, Real.rpow_one]
  split_ifs at h ⊢
  · rw [h, show y + m.fMu * m.viscTime * rate - (y + m.fMu * (m.viscTime * rate)) = 0 by ring]
    norm_num
  · rw [h, mul_div_assoc, div_self (by positivity), mul_one, sub_self]
    norm_num

/-- Viscous Drucker-Prager material with any exponent. -/
structure ViscDPAny (m : Material) (n : ℕ) : Prop where
  ok : MatOk m n
  model : m.plastic = .dpVisc
  expo : 0 ≤ m.viscExponent
  hM : 0 < m.M
  hc : 0 ≤ m.qCohesion
  hτ : 0 ≤ m.viscTime

/-- States that do not flow viscously are treated as with exponent one. -/
lemma dpVisc_exponent {cabs} {n : ℕ} {svd : Matrix (Fin n) (Fin n) ℝ → Svd n} {m : Material} (ok : MatOk m n)
    (hm : m.plastic = .dpVisc) {dt : ℝ} (q : Particle n ℝ) (exit : Bool) (hs : IsSvd q.F (svd q.F))
    (h : ¬ (-m.qCohesion / m.M < trialP m (svd q.F) + pressureShift m n q ∧
      m.M * (trialP m (svd q.F) + pressureShift m n q) + m.qCohesion < trialQ m (svd q.F))) :
    plasticity cabs svd { m with viscExponent := 1 } dt q exit = plasticity cabs svd m dt q exit := by
  obtain ⟨hP, hQ⟩ := trial_eq ok hs
  rw [hP, hQ] at h
  have h' : ¬ (-m.K n * (mkTrial (svd q.F).hencky).trace +
      (if m.usePradhana = true then -m.K n * q.epsPlVolPradhana else 0) > -m.qCohesion / m.M ∧
      m.eMu * (mkTrial (svd q.F).hencky).norm > m.M * (-m.K n * (mkTrial (svd q.F).hencky).trace +
        (if m.usePradhana = true then -m.K n * q.epsPlVolPradhana else 0)) + m.qCohesion) := h
  have e : plastModel cabs { m with viscExponent := 1 } dt (svd q.F) (mkTrial (svd q.F).hencky)
      ⟨q, (svd q.F).hencky, 0, exit⟩ = plastModel cabs m dt (svd q.F) (mkTrial (svd q.F).hencky)
      ⟨q, (svd q.F).hencky, 0, exit⟩ := by
    simp only [plastModel, hm, plastDPVisc]
    rw [if_neg h']
    exact if_neg h'
  simp only [plasticity, e]
  rfl

/-- **C71** Viscous Drucker-Prager material (any exponent) in files: `p` is the particle in the file, `p0` the same particle at
the beginning of the last step before it. No tension beyond the tip; the shear stress is on or below the yield line, or it is,
up to 0.01, the one at which material with the (shifted) yield stress flows at the shear rate in the file; or the trial state was
exactly at the shifted tip. -/
theorem C71_viscousDruckerPrager_exponent_partial (v : ViscDPAny R.m (d + 2)) (hsvd : ∀ F, IsSvd F (R.svd F))
    (hmin : 0 < R.C.minDt) (hini : ∀ p ∈ s.w.ps, 0 ≤ p.epsPlVolPradhana) {n : ℕ} {t : ℝ} {w : World (d + 2)}
    (hev : .particles n t w ∈ filesOf (runProgram R i e fuel s)) (hnew : .particles n t w ∉ s.out) :
    (n = 0 ∧ t = 0 ∧ w = (begin R s).w) ∨
      ∃ s1 dt g, StepOf R s s1 dt g w ∧ List.Forall₂ (fun p0 p =>
        -R.m.qCohesion / R.m.M ≤ savedP p.tau ∧ p.tauᵀ = p.tau ∧ pressureShift R.m (d + 2) p0 ≤ 0 ∧
        (savedQ R.m.qPrefac p.tau ≤ R.m.M * savedP p.tau + R.m.qCohesion ∨
          0 ≤ p.deltaGamma ∧ FlowsAt R.m 1e-2 (R.m.M * (savedP p.tau + pressureShift R.m (d + 2) p0) + R.m.qCohesion)
            (savedQ R.m.qPrefac p.tau) p.deltaGamma ∨
          savedP p.tau + pressureShift R.m (d + 2) p0 = -R.m.qCohesion / R.m.M)) s1.w.ps w.ps := by
  obtain ⟨ok, hm, hn, hM, hc, hτ⟩ := v
  refine saved_history (P := fun p => 0 ≤ p.epsPlVolPradhana) hmin
    (begin_keeps (fun p x h => h) hini) (fun dt p p' hdt hP h => ?_) hev hnew
  obtain ⟨q, out, x, vv, ⟨_, _, _, _, _, _, hq⟩, ho, hx, rfl⟩ := h
  have hq0 : 0 ≤ q.epsPlVolPradhana := by rw [hq]; exact hP
  have hS : pressureShift R.m (d + 2) q = pressureShift R.m (d + 2) p := by rw [hq]; rfl
  have hle := shift_nonpos ok.hK hP
  have hMt : R.m.M * (-R.m.qCohesion / R.m.M) = -R.m.qCohesion := by field_simp
  obtain ⟨e1, e2⟩ := trial_eq ok (hsvd q.F)
  by_cases hflow : (-R.m.qCohesion / R.m.M < trialP R.m (R.svd q.F) + pressureShift R.m (d + 2) q ∧
      R.m.M * (trialP R.m (R.svd q.F) + pressureShift R.m (d + 2) q) + R.m.qCohesion < trialQ R.m (R.svd q.F)) ∧
      R.m.viscExponent ≠ 1
  · obtain ⟨⟨htip, hplast⟩, hne⟩ := hflow
    obtain ⟨-, hg, b1, -, qn, -, b2, b3, -⟩ := C51_druckerPrager ok hm hne hn hM hτ hdt q false (hsvd q.F) rfl rfl rfl rfl htip hplast ho hx
    have hY : 0 ≤ R.m.M * (trialP R.m (R.svd q.F) + pressureShift R.m (d + 2) q) + R.m.qCohesion := by
      have := mul_lt_mul_of_pos_left htip hM
      linarith
    have hpr : out.q.epsPlVolPradhana = if R.m.usePradhana then 0 else q.epsPlVolPradhana := by
      obtain ⟨st, hst, rfl⟩ := plasticity_some.mp ho
      have hS'' : (if R.m.usePradhana = true then -R.m.K (d + 2) * q.epsPlVolPradhana else 0) = pressureShift R.m (d + 2) q := rfl
      simp only [plastModel, hm, plastDPVisc, ite_muI, hS'', ← e1, ← e2, if_neg (not_lt.mpr htip.le)] at hst
      rw [if_pos ⟨htip, hplast⟩] at hst
      simp only [Option.bind_eq_bind, Option.bind_eq_some_iff, Option.some.injEq] at hst
      obtain ⟨r, hr, rfl⟩ := hst
      rfl
    refine ⟨?_, ?_⟩
    · show 0 ≤ out.q.epsPlVolPradhana
      rw [hpr]; split_ifs
      · exact le_rfl
      · exact hq0
    · refine ⟨?_, C44_symmetric ho, hle, .inr (.inl ⟨hg, ?_⟩)⟩
      · show _ ≤ newP out
        rw [b1]; linarith
      · show FlowsAt R.m 1e-2 (R.m.M * (newP out + _) + _) (newQ R.m out) _
        rw [b1, b2, ← hS]
        exact flowsAt_of_residual ok.fMu_pos hτ hg hY b3
  · set m' : Material := { R.m with viscExponent := 1 } with hm'
    have ok' : MatOk m' (d + 2) := ⟨ok.hd, ok.hK, ok.hmu, ok.hq, ok.hel⟩
    have hsame : plasticity R.cabs R.svd m' dt q false = plasticity R.cabs R.svd R.m dt q false := by
      by_cases h1 : R.m.viscExponent = 1
      · have : m' = R.m := by rw [hm', ← h1]
        rw [this]
      · exact dpVisc_exponent ok hm q false (hsvd q.F) fun h => hflow ⟨h, h1⟩
    obtain ⟨out', h', a1, a2, a3, a4, a5, -, -, a6, -⟩ := C38_viscousDruckerPrager (cabs := R.cabs) (m := m') ok' hm rfl hM hc hτ hdt q false
      (hsvd q.F) (P := _) (Q := _) (S := _) (Y := _) rfl rfl rfl rfl
    rw [hsame, ho] at h'
    obtain rfl := Option.some.inj h'
    have hS' : pressureShift m' (d + 2) q = pressureShift R.m (d + 2) p := hS
    rw [hS'] at a1 a2 a3 a4 a5 a6
    change (_ → savedP out.q.tau = _ ∧ savedQ R.m.qPrefac out.q.tau = 0) at a1
    have eP : trialP m' (R.svd q.F) = trialP R.m (R.svd q.F) := rfl
    have eQ : trialQ m' (R.svd q.F) = trialQ R.m (R.svd q.F) := rfl
    rw [eP] at a1 a2 a3 a4 a5 a6
    rw [eQ] at a3 a4 a5
    rw [hS] at hflow
    simp only [newP, newQ] at a1 a2 a3 a4 a5 a6
    change (_ → savedP out.q.tau = _ ∧ savedQ R.m.qPrefac out.q.tau = 0) at a1
    set P := trialP R.m (R.svd q.F)
    set S := pressureShift R.m (d + 2) p
    set tip := -R.m.qCohesion / R.m.M with htip
    refine ⟨?_, ?_⟩
    · show 0 ≤ out.q.epsPlVolPradhana
      rw [a6]
      split_ifs with h1 h2
      · rw [(a1 h2).1]
        exact pradhana_tip ok.hK hq0 (by rw [hS]; exact h2.le)
      · exact le_rfl
      · exact hq0
    · show tip ≤ savedP out.q.tau ∧ out.q.tauᵀ = out.q.tau ∧ S ≤ 0 ∧ (_ ≤ _ ∨ _ ∨ _)
      rcases lt_trichotomy (P + S) tip with h1 | h1 | h1
      · obtain ⟨b1, b2⟩ := a1 h1
        refine ⟨b1.ge, C44_symmetric ho, hle, .inl ?_⟩
        show savedQ R.m.qPrefac out.q.tau ≤ R.m.M * savedP out.q.tau + R.m.qCohesion
        rw [b1, b2]
        have : R.m.M * (-m'.qCohesion / m'.M) = -R.m.qCohesion := hMt
        linarith
      · have b1 := a2 h1.ge
        refine ⟨by rw [b1]; linarith, C44_symmetric ho, hle, .inr (.inr ?_)⟩
        show savedP out.q.tau + S = tip
        rw [b1, h1]
      · have b1 := a2 h1.le
        refine ⟨by rw [b1]; linarith, C44_symmetric ho, hle, ?_⟩
        show savedQ R.m.qPrefac out.q.tau ≤ R.m.M * savedP out.q.tau + R.m.qCohesion ∨ 0 ≤ out.q.deltaGamma ∧
          FlowsAt R.m 1e-2 (R.m.M * (savedP out.q.tau + S) + R.m.qCohesion) (savedQ R.m.qPrefac out.q.tau) out.q.deltaGamma ∨
          savedP out.q.tau + S = tip
        rcases le_or_gt (trialQ R.m (R.svd q.F)) (R.m.M * (P + S) + R.m.qCohesion) with h2 | h2
        · left
          obtain ⟨-, b2, -⟩ := a3 h1 h2
          have b3 : savedQ R.m.qPrefac out.q.tau = trialQ R.m (R.svd q.F) := by
            rw [b2]
            change savedQ R.m.qPrefac (elasticTau R.m (R.svd q.F)) = _
            rw [elasticTau_eq (hsvd q.F), e2]
            exact (saved_trial' ok (hsvd q.F).orthU (t := mkTrial (R.svd q.F).hencky) _ rfl).2
          rw [b1, b3]
          have := mul_le_mul_of_nonneg_left hle hM.le
          linarith
        · right; left
          have hn1 : R.m.viscExponent = 1 := by
            by_contra hne
            exact hflow ⟨⟨h1, h2⟩, hne⟩
          obtain ⟨-, b2, b3, b4, -⟩ := a4 h1 h2
          have h3 : 0 < R.m.fMu * (out.q.deltaGamma * dt) := by
            have b3' : R.m.fMu * (out.q.deltaGamma * dt) = trialQ R.m (R.svd q.F) - savedQ R.m.qPrefac out.q.tau := b3
            have b2' : savedQ R.m.qPrefac out.q.tau < trialQ R.m (R.svd q.F) := b2
            rw [b3']; linarith
          have h4 := (mul_pos_iff_of_pos_right hdt).mp ((mul_pos_iff_of_pos_left ok.fMu_pos).mp h3)
          refine ⟨h4.le, ?_⟩
          rw [b1]
          exact flowsAt_of_eq hn1 hτ h4.le b4

/-- **C71** Viscous von Mises material (any exponent, with or without softening) in files: the shear stress is at most the yield
stress belonging to the plastic shear strain in the file, or it is, up to 0.01, the one at which material with that yield stress
flows at the shear rate in the file, unless the pressure is below the tension limit. -/
theorem C71_viscousVonMises_exponent (ok : MatOk R.m (d + 2)) (hm : R.m.plastic = .vmVisc) (hn : 0 ≤ R.m.viscExponent)
    (hq : 0 ≤ R.m.qMin) (hqq : R.m.qMin ≤ R.m.qMax) (hτ : 0 ≤ R.m.viscTime) (hsvd : ∀ F, IsSvd F (R.svd F))
    (hmin : 0 < R.C.minDt) {n : ℕ} {t : ℝ} {w : World (d + 2)}
    (hev : .particles n t w ∈ filesOf (runProgram R i e fuel s)) (hnew : .particles n t w ∉ s.out) :
    (n = 0 ∧ t = 0 ∧ w = (begin R s).w) ∨
      ∃ s1 dt g, StepOf R s s1 dt g w ∧ List.Forall₂ (fun p0 p => p.tauᵀ = p.tau ∧
        (R.m.pMin * Real.exp (-R.m.xi * p0.epsPlVol) ≤ savedP p.tau →
        savedQ R.m.qPrefac p.tau ≤ vmYield R.m p.epsPlDev ∨
        0 ≤ p.deltaGamma ∧ FlowsAt R.m 1e-2 (vmYield R.m p.epsPlDev) (savedQ R.m.qPrefac p.tau) p.deltaGamma)) s1.w.ps w.ps := by
  refine saved_history (P := fun _ => True) hmin (by simp) (fun dt p p' hdt hP h => ⟨trivial, ?_⟩) hev hnew
  obtain ⟨q, out, x, vv, ⟨_, _, _, _, _, _, hq'⟩, ho, hx, rfl⟩ := h
  have hqv : q.epsPlVol = p.epsPlVol := by rw [hq']
  refine ⟨C44_symmetric ho, fun hp => ?_⟩
  obtain ⟨e1, e2⟩ := trial_eq ok (hsvd q.F)
  rw [← hqv] at hp
  have hp : R.m.pMin * Real.exp (-R.m.xi * q.epsPlVol) ≤ savedP out.q.tau := hp
  have hcap : R.m.pMin * Real.exp (-R.m.xi * q.epsPlVol) ≤ trialP R.m (R.svd q.F) := by
    by_contra hlt
    push Not at hlt
    have : savedP out.q.tau = trialP R.m (R.svd q.F) := by
      obtain ⟨st, h1, h2⟩ := plasticity_some.mp ho
      rw [e1] at hlt
      simp only [plastModel, hm, plastVMVisc] at h1
      rw [if_pos hlt] at h1
      rw [h2, ← Option.some.inj h1, e1]
      simp only [newTau_hencky ok.hel]
      exact (saved_trial' ok (hsvd q.F).orthU (t := mkTrial (R.svd q.F).hencky) _ rfl).1
    linarith
  have hy0 : ∀ eps, 0 ≤ vmYield R.m eps := fun eps => by
    unfold vmYield
    have := mul_nonneg (sub_nonneg.mpr hqq) (Real.exp_pos (-R.m.xi * eps)).le
    linarith
  show newQ R.m out ≤ vmYield R.m out.q.epsPlDev ∨ 0 ≤ out.q.deltaGamma ∧
    FlowsAt R.m 1e-2 (vmYield R.m out.q.epsPlDev) (newQ R.m out) out.q.deltaGamma
  rcases le_or_gt (trialQ R.m (R.svd q.F)) (vmYield R.m q.epsPlDev) with h1 | h1
  · left
    obtain ⟨st, h2, h3⟩ := plasticity_some.mp ho
    rw [e1] at hcap
    rw [e2] at h1
    simp only [plastModel, hm, plastVMVisc] at h2
    rw [if_neg (not_lt.mpr hcap), if_neg (show ¬ (R.m.eMu * (mkTrial (R.svd q.F).hencky).norm >
      R.m.qMin + (R.m.qMax - R.m.qMin) * Real.exp (-R.m.xi * q.epsPlDev)) from not_lt.mpr h1)] at h2
    have h2 := Option.some.inj h2
    have : newQ R.m out = R.m.eMu * (mkTrial (R.svd q.F).hencky).norm := by
      rw [h3, ← h2]
      simp only [newQ, newTau_hencky ok.hel]
      exact (saved_trial' ok (hsvd q.F).orthU (t := mkTrial (R.svd q.F).hencky) _ rfl).2
    rw [this]
    have hd : out.q.epsPlDev = q.epsPlDev := by rw [h3, ← h2]
    rw [hd]; exact h1
  · right
    by_cases hcl : R.m.viscExponent = 1 ∧ R.m.xi = 0
    · obtain ⟨hn1, hxi⟩ := hcl
      have hv : ∀ eps, vmYield R.m eps = R.m.qMax := fun eps => by simp [vmYield, hxi]
      rw [hv] at h1 ⊢
      rw [hxi, neg_zero, zero_mul, Real.exp_zero, mul_one] at hcap
      obtain ⟨out', h', a1, a2, a3, -⟩ := C37_viscousVonMises (cabs := R.cabs) ok hm hn1 hxi (hq.trans hqq) hτ hdt q false (hsvd q.F) hcap
      rw [ho] at h'
      obtain rfl := Option.some.inj h'
      obtain ⟨-, b2, b3, b4, -⟩ := a3 h1
      have h3 : 0 < R.m.fMu * (out.q.deltaGamma * dt) := by rw [b3]; linarith
      have h4 := (mul_pos_iff_of_pos_right hdt).mp ((mul_pos_iff_of_pos_left ok.fMu_pos).mp h3)
      exact ⟨h4.le, flowsAt_of_eq hn1 hτ h4.le b4⟩
    · obtain ⟨-, hg, -, -, qn, -, b2, b3, -⟩ := C51_vonMises ok hm hcl hn hτ hdt q false (hsvd q.F) hcap (hy0 _) h1 ho hx
      refine ⟨hg, ?_⟩
      rw [b2]
      exact flowsAt_of_residual ok.fMu_pos hτ hg (hy0 _) b3

end
end Verif.Props
