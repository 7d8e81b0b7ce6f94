import Verif.Props.Viscous

set_option linter.unusedSectionVars false
set_option linter.unusedSimpArgs false
set_option linter.unusedVariables false

/-!
# C39: the mu(I) Drucker-Prager model
-/

namespace Verif.Props
open Verif Matrix

variable {d : ℕ}

/-- A quadratic with positive leading and negative constant coefficient has exactly one positive root. -/
lemma posRoot_spec {a b c : ℝ} (ha : 0 < a) (hc : c < 0) :
    0 < posRoot a b c ∧ a * (posRoot a b c * posRoot a b c) + b * posRoot a b c + c = 0 ∧
      ∀ r, 0 < r → a * (r * r) + b * r + c = 0 → r = posRoot a b c := by
  have hD : 0 < b * b - 4 * a * c := by nlinarith [mul_self_nonneg b, mul_pos ha (neg_pos.mpr hc)]
  have hs := Real.mul_self_sqrt hD.le
  have hs0 := Real.sqrt_pos.mpr hD
  have hgt : |b| < Real.sqrt (b * b - 4 * a * c) := by
    rw [← Real.sqrt_mul_self_eq_abs]
    apply Real.sqrt_lt_sqrt (mul_self_nonneg b)
    nlinarith [mul_pos ha (neg_pos.mpr hc)]
  have hroot : 0 < posRoot a b c := by
    unfold posRoot
    have := (abs_lt.mp hgt)
    apply div_pos <;> linarith [le_abs_self b]
  have heq : a * (posRoot a b c * posRoot a b c) + b * posRoot a b c + c = 0 := by
    have h2 : posRoot a b c * (2 * a) = -b + Real.sqrt (b * b - 4 * a * c) := by
      unfold posRoot; field_simp
    have h3 : (posRoot a b c * (2 * a) + b) * (posRoot a b c * (2 * a) + b) = b * b - 4 * a * c := by
      rw [h2]; ring_nf; ring_nf at hs; linarith
    have h4 : 4 * a * (a * (posRoot a b c * posRoot a b c) + b * posRoot a b c + c) = 0 := by linarith
    have h5 : 4 * a ≠ 0 := by positivity
    exact (mul_eq_zero.mp h4).resolve_left h5
  refine ⟨hroot, heq, fun r hr h => ?_⟩
  set x := posRoot a b c
  have h1 : (r - x) * (a * (r + x) + b) = 0 := by linarith
  have h2 : x * (a * (r + x) + b) = a * r * x - c := by nlinarith
  have h3 : 0 < a * r * x - c := by have := mul_pos (mul_pos ha hr) hroot; linarith
  rcases mul_eq_zero.mp h1 with h | h
  · linarith
  · rw [h, mul_zero] at h2; linarith

/-- The inertial number of grains of diameter `a` and density `rho` sheared with `rate` at the pressure `ps`. -/
noncomputable def inertialNumber (a rho ps rate : ℝ) : ℝ := rate * a / Real.sqrt (ps / rho)

/-- The mu(I) friction law: friction coefficient for the shear rate `rate` at the effective pressure `ps`. -/
noncomputable def muOfRate (m : Material) (ps rate : ℝ) : ℝ :=
  m.mu1 + (m.mu2 - m.mu1) / (m.iRef / inertialNumber m.grainDiameter m.rhoS ps rate + 1)

lemma muOfRate_eq {m : Material} (hQ : 0 < m.facQ) {ps rate : ℝ} (hp : 0 ≤ ps) :
    muOfRate m ps rate = m.mu1 + (m.mu2 - m.mu1) / (m.facQ * Real.sqrt ps / rate + 1) := by
  have hr : Real.sqrt m.rhoS ≠ 0 := by
    intro h
    simp only [Material.facQ, h, mul_zero, div_zero, lt_irrefl] at hQ
  have ha : m.grainDiameter ≠ 0 := by
    intro h
    simp only [Material.facQ, h, zero_mul, div_zero, lt_irrefl] at hQ
  unfold muOfRate
  congr 3
  rw [inertialNumber, Real.sqrt_div hp, div_div_eq_mul_div, Material.facQ]
  by_cases h0 : rate = 0
  · rw [h0]; simp
  · field_simp

lemma muOfRate_bounds {m : Material} (h : m.mu1 < m.mu2) (hQ : 0 < m.facQ) {ps rate : ℝ} (hp : 0 < ps)
    (hr : 0 < rate) : m.mu1 < muOfRate m ps rate ∧ muOfRate m ps rate < m.mu2 := by
  rw [muOfRate_eq hQ hp.le]
  have hs := Real.sqrt_pos.mpr hp
  have hd : 0 < m.mu2 - m.mu1 := by linarith
  have h1 : 1 < m.facQ * Real.sqrt ps / rate + 1 := by
    have : 0 < m.facQ * Real.sqrt ps / rate := by positivity
    linarith
  have h2 : 0 < (m.mu2 - m.mu1) / (m.facQ * Real.sqrt ps / rate + 1) := by positivity
  have h3 : (m.mu2 - m.mu1) / (m.facQ * Real.sqrt ps / rate + 1) < m.mu2 - m.mu1 := div_lt_self hd h1
  exact ⟨by linarith, by linarith⟩

/-- The flow equation of the code is its quadratic. -/
lemma mui_quadratic {m : Material} (hQ : 0 < m.facQ) {ps dt P X r : ℝ} (hp : 0 < ps) (hr : 0 < r) :
    X - m.fMu * dt * r = P * (muOfRate m ps r - m.mu1) ↔
      m.fMu * dt * (r * r) + (P * (m.mu2 - m.mu1) + m.fMu * dt * m.facQ * Real.sqrt ps - X) * r +
        -X * m.facQ * Real.sqrt ps = 0 := by
  have hs := Real.sqrt_pos.mpr hp
  have hB : 0 < m.facQ * Real.sqrt ps + r := by positivity
  have e : muOfRate m ps r - m.mu1 = (m.mu2 - m.mu1) * r / (m.facQ * Real.sqrt ps + r) := by
    rw [muOfRate_eq hQ hp.le]; field_simp; ring
  rw [e, ← mul_div_assoc, eq_div_iff hB.ne']
  constructor <;> intro h <;> linarith

/-- **C39** A plastic state right of the tip. `P`, `Q` trial pressure and shear stress, `S` the volume
correction, `Y` the static yield stress, `ps` the pressure above the tip. -/
theorem C39_muI {cabs} {svd : Matrix (Fin d) (Fin d) ℝ → Svd d} {m : Material} (ok : MatOk m d)
    (hm : m.plastic = .dpMui) (h1 : 0 < m.mu1) (h12 : m.mu1 < m.mu2) (hfq : 0 < m.facQ) (hc : 0 ≤ m.qCohesion)
    (htol : 0 ≤ m.stressTol) {dt : ℝ} (hdt : 0 < dt) (q : Particle d ℝ) (exit : Bool)
    (hs : IsSvd q.F (svd q.F)) {P Q S Y ps : ℝ} (hPd : P = trialP m (svd q.F)) (hQd : Q = trialQ m (svd q.F))
    (hSd : S = pressureShift m d q) (hYd : Y = m.mu1 * (P + S) + m.qCohesion)
    (hps : ps = P + S - -m.qCohesion / m.mu1 + m.stressTol)
    (htip : -m.qCohesion / m.mu1 < P + S) (hpl : Y + m.stressTol < Q) :
    ∃ out, plasticity cabs svd m dt q exit = some out ∧
      newP out = P ∧
      0 < out.q.deltaGamma ∧ out.q.muI = muOfRate m ps out.q.deltaGamma ∧
      m.mu1 < out.q.muI ∧ out.q.muI < m.mu2 ∧
      0 < out.q.viscosity ∧ out.q.viscosity * out.q.deltaGamma = (out.q.muI - m.mu1) * ps ∧
      (∃ qn, qn = Q - m.fMu * dt * out.q.deltaGamma ∧ newQ m out = |qn| ∧
        qn = Y + P * (out.q.muI - m.mu1) ∧
        (0 ≤ P → Y ≤ qn ∧ newQ m out = qn) ∧ (P < 0 → qn < Y)) ∧
      (∀ r, 0 < r → Q - m.fMu * dt * r = Y + P * (muOfRate m ps r - m.mu1) → r = out.q.deltaGamma) ∧
      (m.qCohesion = 0 → m.usePradhana = false → newQ m out = out.q.muI * newP out) ∧
      out.q.epsPlDev = q.epsPlDev + m.fMu * (out.q.deltaGamma * dt) / m.eMu ∧
      out.q.epsPlVol = q.epsPlVol ∧ SameMotion q out.q ∧ out.exit = exit := by
  obtain ⟨hP, hQ⟩ := trial_eq ok hs
  have he := ok.eMu_pos
  have hf := ok.fMu_pos
  have hU := hs.orthU
  rw [← hPd] at hP
  rw [← hQd] at hQ
  have hS' : (if m.usePradhana = true then -m.K d * q.epsPlVolPradhana else 0) = S := hSd.symm
  have hY0 : 0 < Y := by
    have h2 := mul_lt_mul_of_pos_left htip h1
    have h3 : m.mu1 * (-m.qCohesion / m.mu1) = -m.qCohesion := by field_simp
    rw [hYd]; linarith
  have hps0 : 0 < ps := by rw [hps]; linarith
  have hsp := Real.sqrt_pos.mpr hps0
  have hfd : 0 < m.fMu * dt := by positivity
  have hX : 0 < Q - Y := by linarith
  have hcneg : -(Q - Y) * m.facQ * Real.sqrt ps < 0 := by
    have : 0 < (Q - Y) * m.facQ * Real.sqrt ps := by positivity
    linarith
  obtain ⟨r0, req, runi⟩ := posRoot_spec (b := P * (m.mu2 - m.mu1) + m.fMu * dt * m.facQ * Real.sqrt ps - (Q - Y))
    hfd hcneg
  have hst : plastModel cabs m dt (svd q.F) (mkTrial (svd q.F).hencky) ⟨q, (svd q.F).hencky, 0, exit⟩ =
      some (plastDPMui m dt (svd q.F) (mkTrial (svd q.F).hencky) ⟨q, (svd q.F).hencky, 0, exit⟩) := by
    simp only [plastModel, hm]
  unfold plastDPMui at hst
  simp only [hS', ← hP, ← hQ, ← hYd, ← hps, if_neg (not_lt.mpr htip.le)] at hst
  rw [if_pos ⟨htip, hpl⟩] at hst
  set rate := posRoot (m.fMu * dt) (P * (m.mu2 - m.mu1) + m.fMu * dt * m.facQ * Real.sqrt ps - (Q - Y))
    (-(Q - Y) * m.facQ * Real.sqrt ps) with hrate
  refine ⟨_, plasticity_some.mpr ⟨_, hst, rfl⟩, ?_⟩
  have hnp : 0 < (mkTrial (svd q.F).hencky).norm := norm_pos_of ok hY0.le (by rw [← hQ]; linarith)
  obtain ⟨sp, sq⟩ := saved_visc_abs ok hU (t := mkTrial (svd q.F).hencky) (svd q.F).hencky rfl
    (g := rate * dt) hnp
  obtain ⟨b1, b2⟩ := muOfRate_bounds h12 hfq hps0 r0
  have hflow := (mui_quadratic (P := P) (X := Q - Y) (dt := dt) hfq hps0 r0).mpr req
  have hcan : rate * dt / dt = rate := by field_simp
  have hassoc : m.fMu * (rate * dt) = m.fMu * dt * rate := by ring
  simp only [newP, newQ, newTau_hencky ok.hel]
  rw [show savedP _ = P from sp.trans hP.symm, show savedQ _ _ = _ from sq, ← hQ, hassoc]
  simp only [hcan, ← muOfRate_eq (rate := rate) hfq hps0.le]
  change _ ∧ _ ∧ _ ∧ m.mu1 < muOfRate m ps rate ∧ muOfRate m ps rate < m.mu2 ∧
    0 < (muOfRate m ps rate - m.mu1) * ps / rate ∧
    (muOfRate m ps rate - m.mu1) * ps / rate * rate = (muOfRate m ps rate - m.mu1) * ps ∧ _
  have hqn : Q - m.fMu * dt * rate = Y + P * (muOfRate m ps rate - m.mu1) := by linarith
  refine ⟨trivial, r0, trivial, b1, b2, ?_, ?_, ⟨_, rfl, rfl, hqn, ?_, ?_⟩, ?_, ?_, ?_, by trivial,
    ⟨rfl, rfl, rfl, rfl, rfl⟩, by trivial⟩
  · have : 0 < muOfRate m ps rate - m.mu1 := by linarith
    positivity
  · field_simp
  · intro hp0
    have h4 : 0 ≤ P * (muOfRate m ps rate - m.mu1) := mul_nonneg hp0 (by linarith)
    rw [hqn, abs_of_nonneg (by linarith)]
    exact ⟨by linarith, rfl⟩
  · intro hp0
    have h4 : P * (muOfRate m ps rate - m.mu1) < 0 := mul_neg_of_neg_of_pos hp0 (by linarith)
    linarith
  · intro r hr h
    exact runi r hr ((mui_quadratic (P := P) (X := Q - Y) (dt := dt) hfq hps0 hr).mp (by linarith))
  · intro hc0 hu
    have hS0 : S = 0 := by rw [hSd, pressureShift, hu]; rfl
    have hPpos : 0 < P := by rw [hc0, hS0] at htip; simpa using htip
    have h4 : 0 ≤ P * (muOfRate m ps rate - m.mu1) := mul_nonneg hPpos.le (by linarith)
    rw [hqn, abs_of_nonneg (by linarith), hYd, hc0, hS0]
    ring
  · have hg : m.fMu * dt * rate / m.eMu = 1 / m.dPre * (rate * dt) := by
      rw [ok.fMu_eq]; field_simp
    rw [hassoc, hg]

/-- **C39** The other states: left of the tip the state is returned to the tip, otherwise nothing changes
but the friction and viscosity records. The volume bookkeeping runs even with the correction switched off,
and the shear rate stored at the tip is the strain increment, not divided by the time step. -/
theorem C39_other {cabs} {svd : Matrix (Fin d) (Fin d) ℝ → Svd d} {m : Material} (ok : MatOk m d)
    (hm : m.plastic = .dpMui) (dt : ℝ) (q : Particle d ℝ) (exit : Bool)
    (hs : IsSvd q.F (svd q.F)) {P Q S Y : ℝ} (hPd : P = trialP m (svd q.F)) (hQd : Q = trialQ m (svd q.F))
    (hSd : S = pressureShift m d q) (hYd : Y = m.mu1 * (P + S) + m.qCohesion)
    (h : P + S ≤ -m.qCohesion / m.mu1 ∨ Q ≤ Y + m.stressTol) :
    ∃ out, plasticity cabs svd m dt q exit = some out ∧
      out.q.muI = m.mu1 ∧ out.q.viscosity = 0 ∧
      (P + S < -m.qCohesion / m.mu1 → newP out = -m.qCohesion / m.mu1 ∧ newQ m out = 0 ∧
        m.fMu * out.q.deltaGamma = Q ∧
        out.q.epsPlVolPradhana = q.epsPlVolPradhana + (newP out - P) / m.K d) ∧
      (-m.qCohesion / m.mu1 ≤ P + S → out.q.F = q.F ∧ out.q.tau = elasticTau m (svd q.F) ∧
        out.q.deltaGamma = q.deltaGamma ∧ out.q.epsPlVolPradhana = 0) ∧
      out.q.epsPlDev = q.epsPlDev + (Q - newQ m out) / m.eMu ∧
      out.q.epsPlVol = q.epsPlVol + (newP out - P) / m.K d ∧
      SameMotion q out.q ∧ out.exit = exit := by
  obtain ⟨hP, hQ⟩ := trial_eq ok hs
  have he := ok.eMu_pos
  have hf := ok.fMu_pos
  have hU := hs.orthU
  rw [← hPd] at hP
  rw [← hQd] at hQ
  have hS' : (if m.usePradhana = true then -m.K d * q.epsPlVolPradhana else 0) = S := hSd.symm
  have hcanc : ∀ x, 1 / m.dPre * (m.dPre * x) = x := fun x => by have := ok.dPre_pos; field_simp
  have hst : plastModel cabs m dt (svd q.F) (mkTrial (svd q.F).hencky) ⟨q, (svd q.F).hencky, 0, exit⟩ =
      some (plastDPMui m dt (svd q.F) (mkTrial (svd q.F).hencky) ⟨q, (svd q.F).hencky, 0, exit⟩) := by
    simp only [plastModel, hm]
  unfold plastDPMui at hst
  simp only [hS', ← hP, ← hQ, ← hYd, hcanc] at hst
  rw [if_neg (by rintro ⟨h2, h3⟩; rcases h with h | h <;> linarith)] at hst
  by_cases h1 : P + S < -m.qCohesion / m.mu1
  · rw [if_pos h1] at hst
    refine ⟨_, plasticity_some.mpr ⟨_, hst, rfl⟩, ?_⟩
    obtain ⟨sp, sq⟩ := saved_iso ok hU (-m.qCohesion / m.mu1)
    simp only [newP, newQ, newTau_hencky ok.hel]
    rw [show savedP _ = _ from sp, show savedQ _ _ = _ from sq]
    refine ⟨trivial, trivial, fun _ => ⟨rfl, rfl, ?_, rfl⟩, fun h => absurd h1 (not_lt.mpr h), ?_, rfl,
      ⟨rfl, rfl, rfl, rfl, rfl⟩, trivial⟩
    · rw [hQ, ok.fMu_eq]; have := ok.dPre_pos; field_simp
    · rw [hQ]; field_simp; ring
  · rw [if_neg h1] at hst
    refine ⟨_, plasticity_some.mpr ⟨_, hst, rfl⟩, ?_⟩
    obtain ⟨sp, sq⟩ := saved_trial' ok hU (t := mkTrial (svd q.F).hencky) (svd q.F).hencky rfl
    simp only [newP, newQ, newTau_hencky ok.hel]
    rw [show savedP _ = P from sp.trans hP.symm, show savedQ _ _ = Q from sq.trans hQ.symm]
    refine ⟨trivial, trivial, fun h => absurd h h1, fun _ => ⟨by trivial, (elasticTau_eq hs).symm, by trivial, by trivial⟩, by simp,
      by simp, ⟨rfl, rfl, rfl, rfl, rfl⟩, trivial⟩

/-- Without cohesion: pressure 1/4, shear stress 3/4. The flow equation `3/4 - r = (1 + r/(sqrt ps + r))/4`
has a positive solution. -/
example : ∃ out, plasticity abs (Ex.svd (1 / 4) (-1 / 2)) { Ex.mat .dpMui with qCohesion := 0 } 1
      (Ex.part (1 / 4) (-1 / 2)) false = some out ∧
      newQ { Ex.mat .dpMui with qCohesion := 0 } out = out.q.muI * (1 / 4) ∧
      1 < out.q.muI ∧ out.q.muI < 2 ∧ 0 < out.q.viscosity := by
  set m : Material := { Ex.mat .dpMui with qCohesion := 0 } with hm
  have ok : MatOk m 2 := ⟨(Ex.mat_ok .vmVisc).hd, (Ex.mat_ok .vmVisc).hK, (Ex.mat_ok .vmVisc).hmu,
    (Ex.mat_ok .vmVisc).hq, rfl⟩
  have hs := Ex.isSvd (1 / 4) (-1 / 2)
  obtain ⟨e1, e2⟩ := ex_trial .dpMui (a := 1 / 4) (b := -1 / 2) (by norm_num) (by norm_num) _ hs
  change trialP m _ = _ at e1
  change trialQ m _ = _ at e2
  have hfq : m.facQ = 1 := by norm_num [hm, Ex.mat, Material.facQ]
  obtain ⟨out, h, hp, -, -, b1, b2, v, -, -, -, hq, -⟩ := C39_muI (cabs := abs) ok rfl (by norm_num [hm, Ex.mat])
    (by norm_num [hm, Ex.mat]) (by rw [hfq]; norm_num) le_rfl (by norm_num [hm, Ex.mat]) one_pos
    (Ex.part (1 / 4) (-1 / 2)) false hs e1.symm e2.symm rfl rfl rfl
    (by norm_num [hm, Ex.mat, pressureShift]) (by norm_num [hm, Ex.mat, pressureShift])
  refine ⟨out, h, ?_, b1, b2, v⟩
  rw [hq rfl rfl, hp]; norm_num

/-- **C39** With cohesion, in tension right of the tip, the update may overshoot: here the plastic increment
`dt * rate` removes more shear stress than there was, so that the shear reverses its direction
(`newQ = |qn|` with `qn < 0`). -/
theorem C39_reverse_shear : ∃ out, plasticity abs (Ex.svd (11 / 20) (-9 / 20)) (Ex.mat .dpMui) 1
      (Ex.part (11 / 20) (-9 / 20)) false = some out ∧
      trialQ (Ex.mat .dpMui) (Ex.svd (11 / 20) (-9 / 20) (Ex.part (11 / 20) (-9 / 20)).F)
        < (Ex.mat .dpMui).fMu * 1 * out.q.deltaGamma := by
  have hs := Ex.isSvd (11 / 20) (-9 / 20)
  obtain ⟨e1, e2⟩ := ex_trial .dpMui (a := 11 / 20) (b := -9 / 20) (by norm_num) (by norm_num) _ hs
  have hfq : (Ex.mat .dpMui).facQ = 1 := by norm_num [Ex.mat, Material.facQ]
  obtain ⟨out, h, -, h0, hmu, -, -, -, -, ⟨qn, q1, q2, q3, -, q5⟩, -⟩ := C39_muI (cabs := abs) (Ex.mat_ok .dpMui)
    rfl (by norm_num [Ex.mat]) (by norm_num [Ex.mat]) (by rw [hfq]; norm_num) (by norm_num [Ex.mat])
    (by norm_num [Ex.mat]) one_pos
    (Ex.part (11 / 20) (-9 / 20)) false hs e1.symm e2.symm rfl rfl rfl
    (by norm_num [Ex.mat, pressureShift]) (by norm_num [Ex.mat, pressureShift])
  refine ⟨out, h, ?_⟩
  rw [e2]
  have hY := q5 (by norm_num)
  have hme := muOfRate_eq (m := Ex.mat .dpMui) (rate := out.q.deltaGamma)
    (ps := -(11 / 20 + -9 / 20) + pressureShift (Ex.mat .dpMui) 2 (Ex.part (11 / 20) (-9 / 20)) -
      -(Ex.mat .dpMui).qCohesion / (Ex.mat .dpMui).mu1 + (Ex.mat .dpMui).stressTol)
    (by rw [hfq]; exact one_pos) (by norm_num [Ex.mat, pressureShift])
  rw [Ex.mat_fMu] at q1
  rw [hmu, hme, hfq] at q3
  rw [Ex.mat_fMu]
  by_contra hcon
  have hr : 39 / 40 ≤ out.q.deltaGamma := by
    norm_num [Ex.mat, pressureShift] at q1 hY
    linarith
  have hps : Real.sqrt (-(11 / 20 + -9 / 20) + pressureShift (Ex.mat .dpMui) 2 (Ex.part (11 / 20) (-9 / 20)) -
      -(Ex.mat .dpMui).qCohesion / (Ex.mat .dpMui).mu1 + (Ex.mat .dpMui).stressTol) ≤ 1 / 5 := by
    apply Real.sqrt_le_iff.mpr
    norm_num [Ex.mat, pressureShift]
  set w := Real.sqrt (-(11 / 20 + -9 / 20) + pressureShift (Ex.mat .dpMui) 2 (Ex.part (11 / 20) (-9 / 20)) -
      -(Ex.mat .dpMui).qCohesion / (Ex.mat .dpMui).mu1 + (Ex.mat .dpMui).stressTol)
  have hw0 : 0 ≤ w := Real.sqrt_nonneg _
  have hq1 : 1 * w / out.q.deltaGamma ≤ 1 / 4 := by
    rw [div_le_iff₀ h0]; linarith
  have hq0 : 0 ≤ 1 * w / out.q.deltaGamma := by positivity
  have hq2 : 4 / 5 ≤ ((Ex.mat .dpMui).mu2 - (Ex.mat .dpMui).mu1) / (1 * w / out.q.deltaGamma + 1) := by
    rw [le_div_iff₀ (by linarith)]
    norm_num [Ex.mat]
    norm_num at hq1
    linarith
  norm_num [Ex.mat, pressureShift] at q1 q3 hq2 hcon
  linarith

end Verif.Props
