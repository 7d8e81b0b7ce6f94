import Verif.Lemmas.UnitsStep

set_option linter.unusedSimpArgs false
set_option linter.unusedVariables false
set_option linter.unusedSectionVars false

/-!
# The constitutive models in other units
-/

namespace Verif
open Matrix

section
variable {d : ℕ} (U : Scales) (m : Material)

lemma lam_scale : (U.material m).lam = U.stress * m.lam := by
  show m.nu * (U.stress * m.E) / _ = U.stress * (m.nu * m.E / _)
  rw [← mul_div_assoc]
  congr 1
  ring

lemma mu_scale : (U.material m).mu = U.stress * m.mu := by
  show U.stress * m.E / _ = U.stress * (m.E / _)
  rw [mul_div_assoc]
  rfl

lemma K_scale : (U.material m).K d = U.stress * m.K d := by
  rw [Material.K, Material.K, lam_scale, mu_scale]
  ring

lemma dPre_scale : (U.material m).dPre = m.dPre / U.q := by
  show 1 / (U.q * m.qPrefac) = 1 / m.qPrefac / U.q
  rw [div_div, mul_comm]

lemma invdPre_scale : 1 / (U.material m).dPre = U.q * (1 / m.dPre) := by
  rw [dPre_scale, one_div_div, div_eq_mul_one_div]

lemma eMu_scale : (U.material m).eMu = U.q * U.stress * m.eMu := by
  rw [Material.eMu, Material.eMu, mu_scale]
  show 2 * (U.q * m.qPrefac) * _ = _
  ring

lemma fMu_scale : (U.material m).fMu = U.q * U.q * U.stress * m.fMu := by
  rw [Material.fMu, Material.fMu, mu_scale]
  show 2 * (U.q * m.qPrefac) * (U.q * m.qPrefac) * _ = _
  ring

/-- The state of the constitutive update in other units. -/
noncomputable def Scales.state (st : PState d) : PState d := { st with q := U.particle st.q }

lemma plastVM_scale (dt : ℝ) (s : Svd d) (t : Trial d) (st : PState d) :
    plastVM (U.material m) (U.time * dt) s t (U.state st) = U.state (plastVM m dt s t st) := by
  have hq := U.q_ne; have hs := U.stress_ne; have ht := U.time_ne
  have e : (U.material m).qMax / (U.material m).eMu = m.qMax / m.eMu := by
    rw [eMu_scale]
    show U.q * U.stress * m.qMax / _ = _
    rw [mul_div_mul_left _ _ (mul_ne_zero hq hs)]
  simp only [plastVM, e]
  refine ite_conv (f := U.state) Iff.rfl (fun _ => ?_) (fun _ => rfl)
  simp only [Scales.state, Scales.particle, dPre_scale]
  congr 2
  field_simp

lemma volScale (a b : ℝ) : (U.stress * a - U.stress * b) / (U.stress * m.K d) = (a - b) / m.K d := by
  rw [← mul_sub, mul_div_mul_left _ _ U.stress_ne]

lemma tip_scale (a b : ℝ) : -(U.q * U.stress * a) / (U.q * b) = U.stress * (-a / b) := by
  have hq := U.q_ne
  by_cases hb : b = 0
  · simp [hb]
  · field_simp

lemma diag_scale (a : ℝ) : -(U.stress * a) / (U.stress * m.K d * d) = -a / (m.K d * d) := by
  rw [mul_assoc, ← mul_neg, mul_div_mul_left _ _ U.stress_ne]

lemma rate_scale (x dt : ℝ) : x / U.q / (U.time * dt) = x / dt / (U.q * U.time) := by
  rw [div_div, div_div]
  congr 1
  ring

lemma inc_scale (a x : ℝ) : U.q * a * (x / U.q) = a * x := by
  have hq := U.q_ne
  field_simp

lemma plastDPSoft_scale (dt : ℝ) (s : Svd d) (t : Trial d) (st : PState d) :
    plastDPSoft (U.material m) (U.time * dt) s t (U.state st) = U.state (plastDPSoft m dt s t st) := by
  have hq := U.q_ne; have hs := U.stress_ne; have ht := U.time_ne
  have hqp := U.q_pos; have hsp := U.stress_pos
  have hqs : 0 < U.q * U.stress := mul_pos hqp hsp
  -- the quantities the model computes
  have hp : -(U.material m).K d * t.trace = U.stress * (-m.K d * t.trace) := by rw [K_scale]; ring
  have hqt : (U.material m).eMu * t.norm = U.q * U.stress * (m.eMu * t.norm) := by rw [eMu_scale]; ring
  have htip0 : -(U.material m).qCohesion / (U.q * m.M) = U.stress * (-m.qCohesion / m.M) := tip_scale U _ _
  have hxi : (U.material m).xi = m.xi := rfl
  have hPr : (U.material m).usePradhana = m.usePradhana := rfl
  have hM : (U.material m).M = U.q * m.M := rfl
  have hsh : (if m.usePradhana = true then -(U.material m).K d * st.q.epsPlVolPradhana else 0) =
      U.stress * (if m.usePradhana = true then -m.K d * st.q.epsPlVolPradhana else 0) := by
    refine ite_conv (f := (U.stress * ·)) Iff.rfl (fun _ => ?_) (fun _ => (mul_zero _).symm)
    rw [K_scale]; ring
  have h1 : (U.state st).q.epsPlDev = st.q.epsPlDev := rfl
  have h2 : (U.state st).q.epsPlVolPradhana = st.q.epsPlVolPradhana := rfl
  have h3 : (U.state st).q.epsPlVol = st.q.epsPlVol := rfl
  have hdg : ∀ x, (U.material m).dPre * x = m.dPre * x / U.q := fun x => by rw [dPre_scale]; ring
  have hyield : ∀ P T : ℝ, U.q * m.M * (U.stress * P) + -(U.stress * T) * (U.q * m.M) = U.q * U.stress * (m.M * P + -T * m.M) := by
    intros; ring
  have hyq : ∀ y, U.q * U.stress * y / (U.material m).eMu = y / m.eMu := by
    intro y; rw [eMu_scale, mul_div_mul_left _ _ hqs.ne']
  simp only [plastDPSoft, h1, h2, h3, hPr, hxi, hM, hp, hqt, htip0, hsh, hdg, invdPre_scale, inc_scale]
  generalize (if m.usePradhana = true then -m.K d * st.q.epsPlVolPradhana else 0) = sh
  generalize m.eMu * t.norm = Q
  generalize -m.qCohesion / m.M = tip
  generalize -m.K d * t.trace = P
  simp only [← mul_add, mul_assoc U.stress tip, K_scale]
  generalize tip * Real.exp (-m.xi * st.q.epsPlDev) = T
  simp only [hyield, hyq, mul_le_mul_iff_right₀ hsp, mul_le_mul_iff_right₀ hqs, mul_lt_mul_iff_right₀ hsp, volScale, diag_scale]
  refine ite_conv (f := U.state) Iff.rfl (fun _ => ?_) (fun _ => ?_)
  · simp only [Scales.state, Scales.particle, rate_scale]
  refine ite_conv (f := U.state) Iff.rfl (fun _ => ?_) (fun _ => ?_)
  · simp [Scales.state, Scales.particle, rate_scale]
  refine ite_conv (f := U.state) Iff.rfl (fun _ => ?_) (fun _ => ?_)
  · simp only [Scales.state, Scales.particle, rate_scale]
  · simp only [Scales.state, Scales.particle, rate_scale]

lemma visc_scale : (U.material m).viscTime = (if m.useDuvautLions then 1 else U.q) * U.time * m.viscTime := rfl

lemma closedForm_scale (dt Q Y : ℝ) :
    closedForm (U.material m) (U.time * dt) (U.q * U.stress * Q) (U.q * U.stress * Y) =
      ((closedForm m dt Q Y).1 / U.q, (closedForm m dt Q Y).2) := by
  have hq := U.q_ne; have hs := U.stress_ne; have ht := U.time_ne
  have hqs : U.q * U.stress ≠ 0 := mul_ne_zero hq hs
  have hDL : (U.material m).useDuvautLions = m.useDuvautLions := rfl
  have key : (if (U.material m).useDuvautLions = true then
        (U.q * U.stress * Q - U.q * U.stress * Y) / ((U.material m).fMu * (1 + (U.material m).viscTime / (U.time * dt)))
      else (U.q * U.stress * Q - U.q * U.stress * Y) / ((U.material m).fMu + U.q * U.stress * Y * (U.material m).viscTime / (U.time * dt))) =
      (if m.useDuvautLions = true then (Q - Y) / (m.fMu * (1 + m.viscTime / dt)) else (Q - Y) / (m.fMu + Y * m.viscTime / dt)) / U.q := by
    rw [hDL, fMu_scale, visc_scale]
    refine ite_conv (f := (· / U.q)) Iff.rfl (fun h => ?_) (fun h => ?_)
    · rw [if_pos h, one_mul, mul_div_mul_left _ _ ht, ← mul_sub,
        show U.q * U.q * U.stress * m.fMu * (1 + m.viscTime / dt) = U.q * U.stress * (m.fMu * (1 + m.viscTime / dt) * U.q) by ring,
        mul_div_mul_left _ _ hqs, div_div]
    · rw [if_neg h, show U.q * U.stress * Y * (U.q * U.time * m.viscTime) = U.time * (U.q * U.stress * U.q * (Y * m.viscTime)) by ring,
        mul_div_mul_left _ _ ht, ← mul_sub,
        show U.q * U.q * U.stress * m.fMu + U.q * U.stress * U.q * (Y * m.viscTime) / dt =
          U.q * U.stress * ((m.fMu + Y * m.viscTime / dt) * U.q) by ring, mul_div_mul_left _ _ hqs, div_div]
  simp only [closedForm, key]
  refine Prod.ext rfl ?_
  simp only [decide_eq_decide]
  rw [div_lt_iff₀ U.q_pos, zero_mul]

lemma plastVMVisc_scale (hx : m.xi = 0) (hn : m.viscExponent = 1) (dt : ℝ) (s : Svd d) (t : Trial d) (st : PState d) :
    plastVMVisc (U.material m) (U.time * dt) s t (U.state st) = (plastVMVisc m dt s t st).map U.state := by
  have hq := U.q_ne; have hs := U.stress_ne; have ht := U.time_ne
  have hqp := U.q_pos; have hsp := U.stress_pos
  have hqs : 0 < U.q * U.stress := mul_pos hqp hsp
  have hp : -(U.material m).K d * t.trace = U.stress * (-m.K d * t.trace) := by rw [K_scale]; ring
  have hqt : (U.material m).eMu * t.norm = U.q * U.stress * (m.eMu * t.norm) := by rw [eMu_scale]; ring
  have hxi : (U.material m).xi = m.xi := rfl
  have hn' : (U.material m).viscExponent = m.viscExponent := rfl
  have h1 : (U.state st).q.epsPlDev = st.q.epsPlDev := rfl
  have h3 : (U.state st).q.epsPlVol = st.q.epsPlVol := rfl
  have h4 : (U.state st).exit = st.exit := rfl
  have hy : (U.material m).qMin + ((U.material m).qMax - (U.material m).qMin) * Real.exp (-m.xi * st.q.epsPlDev) =
      U.q * U.stress * (m.qMin + (m.qMax - m.qMin) * Real.exp (-m.xi * st.q.epsPlDev)) := by
    show U.q * U.stress * m.qMin + (U.q * U.stress * m.qMax - U.q * U.stress * m.qMin) * _ = _
    ring
  have hpm : (U.material m).pMin * Real.exp (-m.xi * st.q.epsPlVol) = U.stress * (m.pMin * Real.exp (-m.xi * st.q.epsPlVol)) := by
    show U.stress * m.pMin * _ = _
    ring
  have hcl : decide (m.viscExponent = 1 ∧ m.xi = 0) = true := decide_eq_true ⟨hn, hx⟩
  have hf : ∀ x, U.q * U.stress * x / (U.material m).fMu = x / m.fMu / U.q := by
    intro x
    rw [fMu_scale, show U.q * U.q * U.stress * m.fMu = U.q * U.stress * (m.fMu * U.q) by ring,
      mul_div_mul_left _ _ hqs.ne', div_div]
  have hv : ∀ x, -(U.stress * x) / (U.stress * m.K d) = -x / m.K d := by
    intro x; rw [← mul_neg, mul_div_mul_left _ _ hs]
  simp only [plastVMVisc, h1, h3, h4, hxi, hn', hp, hqt, hy, hpm, hcl, viscIncrement, if_true, closedForm_scale, hf,
    Option.bind_eq_bind, Option.bind_some, invdPre_scale, inc_scale, gt_iff_lt, mul_lt_mul_iff_right₀ hsp, mul_lt_mul_iff_right₀ hqs]
  simp only [K_scale, hv]
  refine ite_conv (f := Option.map U.state) Iff.rfl (fun _ => ?_) (fun _ => ?_)
  · simp only [Option.map_some, Scales.state, Scales.particle, rate_scale]
  refine ite_conv (f := Option.map U.state) Iff.rfl (fun _ => ?_) (fun _ => rfl)
  simp only [Option.map_some, Scales.state, Scales.particle, rate_scale]

lemma plastDPVisc_scale (hn : m.viscExponent = 1) (hmi : m.useMibf = false) (dt : ℝ) (s : Svd d) (t : Trial d) (st : PState d) :
    plastDPVisc (U.material m) (U.time * dt) s t (U.state st) = (plastDPVisc m dt s t st).map U.state := by
  have hq := U.q_ne; have hs := U.stress_ne; have ht := U.time_ne
  have hqp := U.q_pos; have hsp := U.stress_pos
  have hqs : 0 < U.q * U.stress := mul_pos hqp hsp
  have hp : -(U.material m).K d * t.trace = U.stress * (-m.K d * t.trace) := by rw [K_scale]; ring
  have hqt : (U.material m).eMu * t.norm = U.q * U.stress * (m.eMu * t.norm) := by rw [eMu_scale]; ring
  have htip0 : -(U.material m).qCohesion / (U.material m).M = U.stress * (-m.qCohesion / m.M) := tip_scale U _ _
  have hPr : (U.material m).usePradhana = m.usePradhana := rfl
  have hmi' : (U.material m).useMibf = m.useMibf := rfl
  have hn' : (U.material m).viscExponent = m.viscExponent := rfl
  have hsh : (if m.usePradhana = true then -(U.material m).K d * st.q.epsPlVolPradhana else 0) =
      U.stress * (if m.usePradhana = true then -m.K d * st.q.epsPlVolPradhana else 0) := by
    refine ite_conv (f := (U.stress * ·)) Iff.rfl (fun _ => ?_) (fun _ => (mul_zero _).symm)
    rw [K_scale]; ring
  have h1 : (U.state st).q.epsPlDev = st.q.epsPlDev := rfl
  have h2 : (U.state st).q.epsPlVolPradhana = st.q.epsPlVolPradhana := rfl
  have h3 : (U.state st).q.epsPlVol = st.q.epsPlVol := rfl
  have hdg : ∀ x, (U.material m).dPre * x = m.dPre * x / U.q := fun x => by rw [dPre_scale]; ring
  have hyield : ∀ P : ℝ, (U.material m).M * (U.stress * P) + (U.material m).qCohesion = U.q * U.stress * (m.M * P + m.qCohesion) := by
    intro P
    show U.q * m.M * (U.stress * P) + U.q * U.stress * m.qCohesion = _
    ring
  have hcl : decide (m.viscExponent = 1) = true := decide_eq_true hn
  simp only [plastDPVisc, h1, h2, h3, hPr, hmi', hmi, hn', Bool.false_eq_true, if_false, hp, hqt, htip0, hsh, hdg, hcl,
    viscIncrement, if_true, Option.bind_eq_bind, Option.bind_some, invdPre_scale, inc_scale, gt_iff_lt]
  generalize (if m.usePradhana = true then -m.K d * st.q.epsPlVolPradhana else 0) = sh
  generalize m.eMu * t.norm = Q
  generalize -m.qCohesion / m.M = tip
  generalize -m.K d * t.trace = P
  simp only [← mul_add, hyield, closedForm_scale, mul_lt_mul_iff_right₀ hsp, mul_lt_mul_iff_right₀ hqs, K_scale, volScale, diag_scale]
  by_cases hc : P + sh < tip
  · simp only [if_pos hc, if_neg (show ¬ (tip < P + sh ∧ m.M * (P + sh) + m.qCohesion < Q) from fun h => absurd h.1 (not_lt.mpr hc.le))]
    simp only [Option.map_some, Scales.state, Scales.particle, rate_scale]
  · simp only [if_neg hc]
    refine ite_conv (f := Option.map U.state) Iff.rfl (fun _ => ?_) (fun _ => ?_)
    · simp only [Option.map_some, Scales.state, Scales.particle, rate_scale, invdPre_scale, inc_scale, zero_div]
    · simp only [Option.map_some, Scales.state, Scales.particle, zero_div]

end

/-! ### mu(I) rheology -/

section mui
variable {d : ℕ} (U : Scales) (m : Material)

lemma sqrt_scale {c : ℝ} (hc : 0 < c) (x : ℝ) : Real.sqrt (c * x) = Real.sqrt c * Real.sqrt x := Real.sqrt_mul hc.le x

lemma facQ_scale (x : ℝ) :
    (U.material m).facQ * Real.sqrt (U.stress * x) = m.facQ * Real.sqrt x / U.time := by
  have hl := U.len_ne; have hs := U.stress_ne; have ht := U.time_ne
  have e : Real.sqrt (U.dens * m.rhoS) = Real.sqrt U.stress * (U.time / U.len) * Real.sqrt m.rhoS := by
    rw [Real.sqrt_mul U.dens_pos.le]
    congr 1
    unfold Scales.dens
    rw [show U.stress * (U.time * U.time) / (U.len * U.len) = U.stress * ((U.time / U.len) * (U.time / U.len)) by field_simp,
      Real.sqrt_mul U.stress_pos.le, Real.sqrt_mul_self (div_pos U.time_pos U.len_pos).le]
  have hr : Real.sqrt U.stress ≠ 0 := (Real.sqrt_pos.mpr U.stress_pos).ne'
  unfold Material.facQ
  show m.iRef / (U.len * m.grainDiameter * Real.sqrt (U.dens * m.rhoS)) * _ = _
  rw [e, sqrt_scale U.stress_pos]
  by_cases h1 : m.grainDiameter = 0
  · simp [h1]
  by_cases h2 : Real.sqrt m.rhoS = 0
  · simp [h2]
  field_simp

lemma posRoot_scale (a b c : ℝ) :
    posRoot (U.stress * U.time * a) (U.stress * b) (U.stress * (c / U.time)) = posRoot a b c / U.time := by
  have hs := U.stress_ne; have ht := U.time_ne
  unfold posRoot
  have e : U.stress * b * (U.stress * b) - 4 * (U.stress * U.time * a) * (U.stress * (c / U.time)) =
      U.stress * U.stress * (b * b - 4 * a * c) := by field_simp
  rw [e, Real.sqrt_mul (mul_self_nonneg _), Real.sqrt_mul_self U.stress_pos.le, ← mul_neg, ← mul_add,
    show 2 * (U.stress * U.time * a) = U.stress * (2 * a * U.time) by ring, mul_div_mul_left _ _ hs, div_div]

lemma plastDPMui_scale (hq1 : U.q = 1) (ht1 : U.time = 1) (dt : ℝ) (s : Svd d) (t : Trial d) (st : PState d) :
    plastDPMui (U.material m) (U.time * dt) s t (U.state st) = U.state (plastDPMui m dt s t st) := by
  have hs := U.stress_ne; have hsp := U.stress_pos
  have hp : -(U.material m).K d * t.trace = U.stress * (-m.K d * t.trace) := by rw [K_scale]; ring
  have hqt : (U.material m).eMu * t.norm = U.stress * (m.eMu * t.norm) := by rw [eMu_scale, hq1]; ring
  have hmu1 : (U.material m).mu1 = m.mu1 := rfl
  have hmu2 : (U.material m).mu2 = m.mu2 := rfl
  have hqc : (U.material m).qCohesion = U.stress * m.qCohesion := by
    show U.q * U.stress * m.qCohesion = _
    rw [hq1, one_mul]
  have htip0 : -(U.stress * m.qCohesion) / m.mu1 = U.stress * (-m.qCohesion / m.mu1) := by rw [← mul_neg, mul_div_assoc]
  have hPr : (U.material m).usePradhana = m.usePradhana := rfl
  have htol : (U.material m).stressTol = U.stress * m.stressTol := rfl
  have hsh : (if m.usePradhana = true then -(U.material m).K d * st.q.epsPlVolPradhana else 0) =
      U.stress * (if m.usePradhana = true then -m.K d * st.q.epsPlVolPradhana else 0) := by
    refine ite_conv (f := (U.stress * ·)) Iff.rfl (fun _ => ?_) (fun _ => (mul_zero _).symm)
    rw [K_scale]; ring
  have h1 : (U.state st).q.epsPlDev = st.q.epsPlDev := rfl
  have h2 : (U.state st).q.epsPlVolPradhana = st.q.epsPlVolPradhana := rfl
  have h3 : (U.state st).q.epsPlVol = st.q.epsPlVol := rfl
  have hdP : (U.material m).dPre = m.dPre := by rw [dPre_scale, hq1, div_one]
  have hf : (U.material m).fMu = U.stress * m.fMu := by rw [fMu_scale, hq1]; ring
  have hfq := facQ_scale U m
  have hpr := posRoot_scale U
  simp only [ht1, div_one, mul_one] at hfq hpr
  simp only [plastDPMui, h1, h2, h3, hPr, hmu1, hmu2, hqc, htol, hp, hqt, htip0, hsh, hdP, hf, gt_iff_lt, ht1, one_mul]
  generalize (if m.usePradhana = true then -m.K d * st.q.epsPlVolPradhana else 0) = sh
  generalize m.eMu * t.norm = Q
  generalize -m.qCohesion / m.mu1 = tip
  generalize -m.K d * t.trace = P
  have hy : m.mu1 * (U.stress * (P + sh)) + U.stress * m.qCohesion = U.stress * (m.mu1 * (P + sh) + m.qCohesion) := by ring
  simp only [← mul_add, hy]
  generalize m.mu1 * (P + sh) + m.qCohesion = Y
  simp only [← mul_add, ← mul_sub, mul_lt_mul_iff_right₀ hsp]
  generalize P + sh - tip + m.stressTol = S
  have hb : U.stress * P * (m.mu2 - m.mu1) + U.stress * (m.fMu * dt) * (U.material m).facQ * Real.sqrt (U.stress * S) - U.stress * (Q - Y) =
      U.stress * (P * (m.mu2 - m.mu1) + m.fMu * dt * m.facQ * Real.sqrt S - (Q - Y)) := by
    rw [mul_assoc _ (U.material m).facQ, hfq]; ring
  have hcc : -(U.stress * (Q - Y)) * (U.material m).facQ * Real.sqrt (U.stress * S) = U.stress * (-(Q - Y) * m.facQ * Real.sqrt S) := by
    rw [mul_assoc _ (U.material m).facQ, hfq]; ring
  simp only [mul_assoc U.stress m.fMu dt]
  simp only [hb, hcc, hpr]
  simp only [hfq]
  generalize posRoot (m.fMu * dt) (P * (m.mu2 - m.mu1) + m.fMu * dt * m.facQ * Real.sqrt S - (Q - Y)) (-(Q - Y) * m.facQ * Real.sqrt S) = r
  have hvs : ∀ x, U.stress * x / (U.stress * m.K d) = x / m.K d := fun x => mul_div_mul_left _ _ hs
  simp only [K_scale, hvs, diag_scale]
  by_cases hc : P + sh < tip
  · simp only [if_pos hc, if_neg (show ¬ (tip < P + sh ∧ Y + m.stressTol < Q) from fun h => absurd h.1 (not_lt.mpr hc.le))]
    simp [Scales.state, Scales.particle, hq1, ht1]
  · simp only [if_neg hc]
    refine ite_conv (f := U.state) Iff.rfl (fun _ => ?_) (fun _ => ?_)
    · simp only [Scales.state, Scales.particle, hq1, ht1]
      congr 2
      · ring
      · ring
    · simp [Scales.state, Scales.particle, hq1, ht1]

end mui

/-! ### Cam-Clay with the implicit exponential hardening -/

section mcc
variable {d : ℕ} (U : Scales) (m : Material)

/-- The result of a return mapping in other units. -/
noncomputable def Scales.rma (r : Rma) : Rma := { r with p := U.stress * r.p, q := U.stress * r.q }

lemma fsqrt_scale {c : ℝ} (hc : 0 < c) (x : ℝ) : fsqrt (c * c * x) = (fsqrt x).map (c * ·) := by
  unfold fsqrt
  refine ite_conv (f := Option.map (c * ·)) (neg_scale (mul_pos hc hc) x) (fun _ => rfl) (fun _ => ?_)
  rw [Option.map_some, Real.sqrt_mul (mul_self_nonneg _), Real.sqrt_mul_self hc.le]

lemma fdiv_scale {c : ℝ} (hc : c ≠ 0) (x y : ℝ) : fdiv (c * x) (c * y) = fdiv x y := by
  unfold fdiv
  refine ite_conv (f := id) ?_ (fun _ => rfl) (fun _ => ?_)
  · simp [hc]
  · rw [mul_div_mul_left _ _ hc]; rfl

lemma implicitExp_scale (cabs : ℝ → ℝ) (p q : ℝ) (e : Bool) (M p00 beta mu K xi epv : ℝ) :
    mccRmaImplicitExponentialOnevar cabs (U.stress * p) (U.stress * q) e M (U.stress * p00) beta (U.stress * mu) (U.stress * K) xi epv =
      (mccRmaImplicitExponentialOnevar cabs p q e M p00 beta mu K xi epv).map U.rma := by
  have hs := U.stress_ne; have hsp := U.stress_pos
  have e0 : U.stress * p00 * Real.exp (-xi * epv) = U.stress * (p00 * Real.exp (-xi * epv)) := by ring
  simp only [mccRmaImplicitExponentialOnevar, e0]
  generalize hT : p00 * Real.exp (-xi * epv) = T
  have ey : M * M * (U.stress * p * (U.stress * p) + (beta - 1) * (U.stress * T) * (U.stress * p) -
      beta * (U.stress * T) * (U.stress * T)) + 1 * (U.stress * q) * (U.stress * q) =
      U.stress * U.stress * (M * M * (p * p + (beta - 1) * T * p - beta * T * T) + 1 * q * q) := by ring
  rw [ey]
  refine ite_conv (f := Option.map U.rma) (nonpos_scale (mul_pos hsp hsp) _) (fun _ => rfl) (fun _ => ?_)
  by_cases hT0 : T = 0
  · simp [fdiv, hT0]
  have h1 : fdiv 1 (U.stress * T) = some (1 / T / U.stress) := by
    rw [fdiv, if_neg (mul_ne_zero hs hT0), div_div, mul_comm]
  have h2 : fdiv 1 T = some (1 / T) := by rw [fdiv, if_neg hT0]
  rw [h1, h2]
  have hc : ∀ x, U.stress * x * (1 / T / U.stress) = x * (1 / T) := by intro x; field_simp
  simp only [Option.bind_eq_bind, Option.bind_some, hc]
  generalize implicitLoop _ _ _ _ _ _ _ _ _ _ _ _ _ _ _ _ _ _ = R
  cases R with
  | none => rfl
  | some r =>
    simp only [Option.bind_some, implicitFinish]
    refine ite_conv (f := Option.map U.rma) Iff.rfl (fun _ => ?_) (fun _ => ?_)
    · simp only [Option.bind_eq_bind]
      cases fsqrt ((r.2.2.1 - r.2.1) * (beta * r.2.2.1 + r.2.1) / 1) with
      | none => rfl
      | some z =>
        simp only [Option.bind_some, Option.map_some, Scales.rma, Option.some.injEq, Rma.mk.injEq, and_true]
        constructor <;> ring
    · simp only [Option.bind_eq_bind]
      cases rmaFinish M r.2.2.1 beta r.2.1 with
      | none => rfl
      | some z =>
        simp only [Option.bind_some, Option.map_some, Scales.rma, Option.some.injEq, Rma.mk.injEq, and_true]
        constructor <;> ring

lemma mccReturn_scale (hh : m.hardening = .expoImpl) (cabs : ℝ → ℝ) (b : Bool) (slope epv p q : ℝ) (e : Bool) :
    mccReturn cabs (U.material m) d b slope epv (U.stress * p) (U.stress * q) e =
      (mccReturn cabs m d b slope epv p q e).map (Prod.map (Option.map (U.stress * ·)) U.rma) := by
  have hh' : (U.material m).hardening = .expoImpl := hh
  unfold mccReturn
  rw [hh, hh']
  simp only [Option.bind_eq_bind, mu_scale, K_scale]
  show (mccRmaImplicitExponentialOnevar cabs (U.stress * p) (U.stress * q) e slope (U.stress * m.p0) m.beta (U.stress * m.mu)
    (U.stress * m.K d) m.xi epv).bind _ = _
  rw [implicitExp_scale]
  cases mccRmaImplicitExponentialOnevar cabs p q e slope m.p0 m.beta m.mu (m.K d) m.xi epv <;> rfl

lemma expLaw_scale (x : ℝ) : (U.material m).expLaw x = U.stress * m.expLaw x := by
  unfold Material.expLaw
  show U.stress * m.p0 * Real.exp (-m.xi * x) = _
  ring

lemma mccViscous_scale (hq1 : U.q = 1) (hv : m.useDuvautLions = true ∨ m.viscExponent = 1) (dt Q Y : ℝ) (e : Bool) :
    mccViscous (U.material m) (U.time * dt) (U.stress * Q) (U.stress * Y) e =
      (mccViscous m dt Q Y e).map fun r => (r.1, U.stress * r.2.1, r.2.2) := by
  have hs := U.stress_ne; have ht := U.time_ne; have hsp := U.stress_pos
  have hvt : (U.material m).viscTime = U.time * m.viscTime := by
    rw [visc_scale, hq1]; split_ifs <;> ring
  have hn' : (U.material m).viscExponent = m.viscExponent := rfl
  have hf : (U.material m).fMu = U.stress * m.fMu := by rw [fMu_scale, hq1]; ring
  unfold mccViscous
  show (if m.useDuvautLions = true then _ else _) = _
  rw [hvt, hn', hf]
  refine ite_conv (f := Option.map fun r : ℝ × ℝ × Bool => (r.1, U.stress * r.2.1, r.2.2)) Iff.rfl (fun h => ?_) (fun h => ?_)
  · rw [mul_div_mul_left _ _ ht]; rfl
  · have hn : m.viscExponent = 1 := hv.resolve_left h
    simp only [if_pos hn, Option.bind_eq_bind]
    have e1 : U.stress * m.fMu + U.stress * Y * (U.time * m.viscTime) / (U.time * dt) = U.stress * (m.fMu + Y * m.viscTime / dt) := by
      rw [show U.stress * Y * (U.time * m.viscTime) = U.time * (U.stress * (Y * m.viscTime)) by ring, mul_div_mul_left _ _ ht]
      ring
    rw [e1, ← mul_sub, fdiv_scale hs]
    cases fdiv (Q - Y) (m.fMu + Y * m.viscTime / dt) with
    | none => rfl
    | some g =>
      simp only [Option.bind_some, Option.map_some]
      congr 3
      rw [← max_scale hsp]
      congr 1
      ring

lemma mccMuI_scale (hq1 : U.q = 1) (hh : m.hardening = .expoImpl) (pc : Option ℝ) (ev p qs hD Q b : ℝ) :
    mccMuI (U.material m) d (pc.map (U.stress * ·)) ev (U.stress * p) (U.stress * qs) hD (U.stress * Q) b = mccMuI m d pc ev p qs hD Q b := by
  have hs := U.stress_ne; have hsp := U.stress_pos
  have hh' : (U.material m).hardening = .expoImpl := hh
  have hb : (U.material m).beta = m.beta := rfl
  have htol : (U.material m).stressTol = U.stress * m.stressTol := rfl
  have hM : (U.material m).M = m.M := by
    show U.q * m.M = _
    rw [hq1, one_mul]
  have hDL : (U.material m).useDuvautLions = m.useDuvautLions := rfl
  have hqt : ∀ x, (U.material m).eMu * x = U.stress * (m.eMu * x) := fun x => by rw [eMu_scale, hq1]; ring
  unfold mccMuI
  rw [hh, hh']
  simp only [Option.bind_eq_bind, Option.bind_some, expLaw_scale]
  rw [show max 0 (U.stress * m.expLaw ev) = U.stress * max 0 (m.expLaw ev) by
    rw [← max_scale hsp, mul_zero]]
  generalize max 0 (m.expLaw ev) = pc
  simp only [hb, htol, hM, hDL, hqt]
  have e1 : -m.beta * (U.stress * pc) + U.stress * m.stressTol = U.stress * (-m.beta * pc + m.stressTol) := by ring
  have e2 : (U.stress * p + m.beta * (U.stress * pc)) * (U.stress * pc - U.stress * p) =
    U.stress * U.stress * ((p + m.beta * pc) * (pc - p)) := by ring
  have e3 : (U.stress * (m.eMu * hD) - U.stress * Q * (1 - b)) / b = U.stress * ((m.eMu * hD - Q * (1 - b)) / b) := by ring
  rw [e1, e2, e3, fsqrt_scale hsp, ← mul_sub]
  refine ite_conv (f := id) ?_ (fun _ => rfl) (fun _ => ?_)
  · simp only [gt_iff_lt, mul_lt_mul_iff_right₀ hsp]
  · cases fsqrt ((p + m.beta * pc) * (pc - p)) with
    | none => rfl
    | some z => simp only [Option.map_some, Option.bind_some, fdiv_scale hs, id_eq]

lemma plastMCC_scale (hq1 : U.q = 1) (hh : m.hardening = .expoImpl)
    (hv : m.plastic = .mccVisc → m.useDuvautLions = true ∨ m.viscExponent = 1) (cabs : ℝ → ℝ) (dt : ℝ) (s : Svd d) (t : Trial d)
    (st : PState d) :
    plastMCC cabs (U.material m) (U.time * dt) s t (U.state st) = (plastMCC cabs m dt s t st).map U.state := by
  have hs := U.stress_ne; have hsp := U.stress_pos; have ht := U.time_ne
  have hp : -(U.material m).K d * t.trace = U.stress * (-m.K d * t.trace) := by rw [K_scale]; ring
  have he : (U.material m).eMu = U.stress * m.eMu := by rw [eMu_scale, hq1]; ring
  have hqt : U.stress * m.eMu * t.norm = U.stress * (m.eMu * t.norm) := by ring
  have hM : (U.material m).M = m.M := by
    show U.q * m.M = _
    rw [hq1, one_mul]
  have hpl : (U.material m).plastic = m.plastic := rfl
  have hmi : (U.material m).useMibf = m.useMibf := rfl
  have hdP : (U.material m).dPre = m.dPre := by rw [dPre_scale, hq1, div_one]
  obtain ⟨⟨x, v, pic, fl, F, Bm, tau, e1, e2, e3, dg, vis, mui⟩, h, n, e⟩ := st
  by_cases hu : m.useMibf = true
  all_goals
    simp only [plastMCC, Scales.state, Scales.particle, Option.bind_eq_bind, hM, hpl, hmi, hu, he, hqt, hp, if_true, if_false,
      Bool.false_eq_true, mccReturn_scale U m hh]
    cases mccReturn cabs m d true m.M e2 (-m.K d * t.trace) (m.eMu * t.norm) e with
    | none => rfl
    | some r =>
      obtain ⟨pc, r⟩ := r
      simp only [Option.map_some, Option.bind_some, Prod.map_apply]
      refine ite_conv (f := Option.map U.state) Iff.rfl (fun hd => ?_) (fun _ => rfl)
      have f3 : U.stress * (m.eMu * t.norm) / (U.stress * m.eMu) = m.eMu * t.norm / m.eMu := mul_div_mul_left _ _ hs
      have f4 : -(U.stress * (-m.K d * t.trace)) / (U.stress * m.K d) = -(-m.K d * t.trace) / m.K d := by
        rw [← mul_neg, mul_div_mul_left _ _ hs]
      have f5 : (U.rma r).p = U.stress * r.p := rfl
      have f6 : (U.rma r).q = U.stress * r.q := rfl
      have f7 : (U.rma r).exit = r.exit := rfl
      have f1 : ∀ b y, -b * (U.stress * (-m.K d * t.trace) - U.stress * y) / (U.stress * m.K d) = -b * (-m.K d * t.trace - y) / m.K d := by
        intro b y
        rw [show -b * (U.stress * (-m.K d * t.trace) - U.stress * y) = U.stress * (-b * (-m.K d * t.trace - y)) by ring,
          mul_div_mul_left _ _ hs]
      have f2 : ∀ b qs, b * (U.stress * (m.eMu * t.norm) - U.stress * qs) / (U.stress * m.eMu) = b * (m.eMu * t.norm - qs) / m.eMu := by
        intro b qs
        rw [show b * (U.stress * (m.eMu * t.norm) - U.stress * qs) = U.stress * (b * (m.eMu * t.norm - qs)) by ring,
          mul_div_mul_left _ _ hs]
      simp only [f5, f6, f7]
      by_cases hpv : m.plastic = .mccVisc
      · simp only [hpv, if_true, mccViscous_scale U m hq1 (hv hpv)]
        cases mccViscous m dt (m.eMu * t.norm) r.q r.exit with
        | none => rfl
        | some w =>
          simp only [Option.map_some, Option.bind_some, K_scale, f1, f2, f3, f4, hdP, mccMuI_scale U m hq1 hh]
          first
          | cases mccMuI m d pc _ r.p w.2.1 _ (m.eMu * t.norm) w.1 with
            | none => rfl
            | some z =>
              simp only [Option.bind_some, Option.map_some, Scales.state, Scales.particle, hq1, one_mul, div_div, mul_comm U.time dt]
          | simp only [Option.bind_some, Option.map_some, Scales.state, Scales.particle, hq1, one_mul, div_div, mul_comm U.time dt]
      · simp only [hpv, if_false, Option.map_some, Option.bind_some, K_scale, f1, f2, f3, f4, hdP, mccMuI_scale U m hq1 hh]
        first
        | cases mccMuI m d pc _ r.p r.q _ (m.eMu * t.norm) 1 with
          | none => rfl
          | some z =>
            simp only [Option.bind_some, Option.map_some, Scales.state, Scales.particle, hq1, one_mul, div_div, mul_comm U.time dt]
        | simp only [Option.bind_some, Option.map_some, Scales.state, Scales.particle, hq1, one_mul, div_div, mul_comm U.time dt]

lemma plastMCCMui_scale (hq1 : U.q = 1) (hh : m.hardening = .expoImpl) (cabs : ℝ → ℝ) (dt : ℝ) (s : Svd d) (t : Trial d)
    (st : PState d) :
    plastMCCMui cabs (U.material m) (U.time * dt) s t (U.state st) = (plastMCCMui cabs m dt s t st).map U.state := by
  have hs := U.stress_ne; have hsp := U.stress_pos; have ht := U.time_ne
  have hp : -(U.material m).K d * t.trace = U.stress * (-m.K d * t.trace) := by rw [K_scale]; ring
  have he : (U.material m).eMu = U.stress * m.eMu := by rw [eMu_scale, hq1]; ring
  have hqt : U.stress * m.eMu * t.norm = U.stress * (m.eMu * t.norm) := by ring
  have hf : (U.material m).fMu = U.stress * m.fMu := by rw [fMu_scale, hq1]; ring
  have hmu1 : (U.material m).mu1 = m.mu1 := rfl
  have hmu2 : (U.material m).mu2 = m.mu2 := rfl
  have hb : (U.material m).beta = m.beta := rfl
  have htol : (U.material m).stressTol = U.stress * m.stressTol := rfl
  have hdP : (U.material m).dPre = m.dPre := by rw [dPre_scale, hq1, div_one]
  have hh' : (U.material m).hardening = .expoImpl := hh
  obtain ⟨⟨x, v, pic, fl, F, Bm, tau, e1, e2, e3, dg, vis, mui⟩, h, n, e⟩ := st
  simp only [plastMCCMui, Scales.state, Scales.particle, Option.bind_eq_bind, he, hqt, hp, hmu1, hmu2, mccReturn_scale U m hh, hh, hh', hb, hf,
    hdP]
  cases mccReturn cabs m d false m.mu1 e2 (-m.K d * t.trace) (m.eMu * t.norm) e with
  | none => rfl
  | some r =>
    obtain ⟨pc, r⟩ := r
    simp only [Option.map_some, Option.bind_some, Prod.map_apply]
    refine ite_conv (f := Option.map U.state) Iff.rfl (fun hd => ?_) (fun _ => ?_)
    swap
    · simp [Scales.state, Scales.particle]; rfl
    have f5 : (U.rma r).p = U.stress * r.p := rfl
    have f6 : (U.rma r).q = U.stress * r.q := rfl
    have f7 : (U.rma r).exit = r.exit := rfl
    have f8 : U.stress * r.p / (U.stress * m.K d * d) = r.p / (m.K d * d) := by rw [mul_assoc, mul_div_mul_left _ _ hs]
    simp only [f5, f6, f7, K_scale, f8, htol, ← mul_add, gt_iff_lt, mul_lt_mul_iff_right₀ hsp, expLaw_scale]
    have f9 : U.stress * r.q / (U.stress * m.eMu) = r.q / m.eMu := mul_div_mul_left _ _ hs
    by_cases hgt : r.q + m.stressTol < m.eMu * t.norm
    swap
    · simp only [hgt, if_false, Option.bind_some, f9, Option.map_some, Scales.state, Scales.particle, mul_zero]
    simp only [hgt, if_true, Option.bind_some, max_scale hsp]
    generalize max (m.expLaw (e2 + (t.trace + d * (r.p / (m.K d * d))))) (r.p + m.stressTol) = pc
    have g1 : U.stress * r.p + m.beta * (U.stress * pc) + U.stress * m.stressTol = U.stress * (r.p + m.beta * pc + m.stressTol) := by ring
    rw [g1]
    generalize r.p + m.beta * pc + m.stressTol = S
    have g2 : (U.stress * pc - U.stress * r.p) * (U.stress * S) = U.stress * U.stress * ((pc - r.p) * S) := by ring
    rw [g2, fsqrt_scale hsp]
    have g3 : fsqrt (U.stress * S) = (fsqrt S).map (Real.sqrt U.stress * ·) := by
      unfold fsqrt
      refine ite_conv (f := Option.map (Real.sqrt U.stress * ·)) (neg_scale hsp S) (fun _ => rfl) (fun _ => ?_)
      rw [Option.map_some, Real.sqrt_mul hsp.le]
    rw [g3]
    by_cases hS : S < 0
    · simp [fsqrt, hS]
    have g4 : fsqrt S = some (Real.sqrt S) := by simp [fsqrt, hS]
    rw [g4]
    have g5 : (U.material m).facQ * (Real.sqrt U.stress * Real.sqrt S) = m.facQ * Real.sqrt S / U.time := by
      rw [← Real.sqrt_mul hsp.le, facQ_scale]
    simp only [Option.map_some, Option.bind_some]
    cases hR : fsqrt ((pc - r.p) * S) with
    | none => rfl
    | some R =>
      simp only [Option.map_some, Option.bind_some]
      generalize Real.sqrt S = w at g5 ⊢
      have g6 : U.stress * R * (m.mu2 - m.mu1) + U.stress * m.fMu * (U.time * dt) * (U.material m).facQ * (Real.sqrt U.stress * w) -
          (U.stress * (m.eMu * t.norm) - U.stress * r.q) =
          U.stress * (R * (m.mu2 - m.mu1) + m.fMu * dt * m.facQ * w - (m.eMu * t.norm - r.q)) := by
        rw [mul_assoc _ (U.material m).facQ, g5]; field_simp
      have g7 : -(U.stress * (m.eMu * t.norm) - U.stress * r.q) * (U.material m).facQ * (Real.sqrt U.stress * w) =
          U.stress * (-(m.eMu * t.norm - r.q) * m.facQ * w / U.time) := by
        rw [mul_assoc _ (U.material m).facQ, g5]; ring
      have g8 : U.stress * m.fMu * (U.time * dt) = U.stress * U.time * (m.fMu * dt) := by ring
      rw [g6, g7, g8, posRoot_scale, g5]
      generalize posRoot (m.fMu * dt) (R * (m.mu2 - m.mu1) + m.fMu * dt * m.facQ * w - (m.eMu * t.norm - r.q))
        (-(m.eMu * t.norm - r.q) * m.facQ * w) = g
      have g9 : fdiv (m.facQ * w / U.time) (g / U.time) = fdiv (m.facQ * w) g := by
        rw [div_eq_inv_mul, div_eq_inv_mul, fdiv_scale (inv_ne_zero ht)]
      rw [g9]
      cases fdiv (m.facQ * w) g with
      | none => rfl
      | some z =>
        have g10 : U.stress * U.time * (m.fMu * dt) * (g / U.time) = U.stress * (m.fMu * dt * g) := by field_simp
        have g11 : max (U.stress * r.q) (U.stress * (m.eMu * t.norm) - U.stress * U.time * (m.fMu * dt) * (g / U.time)) =
            U.stress * max r.q (m.eMu * t.norm - m.fMu * dt * g) := by
          rw [g10, ← mul_sub, max_scale hsp]
        have g12 : ∀ x, (U.stress * (m.eMu * t.norm) - U.stress * x) / (U.stress * m.fMu) = (m.eMu * t.norm - x) / m.fMu := by
          intro x; rw [← mul_sub, mul_div_mul_left _ _ hs]
        have g13 : ∀ x, U.stress * x / (U.stress * m.eMu) = x / m.eMu := fun x => mul_div_mul_left _ _ hs
        have g14 : ∀ x, x * (U.stress * R) / (g / U.time) = U.stress * U.time * (x * R / g) := by
          intro x; rw [div_div_eq_mul_div]; ring
        simp only [Option.bind_some, Option.map_some, g11, g12, g13, g14, Scales.state, Scales.particle, hq1, one_mul]
        simp only [div_div, mul_comm U.time dt, mul_assoc]

end mcc

/-! ### all models -/

section all
variable {d : ℕ} (U : Scales) (m : Material)

/-- Which conversions a plastic model goes along with. The unit of length and the unit of volume can always be
changed. -/
def Scales.Fits (m : Material) : Prop :=
  (U.stress = 1 ∧ U.q = 1 ∧ U.time = 1) ∨
  match m.plastic with
  | .noPlasticity | .vm | .dpSoft => True
  | .dp => U.stress = 1 ∧ U.q = 1
  | .vmVisc => m.xi = 0 ∧ m.viscExponent = 1
  | .dpVisc => m.viscExponent = 1 ∧ m.useMibf = false
  | .dpMui => U.time = 1 ∧ U.q = 1
  | .mcc | .mccMui => U.q = 1 ∧ m.hardening = .expoImpl
  | .mccVisc => U.q = 1 ∧ m.hardening = .expoImpl ∧ (m.useDuvautLions = true ∨ m.viscExponent = 1)

lemma plastDP_scale (hs1 : U.stress = 1) (hq1 : U.q = 1) (dt : ℝ) (s : Svd d) (t : Trial d) (st : PState d) :
    plastDP (U.material m) (U.time * dt) s t (U.state st) = U.state (plastDP m dt s t st) := by
  have h1 : (U.material m).K d = m.K d := by rw [K_scale, hs1, one_mul]
  have h2 : (U.material m).eMu = m.eMu := by rw [eMu_scale, hs1, hq1]; ring
  have h3 : (U.material m).dPre = m.dPre := by rw [dPre_scale, hq1, div_one]
  have h4 : (U.material m).M = m.M := by
    show U.q * m.M = _
    rw [hq1, one_mul]
  have h5 : (U.material m).qCohesion = m.qCohesion := by
    show U.q * U.stress * m.qCohesion = _
    rw [hq1, hs1]; ring
  have hr : ∀ x, x / (U.time * dt) = x / dt / (U.q * U.time) := by
    intro x; rw [hq1, one_mul, div_div, mul_comm]
  simp only [plastDP, h1, h2, h3, h4, h5, hr]
  refine ite_conv (f := U.state) Iff.rfl (fun _ => rfl) (fun _ => ?_)
  exact ite_conv (f := U.state) Iff.rfl (fun _ => rfl) (fun _ => rfl)

lemma facQ_same (hs1 : U.stress = 1) (ht1 : U.time = 1) : (U.material m).facQ = m.facQ := by
  have := facQ_scale U m 1
  simpa [hs1, ht1] using this

lemma material_same (hs1 : U.stress = 1) (hq1 : U.q = 1) (ht1 : U.time = 1) :
    U.material m = { m with rhoS := U.dens * m.rhoS, grainDiameter := U.len * m.grainDiameter } := by
  unfold Scales.material
  simp only [hs1, hq1, ht1, one_mul, mul_one, ite_self]

/-- Position, velocities and affine matrix with another unit of length. -/
noncomputable def Scales.kin (st : PState d) : PState d :=
  { st with q := { st.q with
      x := U.len • st.q.x, v := U.len • st.q.v, pic := U.len • st.q.pic, flip := U.len • st.q.flip,
      Bmat := (U.len * U.len) • st.q.Bmat } }

lemma state_same (hs1 : U.stress = 1) (hq1 : U.q = 1) (ht1 : U.time = 1) :
    (U.state : PState d → PState d) = U.kin := by
  funext st
  unfold Scales.state Scales.particle Scales.speed Scales.kin
  simp only [hs1, hq1, ht1, one_mul, mul_one, div_one, one_smul]

lemma plastMCC_kin (cabs : ℝ → ℝ) (m : Material) (dt : ℝ) (s : Svd d) (t : Trial d) (st : PState d) :
    plastMCC cabs m dt s t (U.kin st) = (plastMCC cabs m dt s t st).map U.kin := by
  obtain ⟨⟨x, v, pic, fl, F, Bm, tau, e1, e2, e3, dg, vis, mui⟩, h, n, e⟩ := st
  by_cases hm : m.useMibf = true
  all_goals
    simp only [plastMCC, Scales.kin, Option.bind_eq_bind, hm, if_true, if_false, Bool.false_eq_true]
    cases mccReturn cabs m d true m.M e2 (-m.K d * t.trace) (m.eMu * t.norm) e with
    | none => rfl
    | some r =>
      obtain ⟨pc, r⟩ := r
      simp only [Option.bind_some]
      by_cases hd : r.did = true
      · by_cases hv : m.plastic = .mccVisc
        · simp only [if_pos hd, if_pos hv]
          simp [Option.map_bind, Function.comp_def, Scales.kin]
        · simp only [if_pos hd, if_neg hv]
          simp [Option.map_bind, Function.comp_def, Scales.kin]
      · simp only [if_neg hd]
        rfl

lemma plastMCCMui_kin (cabs : ℝ → ℝ) (m : Material) (dt : ℝ) (s : Svd d) (t : Trial d) (st : PState d) :
    plastMCCMui cabs m dt s t (U.kin st) = (plastMCCMui cabs m dt s t st).map U.kin := by
  obtain ⟨⟨x, v, pic, fl, F, Bm, tau, e1, e2, e3, dg, vis, mui⟩, h, n, e⟩ := st
  simp only [plastMCCMui, Scales.kin, Option.bind_eq_bind]
  cases mccReturn cabs m d false m.mu1 e2 (-m.K d * t.trace) (m.eMu * t.norm) e with
  | none => rfl
  | some r =>
    obtain ⟨pc, r⟩ := r
    simp only [Option.bind_some]
    by_cases hd : r.did = true
    · simp only [if_pos hd]
      by_cases hq : m.eMu * t.norm > r.q + m.stressTol
      · simp only [if_pos hq]
        cases m.hardening <;> simp [Option.map_bind, Function.comp_def, Scales.kin]
      · simp only [if_neg hq]
        rfl
    · simp only [if_neg hd]
      rfl

lemma plastVMVisc_kin (m : Material) (dt : ℝ) (s : Svd d) (t : Trial d) (st : PState d) :
    plastVMVisc m dt s t (U.kin st) = (plastVMVisc m dt s t st).map U.kin := by
  obtain ⟨⟨x, v, pic, fl, F, Bm, tau, e1, e2, e3, dg, vis, mui⟩, h, n, e⟩ := st
  simp only [plastVMVisc, Scales.kin, Option.bind_eq_bind]
  refine ite_conv (f := Option.map U.kin) Iff.rfl (fun _ => rfl) (fun _ => ?_)
  refine ite_conv (f := Option.map U.kin) Iff.rfl (fun _ => ?_) (fun _ => rfl)
  simp only [Option.map_bind, Function.comp_def, Scales.kin, Option.map_some]

lemma plastDPVisc_kin (m : Material) (dt : ℝ) (s : Svd d) (t : Trial d) (st : PState d) :
    plastDPVisc m dt s t (U.kin st) = (plastDPVisc m dt s t st).map U.kin := by
  obtain ⟨⟨x, v, pic, fl, F, Bm, tau, e1, e2, e3, dg, vis, mui⟩, h, n, e⟩ := st
  simp only [plastDPVisc, Scales.kin]
  split_ifs <;> simp [Option.map_bind, Function.comp_def, Scales.kin]

lemma plastMCCMui_same (hs1 : U.stress = 1) (hq1 : U.q = 1) (ht1 : U.time = 1) (cabs : ℝ → ℝ) (dt : ℝ) (s : Svd d) (t : Trial d)
    (st : PState d) : plastMCCMui cabs (U.material m) dt s t st = plastMCCMui cabs m dt s t st := by
  have hf := facQ_same U m hs1 ht1
  rw [material_same U m hs1 hq1 ht1] at hf ⊢
  unfold plastMCCMui
  rw [hf]
  rfl

lemma plastModel_scale (h : U.Fits m) (cabs : ℝ → ℝ) (dt : ℝ) (s : Svd d) (t : Trial d) (st : PState d) :
    plastModel cabs (U.material m) (U.time * dt) s t (U.state st) = (plastModel cabs m dt s t st).map U.state := by
  have hp : (U.material m).plastic = m.plastic := rfl
  rcases h with ⟨hs1, hq1, ht1⟩ | h
  · have hf := facQ_same U m hs1 ht1
    cases hm : m.plastic with
    | noPlasticity =>
      simp only [plastModel, hp, hm]
      exact ite_conv (f := Option.map U.state) Iff.rfl (fun _ => rfl) (fun _ => rfl)
    | vm => simp only [plastModel, hp, hm, Option.map_some, plastVM_scale]
    | dp => simp only [plastModel, hp, hm, Option.map_some, plastDP_scale U m hs1 hq1]
    | dpSoft => simp only [plastModel, hp, hm, Option.map_some, plastDPSoft_scale]
    | dpMui => simp only [plastModel, hp, hm, Option.map_some, plastDPMui_scale U m hq1 ht1]
    | vmVisc =>
      simp only [plastModel, hp, hm]
      rw [state_same U hs1 hq1 ht1, ht1, one_mul, ← plastVMVisc_kin, material_same U m hs1 hq1 ht1]
      rfl
    | dpVisc =>
      simp only [plastModel, hp, hm]
      rw [state_same U hs1 hq1 ht1, ht1, one_mul, ← plastDPVisc_kin, material_same U m hs1 hq1 ht1]
      rfl
    | mccMui =>
      simp only [plastModel, hp, hm]
      rw [state_same U hs1 hq1 ht1, ht1, one_mul, ← plastMCCMui_kin, plastMCCMui_same U m hs1 hq1 ht1]
    | mcc =>
      simp only [plastModel, hp, hm]
      rw [state_same U hs1 hq1 ht1, ht1, one_mul, ← plastMCC_kin, material_same U m hs1 hq1 ht1]
      rfl
    | mccVisc =>
      simp only [plastModel, hp, hm]
      rw [state_same U hs1 hq1 ht1, ht1, one_mul, ← plastMCC_kin, material_same U m hs1 hq1 ht1]
      rfl
  · cases hm : m.plastic with
    | noPlasticity =>
      simp only [plastModel, hp, hm]
      exact ite_conv (f := Option.map U.state) Iff.rfl (fun _ => rfl) (fun _ => rfl)
    | vm => simp only [plastModel, hp, hm, Option.map_some, plastVM_scale]
    | dp => rw [hm] at h; simp only [plastModel, hp, hm, Option.map_some, plastDP_scale U m h.1 h.2]
    | dpSoft => simp only [plastModel, hp, hm, Option.map_some, plastDPSoft_scale]
    | dpMui => rw [hm] at h; simp only [plastModel, hp, hm, Option.map_some, plastDPMui_scale U m h.2 h.1]
    | vmVisc => rw [hm] at h; simp only [plastModel, hp, hm, plastVMVisc_scale U m h.1 h.2]
    | dpVisc => rw [hm] at h; simp only [plastModel, hp, hm, plastDPVisc_scale U m h.1 h.2]
    | mccMui => rw [hm] at h; simp only [plastModel, hp, hm, plastMCCMui_scale U m h.1 h.2]
    | mcc => rw [hm] at h; simp only [plastModel, hp, hm]; exact plastMCC_scale U m h.1 h.2 (fun e => by rw [hm] at e; cases e) _ _ _ _ _
    | mccVisc => rw [hm] at h; simp only [plastModel, hp, hm]; exact plastMCC_scale U m h.1 h.2.1 (fun _ => h.2.2) _ _ _ _ _

lemma henckyTau_scale (A : Matrix (Fin d) (Fin d) ℝ) (h : Fin d → ℝ) (c lam mu : ℝ) :
    henckyTau (c * lam) (c * mu) A h = c • henckyTau lam mu A h := by
  unfold henckyTau
  rw [show (diagonal fun i => c * lam * (∑ j, h j) * 1 + 2 * (c * mu) * h i : Matrix (Fin d) (Fin d) ℝ) =
      c • diagonal fun i => lam * (∑ j, h j) * 1 + 2 * mu * h i by
    rw [← diagonal_smul]; congr 1; funext i; simp only [Pi.smul_apply, smul_eq_mul]; ring]
  rw [Matrix.mul_smul, Matrix.smul_mul]

lemma neoHookeanTau_scale (F : Matrix (Fin d) (Fin d) ℝ) (c lam mu : ℝ) :
    neoHookeanTau (c * lam) (c * mu) F = c • neoHookeanTau lam mu F := by
  unfold neoHookeanTau
  rw [← smul_mul, smul_add, smul_smul, smul_smul, mul_assoc c lam]

lemma newTau_scale (s : Svd d) (h : Fin d → ℝ) (F : Matrix (Fin d) (Fin d) ℝ) :
    newTau (U.material m) s h F = U.stress • newTau m s h F := by
  have he : (U.material m).elastic = m.elastic := rfl
  unfold newTau
  rw [he, lam_scale, mu_scale]
  cases m.elastic with
  | neoHookean => exact neoHookeanTau_scale _ _ _ _
  | hencky => exact henckyTau_scale _ _ _ _ _

lemma plasticity_scale (h : U.Fits m) (cabs : ℝ → ℝ) (svd : Matrix (Fin d) (Fin d) ℝ → Svd d) (dt : ℝ) (p : Particle d ℝ) (e : Bool) :
    plasticity cabs svd (U.material m) (U.time * dt) (U.particle p) e = (plasticity cabs svd m dt p e).map U.state := by
  have hF : (U.particle p).F = p.F := rfl
  simp only [plasticity, hF, Option.bind_eq_bind]
  have := plastModel_scale U m h cabs dt (svd p.F) (mkTrial (svd p.F).hencky) ⟨p, (svd p.F).hencky, 0, e⟩
  have e1 : U.state ⟨p, (svd p.F).hencky, 0, e⟩ = ⟨U.particle p, (svd p.F).hencky, 0, e⟩ := rfl
  rw [e1] at this
  rw [this]
  cases plastModel cabs m dt (svd p.F) (mkTrial (svd p.F).hencky) ⟨p, (svd p.F).hencky, 0, e⟩ with
  | none => rfl
  | some st =>
    simp only [Option.map_some, Option.bind_some, Option.some.injEq, newTau_scale]
    rfl

end all
end Verif
