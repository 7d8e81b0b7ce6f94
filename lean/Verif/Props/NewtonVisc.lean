import Verif.Props.Newton
import Mathlib.Analysis.SpecialFunctions.Pow.Deriv
import Mathlib.Analysis.Calculus.Deriv.Inv
import Mathlib.Analysis.SpecialFunctions.ExpDeriv

set_option linter.unusedSectionVars false
set_option linter.unusedSimpArgs false
set_option linter.unusedVariables false

/-!
# C80: the viscous models solve their flow rule by Newton's method

`flowResidual` (Verif/Lemmas/Visc.lean) is the amount by which a flow rule is violated. `ViscStep` is one Newton step for
a residual `R`, with its derivative `HasDerivAt`; it does not mention the formulas for the derivative in the code.
-/

namespace Verif.Props
open Verif Matrix

variable {d : ℕ}

/-- By how much the flow rule is violated by the plastic increment `g`, if the yield stress is then `qy g`. -/
noncomputable def viscResid (m : Material) (dt qT : ℝ) (qy : ℝ → ℝ) (g : ℝ) : ℝ :=
  flowResidual m (qy g) (qT - m.fMu * g) (g / dt)

/-- One Newton step for `R`: a slope below `1e-14` in absolute value is replaced by `1e-14` with the same sign, a
negative new value by `1e-10`. -/
def ViscStep (R : ℝ → ℝ) (g g' : ℝ) : Prop :=
  ∃ S S', HasDerivAt R S g ∧ (1e-14 ≤ |S| → S' = S) ∧ (|S| < 1e-14 → 0 ≤ S → S' = 1e-14) ∧
    (|S| < 1e-14 → S < 0 → S' = -1e-14) ∧
    (0 ≤ g - R g / S' → g' = g - R g / S') ∧ (g - R g / S' < 0 → g' = 1e-10)

/-- The solver: at most 60 passes from the given start until the residual is below `1e-2`. `flag` tells whether an
error is reported: this happens in the last pass, also if the residual is small then. -/
def ViscSolved (R : ℝ → ℝ) (start g : ℝ) (flag : Bool) : Prop :=
  ∃ n ≤ 60, Reached (ViscStep R) (fun _ g => |R g| < 1e-2) start n g ∧ (n < 60 → |R g| < 1e-2) ∧
    flag = decide (59 ≤ n)

lemma newtonLoop_trace {R : ℝ → ℝ} {resid diff : ℝ → Option ℝ}
    (hR : ∀ g, 0 ≤ g → ∀ v, resid g = some v → v = R g)
    (hD : ∀ g, 0 ≤ g → ∀ S, diff g = some S → HasDerivAt R S g) :
    ∀ (n : ℕ) (g : ℝ) (e : Bool) (r : ℝ × Bool), 0 ≤ g → newtonLoop resid diff n g e = some r →
      ∃ k ≤ n, Reached (ViscStep R) (fun _ g => |R g| < 1e-2) g k r.1 ∧ (k < n → |R r.1| < 1e-2) ∧
        r.2 = (e || decide (1 ≤ n ∧ n ≤ k + 1)) := by
  intro n
  induction n with
  | zero =>
    intro g e r h0 h
    rw [newtonLoop, Option.some.injEq] at h
    subst h
    exact ⟨0, le_rfl, Reached.refl _ _ _, fun h => absurd h (lt_irrefl _), by simp⟩
  | succ n ih =>
    intro g e r h0 h
    simp only [newtonLoop, Option.bind_eq_bind, Option.bind_eq_some_iff] at h
    obtain ⟨v, hv, h⟩ := h
    obtain rfl := hR g h0 v hv
    by_cases hc : |R g| < 1e-2
    · rw [if_pos hc, Option.some.injEq] at h
      subst h
      refine ⟨0, Nat.zero_le _, Reached.refl _ _ _, fun _ => hc, ?_⟩
      congr 1
      cases n <;> simp
    · rw [if_neg hc] at h
      obtain ⟨S, hS, h⟩ := Option.bind_eq_some_iff.mp h
      obtain ⟨k, hk, h1, h2, h3⟩ := ih _ _ _ (clamp_nonneg _) h
      refine ⟨k + 1, by omega, Reached.cons hc ?_ h1, fun hl => h2 (by omega), ?_⟩
      · refine ⟨S, if |S| < 1e-14 then (if S ≥ 0 then 1e-14 else -1e-14) else S, hD g h0 S hS, fun h => if_neg (not_lt.mpr h), fun h h' => ?_, fun h h' => ?_, fun h => ?_, fun h => ?_⟩
        · rw [if_pos h, if_pos h']
        · rw [if_pos h, if_neg (not_le.mpr h')]
        · exact if_neg (not_lt.mpr h)
        · exact if_pos h
      · rw [h3, Bool.or_assoc]
        congr 1
        cases n with
        | zero => simp
        | succ n => simp

lemma pow_deriv {c g n : ℝ} (hc : 0 ≤ c) (hg : 0 ≤ g) (hn : 0 ≤ n) (h0 : ¬ (g = 0 ∧ n - 1 < 0)) :
    HasDerivAt (fun g : ℝ => (c * g) ^ n) (c ^ n * n * g ^ (n - 1)) g := by
  rcases hc.eq_or_lt with rfl | hc
  · have : (0 : ℝ) ^ n * n = 0 := by
      rcases hn.eq_or_lt with rfl | hn
      · simp
      · rw [Real.zero_rpow hn.ne', zero_mul]
    simp only [zero_mul, this]
    exact hasDerivAt_const _ _
  · have h1 : HasDerivAt (fun g : ℝ => c * g) c g := by simpa using (hasDerivAt_id g).const_mul c
    have h2 : c * g ≠ 0 ∨ 1 ≤ n := by
      by_cases hz : g = 0
      · right
        by_contra hcon
        exact h0 ⟨hz, by linarith⟩
      · left; positivity
    refine (h1.rpow_const h2).congr_deriv ?_
    rw [Real.mul_rpow hc.le hg]
    have : c ^ n = c ^ (n - 1) * c := by
      conv_lhs => rw [show n = (n - 1) + 1 by ring]
      rw [Real.rpow_add hc, Real.rpow_one]
    rw [this]; ring

lemma fpow_dom {x y v : ℝ} (h : fpow x y = some v) : ¬ (x < 0 ∨ x = 0 ∧ y < 0) := by
  unfold fpow at h
  split_ifs at h with h1
  exact h1

lemma residDL_deriv {m : Material} {dt qT : ℝ} {qy qyd : ℝ → ℝ} (hdl : m.useDuvautLions = true)
    (hτ : 0 ≤ m.viscTime) (hn : 0 ≤ m.viscExponent) (hdt : 0 < dt) (hq : ∀ g, HasDerivAt qy (qyd g) g)
    {g S : ℝ} (hg : 0 ≤ g) (h : residDiffDL m dt qyd g = some S) : HasDerivAt (viscResid m dt qT qy) S g := by
  simp only [residDiffDL, Option.bind_eq_bind, Option.bind_eq_some_iff, Option.some.injEq] at h
  obtain ⟨a, ha, b, hb, rfl⟩ := h
  have hd := fpow_dom hb
  obtain rfl := fpow_eq_some ha
  obtain rfl := fpow_eq_some hb
  have e : viscResid m dt qT qy = fun g =>
      qT - m.fMu * g - qy g - m.fMu * (m.viscTime / dt * g) ^ m.viscExponent := by
    funext x
    simp only [viscResid, flowResidual, hdl, if_true]
    congr 3
    ring
  rw [e]
  have h1 : HasDerivAt (fun g : ℝ => qT - m.fMu * g) (-m.fMu) g := by
    simpa using ((hasDerivAt_id g).const_mul m.fMu).const_sub qT
  have h2 := pow_deriv (c := m.viscTime / dt) (by positivity) hg hn (fun h => hd (Or.inr h))
  exact ((h1.sub (hq g)).sub (h2.const_mul m.fMu)).congr_deriv (by ring)

lemma residPerzyna_deriv {m : Material} {dt qT : ℝ} {qy qyd : ℝ → ℝ} (hdl : m.useDuvautLions = false)
    (hτ : 0 ≤ m.viscTime) (hdt : 0 < dt) (hq : ∀ g, HasDerivAt qy (qyd g) g)
    {g S : ℝ} (hg : 0 ≤ g) (h : residDiffPerzyna m dt qT qyd g = some S) : HasDerivAt (viscResid m dt qT qy) S g := by
  simp only [residDiffPerzyna, Option.bind_eq_bind, Option.bind_eq_some_iff, Option.some.injEq] at h
  obtain ⟨a, ha, b, hb, c, hc, r, hr, rfl⟩ := h
  obtain ⟨htm, rfl⟩ := fdiv_eq_some ha
  obtain rfl := fpow_eq_some hb
  obtain rfl := fpow_eq_some hc
  obtain ⟨-, rfl⟩ := fdiv_eq_some hr
  have hpos : 0 < m.viscTime * g + dt := by positivity
  have e : viscResid m dt qT qy = fun g =>
      (qT - m.fMu * g) * (dt / (m.viscTime * g + dt)) ^ m.viscExponent - qy g := by
    funext x
    simp only [viscResid, flowResidual, hdl, Bool.false_eq_true, if_false]
    congr 3
    rw [show 1 + m.viscTime * (x / dt) = (m.viscTime * x + dt) / dt by field_simp; ring, one_div_div]
  rw [e]
  have h1 : HasDerivAt (fun g : ℝ => qT - m.fMu * g) (-m.fMu) g := by
    simpa using ((hasDerivAt_id g).const_mul m.fMu).const_sub qT
  have h2 : HasDerivAt (fun g : ℝ => m.viscTime * g + dt) m.viscTime g := by
    simpa using ((hasDerivAt_id g).const_mul m.viscTime).add_const dt
  have h3 : HasDerivAt (fun g : ℝ => dt / (m.viscTime * g + dt)) (-(dt * m.viscTime) / (m.viscTime * g + dt) ^ 2) g := by
    exact ((hasDerivAt_const g dt).div h2 htm).congr_deriv (by ring)
  have h4 := h3.rpow_const (p := m.viscExponent) (Or.inl (by positivity : dt / (m.viscTime * g + dt) ≠ 0))
  refine ((h1.mul h4).sub (hq g)).congr_deriv ?_
  ring

/-- The increment of the viscous models is computed by Newton's method. -/
lemma viscIncrement_trace {m : Material} (hf : 0 < m.fMu) (hτ : 0 ≤ m.viscTime) (hn : 0 ≤ m.viscExponent)
    {dt : ℝ} (hdt : 0 < dt) {qT y : ℝ} (hqt : y ≤ qT) {qy qyd : ℝ → ℝ} (hq : ∀ g, HasDerivAt qy (qyd g) g)
    {exit : Bool} {r : ℝ × Bool} (h : viscIncrement m dt false qT y qy qyd exit = some r) :
    ∃ flag, ViscSolved (viscResid m dt qT qy) (0.01 * (qT - y) / m.fMu) r.1 flag ∧ r.2 = (exit || flag) := by
  unfold viscIncrement at h
  have h0 : 0 ≤ 0.01 * (qT - y) / m.fMu := by
    have : 0 ≤ qT - y := by linarith
    positivity
  simp only [Bool.false_eq_true, if_false] at h
  have key : ∃ k ≤ 60, Reached (ViscStep (viscResid m dt qT qy)) (fun _ g => |viscResid m dt qT qy g| < 1e-2)
      (0.01 * (qT - y) / m.fMu) k r.1 ∧ (k < 60 → |viscResid m dt qT qy r.1| < 1e-2) ∧
        r.2 = (exit || decide (1 ≤ 60 ∧ 60 ≤ k + 1)) := by
    cases hdl : m.useDuvautLions with
    | true =>
      rw [if_pos hdl] at h
      refine newtonLoop_trace (fun g hg v hv => ?_) (fun g hg S hS => residDL_deriv hdl hτ hn hdt hq hg hS) _ _ _ _ h0 h
      have : 0 ≤ m.viscTime / dt * g := by positivity
      rw [residDL_eq this hn, Option.some.injEq] at hv
      rw [← hv]
      simp only [viscResid, flowResidual, hdl, if_true]
      rw [show m.viscTime / dt * g = m.viscTime * (g / dt) by ring]
      ring
    | false =>
      rw [if_neg (by simp [hdl])] at h
      refine newtonLoop_trace (fun g hg v hv => ?_) (fun g hg S hS => residPerzyna_deriv hdl hτ hdt hq hg hS) _ _ _ _ h0 h
      have : 0 ≤ m.viscTime / dt * g := by positivity
      rw [residPerzyna_eq hdt (by positivity), Option.some.injEq] at hv
      rw [← hv]
      simp only [viscResid, flowResidual, hdl, Bool.false_eq_true, if_false]
      rw [show 1 + m.viscTime * (g / dt) = (m.viscTime * g + dt) / dt by field_simp; ring, one_div_div]
  obtain ⟨k, hk, h1, h2, h3⟩ := key
  refine ⟨decide (59 ≤ k), ⟨k, hk, h1, h2, rfl⟩, ?_⟩
  rw [h3]
  congr 1
  simp

lemma vmYield_deriv (m : Material) (eps : ℝ) (g : ℝ) :
    HasDerivAt (fun g => vmYield m (eps + 1 / m.dPre * g))
      (-m.xi / m.dPre * (m.qMax - m.qMin) * Real.exp (-m.xi * (eps + 1 / m.dPre * g))) g := by
  unfold vmYield
  have h1 : HasDerivAt (fun g : ℝ => -m.xi * (eps + 1 / m.dPre * g)) (-m.xi * (1 / m.dPre)) g := by
    simpa using (((hasDerivAt_id g).const_mul (1 / m.dPre)).const_add eps).const_mul (-m.xi)
  exact ((h1.exp.const_mul (m.qMax - m.qMin)).const_add m.qMin).congr_deriv (by ring)

/-- **C80** Viscous von Mises with softening or an exponent other than one. The plastic increment (the rate in the
particle files times the time step) is what Newton's method for the flow rule yields, with the yield stress after the
increment. -/
theorem C80_vonMises {cabs} {svd : Matrix (Fin d) (Fin d) ℝ → Svd d} {m : Material} (ok : MatOk m d)
    (hm : m.plastic = .vmVisc) (hnc : ¬ (m.viscExponent = 1 ∧ m.xi = 0)) (hn : 0 ≤ m.viscExponent)
    (hτ : 0 ≤ m.viscTime) {dt : ℝ} (hdt : 0 < dt) (q : Particle d ℝ) (exit : Bool)
    (hs : IsSvd q.F (svd q.F)) (hcap : m.pMin * Real.exp (-m.xi * q.epsPlVol) ≤ trialP m (svd q.F))
    (hplast : vmYield m q.epsPlDev < trialQ m (svd q.F)) {out : PState d}
    (h : plasticity cabs svd m dt q exit = some out) :
    ∃ flag, ViscSolved (viscResid m dt (trialQ m (svd q.F)) fun g => vmYield m (q.epsPlDev + m.qPrefac * g))
      (0.01 * (trialQ m (svd q.F) - vmYield m q.epsPlDev) / m.fMu) (out.q.deltaGamma * dt) flag ∧
      out.exit = (exit || flag) := by
  obtain ⟨hP, hQ⟩ := trial_eq ok hs
  rw [hP] at hcap
  rw [hQ] at hplast ⊢
  obtain ⟨st, hst, rfl⟩ := plasticity_some.mp h
  simp only [plastModel, hm, plastVMVisc, if_neg (not_lt.mpr hcap)] at hst
  rw [if_pos (show m.eMu * (mkTrial (svd q.F).hencky).norm >
    m.qMin + (m.qMax - m.qMin) * Real.exp (-m.xi * q.epsPlDev) from hplast)] at hst
  simp only [decide_eq_false hnc, Option.bind_eq_bind, Option.bind_eq_some_iff, Option.some.injEq] at hst
  obtain ⟨r, hr, rfl⟩ := hst
  have hpre : m.qPrefac = 1 / m.dPre := by unfold Material.dPre; rw [one_div_one_div]
  have hg : r.1 / dt * dt = r.1 := by field_simp
  simp only [hg, hpre]
  exact viscIncrement_trace ok.fMu_pos hτ hn hdt hplast.le (qy := fun g => vmYield m (q.epsPlDev + 1 / m.dPre * g))
    (vmYield_deriv m q.epsPlDev) hr

/-- **C80** Viscous Drucker-Prager with an exponent other than one: the yield stress is fixed by the pressure. -/
theorem C80_druckerPrager {cabs} {svd : Matrix (Fin d) (Fin d) ℝ → Svd d} {m : Material} (ok : MatOk m d)
    (hm : m.plastic = .dpVisc) (hnc : m.viscExponent ≠ 1) (hn : 0 ≤ m.viscExponent)
    (hM : 0 < m.M) (hτ : 0 ≤ m.viscTime) {dt : ℝ} (hdt : 0 < dt) (q : Particle d ℝ) (exit : Bool)
    (hs : IsSvd q.F (svd q.F)) {P Q S Y : ℝ} (hPd : P = trialP m (svd q.F)) (hQd : Q = trialQ m (svd q.F))
    (hSd : S = pressureShift m d q) (hYd : Y = m.M * (P + S) + m.qCohesion)
    (htip : -m.qCohesion / m.M < P + S) (hplast : Y < Q) {out : PState d}
    (h : plasticity cabs svd m dt q exit = some out) :
    ∃ flag, ViscSolved (viscResid m dt Q fun _ => Y) (0.01 * (Q - Y) / m.fMu) (out.q.deltaGamma * dt) flag ∧
      out.exit = (exit || flag) := by
  obtain ⟨hP, hQ⟩ := trial_eq ok hs
  rw [← hPd] at hP
  rw [← hQd] at hQ
  have hS' : (if m.usePradhana = true then -m.K d * q.epsPlVolPradhana else 0) = S := hSd.symm
  obtain ⟨st, hst, rfl⟩ := plasticity_some.mp h
  simp only [plastModel, hm, plastDPVisc, ite_muI, hS', ← hP, ← hQ, ← hYd, if_neg (not_lt.mpr htip.le)] at hst
  rw [if_pos ⟨htip, hplast⟩] at hst
  simp only [decide_eq_false hnc, Option.bind_eq_bind, Option.bind_eq_some_iff, Option.some.injEq] at hst
  obtain ⟨r, hr, rfl⟩ := hst
  have hg : r.1 / dt * dt = r.1 := by field_simp
  simp only [hg]
  exact viscIncrement_trace ok.fMu_pos hτ hn hdt hplast.le (qy := fun _ => Y) (fun g => hasDerivAt_const g Y) hr

/-- **C80** Viscous Cam-Clay with the Perzyna law and an exponent other than one: the yield stress is the shear stress
on the ellipse to which the rate-independent model maps. -/
theorem C80_camClay {cabs} {svd : Matrix (Fin d) (Fin d) ℝ → Svd d} {m : Material} (ok : MatOk m d)
    (cam : CamOk m) (hm : m.plastic = .mccVisc) (hM : 0 ≤ m.M) (hτ : 0 ≤ m.viscTime)
    (hn : 0 ≤ m.viscExponent) (hnc : m.viscExponent ≠ 1) (hdl : m.useDuvautLions = false) {dt : ℝ} (hdt : 0 < dt)
    (q : Particle d ℝ) (exit : Bool) (hs : IsSvd q.F (svd q.F)) {out : PState d}
    (h : plasticity cabs svd m dt q exit = some out) {P Q : ℝ} (hPd : P = trialP m (svd q.F))
    (hQd : Q = trialQ m (svd q.F)) (hQ0 : 0 < Q)
    (hout : OutsideEllipse m.M (hardeningPc m d q.epsPlVol) m.beta P Q) :
    ∃ qy, Returned m d m.M q.epsPlVol P Q (newP out) qy ∧ (qy ≤ Q →
      ∃ g flag, ViscSolved (viscResid m dt Q fun _ => qy) (0.01 * (Q - qy) / m.fMu) g flag ∧
        newQ m out = max qy (Q - m.fMu * g) ∧ (flag = true → out.exit = true) ∧
        (isImplicit m.hardening = false → out.exit = (exit || flag))) := by
  obtain ⟨hP, hQ⟩ := trial_eq ok hs
  rw [← hPd] at hP
  rw [← hQd] at hQ
  have he := ok.eMu_pos
  have hf := ok.fMu_pos
  obtain ⟨st, h1, rfl⟩ := plasticity_some.mp h
  simp only [plastModel, hm] at h1
  obtain ⟨pc?, r, hr, h1⟩ := plastMCC_shape h1
  rw [← hP, ← hQ] at hr
  simp only [newP, newQ, newTau_hencky ok.hel]
  rcases mccReturn_spec cam ok.hK hM hr with ⟨d1, d2, -⟩ | ⟨d1, d2⟩
  · exact absurd hout d2
  rcases h1 with ⟨h1, -⟩ | ⟨-, b, qs, e, muI, hv, rfl⟩
  · rw [d1] at h1; simp at h1
  simp only [hm, if_true] at hv
  rw [← hQ] at hv
  have hq0 : 0 ≤ r.q := by obtain ⟨-, pc, -, ⟨a, -⟩, -⟩ := d2; exact a
  have hnorm : 0 < (mkTrial (svd q.F).hencky).norm := by
    rw [hQ] at hQ0; exact (mul_pos_iff_of_pos_left he).mp hQ0
  have hexit : isImplicit m.hardening = false → r.exit = exit := by
    intro hh
    unfold mccReturn at hr
    cases hc : m.hardening <;>
      simp only [hc, Option.bind_eq_bind, isImplicit, reduceCtorEq, Bool.true_eq_false, if_true,
        Option.bind_eq_some_iff, Option.some.injEq, Prod.mk.injEq] at hr hh
    all_goals
      obtain ⟨w, hw, -, rfl⟩ := hr
      rcases C40_explicit hM cam.beta (by first | exact cam.p0 | exact lt_of_lt_of_le cam.tol (le_max_left _ _)) hw with h | h
      · exact h.2.2.2.2
      · exact h.2.2.2
  simp only [mccDone]
  obtain ⟨rfl, v2, -⟩ := mccViscous_perzyna hdl hf hτ hn hdt hq0 hv
  obtain ⟨s1, s2, s3, s4⟩ := saved_mcc ok hs.orthU (svd q.F).hencky (hq0.trans v2) (p := r.p)
  rw [s1, s3 hnorm]
  refine ⟨r.q, d2, fun hle => ?_⟩
  simp only [mccViscous, hdl, Bool.false_eq_true, if_false, if_neg hnc, Option.bind_eq_bind,
    Option.bind_eq_some_iff] at hv
  obtain ⟨w, hw, hv⟩ := hv
  simp only [Option.some.injEq, Prod.mk.injEq] at hv
  obtain ⟨-, v3, v4⟩ := hv
  obtain ⟨flag, hsol, hfl⟩ := viscIncrement_trace (m := m) (qy := fun _ => r.q) (qyd := fun _ => 0) (y := r.q)
    (exit := r.exit) (r := w) hf hτ hn hdt hle
    (fun g => hasDerivAt_const g _) (by unfold viscIncrement; simpa only [hdl, Bool.false_eq_true, if_false] using hw)
  refine ⟨w.1, flag, hsol, v3.symm, fun hfl' => ?_, fun hh => ?_⟩
  · rw [← v4, hfl, hfl', Bool.or_true]
  · rw [← v4, hfl, hexit hh]

/-- Exponent two, shear stress 51/200, yield stress 1/4. -/
example : ∃ out flag, plasticity abs (Ex.svd (51 / 200) 0) { Ex.mat .vmVisc with viscExponent := 2 } 1
      (Ex.part (51 / 200) 0) false = some out ∧
      ViscSolved (viscResid { Ex.mat .vmVisc with viscExponent := 2 } 1 (51 / 200) fun _ => 1 / 4)
        (0.01 * (51 / 200 - 1 / 4)) out.q.deltaGamma flag ∧ out.exit = flag := by
  set m : Material := { Ex.mat .vmVisc with viscExponent := 2 } with hm
  have ok : MatOk m 2 := ⟨(Ex.mat_ok .vmVisc).hd, (Ex.mat_ok .vmVisc).hK, (Ex.mat_ok .vmVisc).hmu,
    (Ex.mat_ok .vmVisc).hq, rfl⟩
  have hs := Ex.isSvd (51 / 200) 0
  obtain ⟨e1, e2⟩ := ex_trial .vmVisc (a := 51 / 200) (b := 0) (by norm_num) (by norm_num) _ hs
  change trialP m _ = _ at e1
  change trialQ m _ = _ at e2
  rw [abs_of_pos (by norm_num), sub_zero] at e2
  have hxi : m.xi = 0 := rfl
  have hf : m.fMu = 1 := Ex.mat_fMu .vmVisc
  have hy : ∀ e, vmYield m e = 1 / 4 := by intro e; rw [vmYield, hxi]; norm_num [hm, Ex.mat]
  obtain ⟨out, ho⟩ := C51_defined (cabs := abs) (svd := Ex.svd (51 / 200) 0) ok (Or.inl rfl)
    (by norm_num [hm]) (by norm_num [hm, Ex.mat]) one_pos (Ex.part (51 / 200) 0) false
  obtain ⟨flag, h1, h2⟩ := C80_vonMises ok rfl (by simp [hm]) (by norm_num [hm]) (by norm_num [hm, Ex.mat]) one_pos _ _
    hs (by rw [e1, hxi]; norm_num [hm, Ex.mat]) (by rw [e2, hy]; norm_num) ho
  simp only [hy, e2, hf, div_one, mul_one] at h1
  exact ⟨out, flag, ho, h1, by simpa using h2⟩

end Verif.Props
