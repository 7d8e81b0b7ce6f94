import Verif.Props.CamClay
import Verif.Props.Mui

set_option linter.unusedSectionVars false
set_option linter.unusedSimpArgs false
set_option linter.unusedVariables false

/-!
# C41 end to end; C40 and C51 for the viscous and mu(I) Cam-Clay models
-/

namespace Verif.Props
open Verif Matrix

variable {d : ℕ}

/-- Implicit hardening laws as functions of the plastic volumetric strain. -/
lemma hardeningPc_expo {m : Material} (hh : m.hardening = .expoImpl) (eps : ℝ) :
    hardeningPc m d eps = m.p0 * Real.exp (-m.xi * eps) := by simp only [hardeningPc, hh]

lemma hardeningPc_sinh {m : Material} (hh : m.hardening = .sinhImpl) (eps : ℝ) :
    hardeningPc m d eps =
      max 0.01 (m.K d * Real.sinh (-m.xi * eps + Real.arsinh (m.p0 / m.K d))) := by
  simp only [hardeningPc, hh]

/-- **C41** Implicit Cam-Clay with the stress corrected and some shear stress left: the new stress is on the
ellipse of the hardening law at the *new* plastic volumetric strain. -/
theorem C41_implicit {cabs} {svd : Matrix (Fin d) (Fin d) ℝ → Svd d} {m : Material} (ok : MatOk m d)
    (cam : CamOk m) (hm : m.plastic = .mcc) (hh : isImplicit m.hardening = true) (hM : 0 ≤ m.M) (dt : ℝ)
    (q : Particle d ℝ) (exit : Bool)
    (hs : IsSvd q.F (svd q.F)) {out : PState d} (h : plasticity cabs svd m dt q exit = some out)
    (hout : OutsideEllipse m.M (hardeningPc m d q.epsPlVol) m.beta (trialP m (svd q.F)) (trialQ m (svd q.F)))
    (hq : 0 < newQ m out) :
    OnEllipse m.M (hardeningPc m d out.q.epsPlVol) m.beta (newP out) (newQ m out) := by
  rcases C40_camClay ok cam hm hM dt q exit hs h with ⟨hc, -⟩ | ⟨qy, ⟨-, pc, hpc, hell, hl⟩, h1, h2, h3, h4, -⟩
  · exact absurd hout hc
  · have hQ0 : 0 ≤ trialQ m (svd q.F) := by
      rw [(trial_eq ok hs).2]; exact mul_nonneg ok.eMu_pos.le (mkTrial_norm_nonneg _)
    have hQp : 0 < trialQ m (svd q.F) := by
      rcases hQ0.lt_or_eq with h | h
      · exact h
      · have := h2 h.symm; linarith
    have hqy := h1 hQp
    rcases hl with ⟨hl, -⟩ | ⟨-, hl⟩ | ⟨-, hl⟩
    · rw [hh] at hl; simp at hl
    · rw [h4, hqy, ← hl]; exact hell
    · have := hl.1; rw [hqy] at hq; linarith

/-- Exponential and sinh law written out. -/
theorem C41_exponential {cabs} {svd : Matrix (Fin d) (Fin d) ℝ → Svd d} {m : Material} (ok : MatOk m d)
    (cam : CamOk m) (hm : m.plastic = .mcc) (hh : m.hardening = .expoImpl) (hM : 0 ≤ m.M) (dt : ℝ)
    (q : Particle d ℝ) (exit : Bool)
    (hs : IsSvd q.F (svd q.F)) {out : PState d} (h : plasticity cabs svd m dt q exit = some out)
    (hout : OutsideEllipse m.M (m.p0 * Real.exp (-m.xi * q.epsPlVol)) m.beta
      (trialP m (svd q.F)) (trialQ m (svd q.F))) (hq : 0 < newQ m out) :
    OnEllipse m.M (m.p0 * Real.exp (-m.xi * out.q.epsPlVol)) m.beta (newP out) (newQ m out) := by
  rw [← hardeningPc_expo (d := d) hh] at hout ⊢
  exact C41_implicit ok cam hm (by rw [hh]; rfl) hM dt q exit hs h hout hq

theorem C41_sinh {cabs} {svd : Matrix (Fin d) (Fin d) ℝ → Svd d} {m : Material} (ok : MatOk m d)
    (cam : CamOk m) (hm : m.plastic = .mcc) (hh : m.hardening = .sinhImpl) (hM : 0 ≤ m.M) (dt : ℝ)
    (q : Particle d ℝ) (exit : Bool)
    (hs : IsSvd q.F (svd q.F)) {out : PState d} (h : plasticity cabs svd m dt q exit = some out)
    (hout : OutsideEllipse m.M
      (max 0.01 (m.K d * Real.sinh (-m.xi * q.epsPlVol + Real.arsinh (m.p0 / m.K d)))) m.beta
      (trialP m (svd q.F)) (trialQ m (svd q.F))) (hq : 0 < newQ m out) :
    OnEllipse m.M (max 0.01 (m.K d * Real.sinh (-m.xi * out.q.epsPlVol + Real.arsinh (m.p0 / m.K d))))
      m.beta (newP out) (newQ m out) := by
  rw [← hardeningPc_sinh hh] at hout ⊢
  exact C41_implicit ok cam hm (by rw [hh]; rfl) hM dt q exit hs h hout hq

/-! ### Viscous Cam-Clay -/

lemma mccViscous_DL {m : Material} (hdl : m.useDuvautLions = true) {dt qt qy : ℝ} {e e' : Bool} {b qs : ℝ}
    (h : mccViscous m dt qt qy e = some (b, qs, e')) :
    b = 1 / (1 + m.viscTime / dt) ∧ qs = qy ∧ e' = (e || decide (m.viscExponent ≠ 1)) := by
  simp only [mccViscous, hdl, if_true, Option.some.injEq, Prod.mk.injEq] at h
  exact ⟨h.1.symm, h.2.1.symm, h.2.2.symm⟩

lemma mccViscous_perzyna {m : Material} (hdl : m.useDuvautLions = false) (hf : 0 < m.fMu) (hτ : 0 ≤ m.viscTime)
    (hn : 0 ≤ m.viscExponent) {dt qt qy : ℝ} (hdt : 0 < dt) (hqy : 0 ≤ qy) {e e' : Bool} {b qs : ℝ}
    (h : mccViscous m dt qt qy e = some (b, qs, e')) :
    b = 1 ∧ qy ≤ qs ∧
      (m.viscExponent = 1 → (qy ≤ qt → FlowEq m qy qs ((qt - qs) / m.fMu / dt)) ∧ (qt < qy → qs = qy)) ∧
      (m.viscExponent ≠ 1 → e' = false → e = false ∧ ∃ g, qs = max qy (qt - m.fMu * g) ∧
        (qy ≤ qt → 0 ≤ g ∧ |flowResidual m qy (qt - m.fMu * g) (g / dt)| < 1e-2)) := by
  by_cases hexp : m.viscExponent = 1
  · simp only [mccViscous, hdl, Bool.false_eq_true, if_false, hexp, if_true, Option.bind_eq_bind] at h
    have hq : 0 ≤ qy * m.viscTime / dt := by positivity
    have hD : 0 < m.fMu + qy * m.viscTime / dt := by positivity
    rw [fdiv_of_pos hD, Option.bind_some] at h
    simp only [Option.bind_some, Option.some.injEq, Prod.mk.injEq] at h
    obtain ⟨h1, h2, -⟩ := h
    set D := m.fMu + qy * m.viscTime / dt with hDd
    refine ⟨h1.symm, ?_, fun _ => ⟨fun hle => ?_, fun hlt => ?_⟩, fun hne => absurd hexp hne⟩
    · rw [← h2]; exact le_max_left _ _
    · have hg0 : ¬ (qt - qy) / D < 0 := not_lt.mpr (div_nonneg (by linarith) hD.le)
      rw [if_neg hg0] at h2
      simp only at h2
      set g := (qt - qy) / D with hg
      have hgD : g * D = qt - qy := by rw [hg]; field_simp
      have hmul : g * D = g * m.fMu + g * (qy * m.viscTime / dt) := by rw [hDd]; ring
      have hg0' : 0 ≤ g := not_lt.mp hg0
      have hz : 0 ≤ g * (qy * m.viscTime / dt) := mul_nonneg hg0' hq
      have hqs : qs = qt - m.fMu * g := by
        rw [← h2]; apply max_eq_right; linarith
      have hrate : (qt - qs) / m.fMu / dt = g / dt := by rw [hqs]; field_simp; ring
      rw [hrate]
      unfold FlowEq
      rw [hdl]
      simp only [Bool.false_eq_true, if_false]
      have e : qy * (1 + m.viscTime * (g / dt)) = qy + g * (qy * m.viscTime / dt) := by ring
      rw [e, hqs]; linarith
    · have hg0 : (qt - qy) / D < 0 := div_neg_of_neg_of_pos (by linarith) hD
      rw [if_pos hg0] at h2
      rw [← h2]
      apply max_eq_left
      split_ifs
      · simp only [mul_zero, sub_zero]; exact hlt.le
      · simp only
        set g := (qt - qy) / D with hg
        have hgD : g * D = qt - qy := by rw [hg]; field_simp
        have hmul : g * D = g * m.fMu + g * (qy * m.viscTime / dt) := by rw [hDd]; ring
        have hz : g * (qy * m.viscTime / dt) ≤ 0 := mul_nonpos_of_nonpos_of_nonneg hg0.le hq
        linarith
  · simp only [mccViscous, hdl, Bool.false_eq_true, if_false, if_neg hexp, Option.bind_eq_bind,
      Option.bind_eq_some_iff] at h
    obtain ⟨r, hr, h⟩ := h
    simp only [Option.some.injEq, Prod.mk.injEq] at h
    obtain ⟨h1, h2, h3⟩ := h
    refine ⟨h1.symm, ?_, fun h => absurd h hexp, fun _ he => ?_⟩
    · rw [← h2]; exact le_max_left _ _
    · obtain ⟨n1, n2, n3, -⟩ := newtonLoop_spec hr (h3.trans he)
      refine ⟨n1, r.1, h2.symm, fun hle => ?_⟩
      have h0 : 0 ≤ 0.01 * (qt - qy) / m.fMu := by
        have : 0 ≤ qt - qy := by linarith
        positivity
      have hg := n3 h0
      obtain ⟨v, hv, hb⟩ := n2 (by norm_num)
      rw [residPerzyna_eq hdt (by positivity), Option.some.injEq] at hv
      refine ⟨hg, ?_⟩
      unfold flowResidual
      rw [hdl]
      simp only [Bool.false_eq_true, if_false]
      rw [← hv] at hb
      convert hb using 4
      field_simp
      ring_nf

lemma saved_mcc_b {m : Material} (ok : MatOk m d) {U : Matrix (Fin d) (Fin d) ℝ} (hU : U * Uᵀ = 1)
    (h : Fin d → ℝ) {a p b : ℝ} (ha : 0 ≤ a) (hb0 : 0 ≤ b) (hb1 : b ≤ 1) :
    savedP (henckyTau m.lam m.mu U (mccHencky m (mkTrial h) b p a)) =
        (1 - b) * (-m.K d * (mkTrial h).trace) + b * p ∧
      (0 < (mkTrial h).norm → savedQ m.qPrefac (henckyTau m.lam m.mu U (mccHencky m (mkTrial h) b p a)) =
        (1 - b) * (m.eMu * (mkTrial h).norm) + b * a) ∧
      ((mkTrial h).norm = 0 → savedQ m.qPrefac (henckyTau m.lam m.mu U (mccHencky m (mkTrial h) b p a)) = 0) := by
  have hn := mkTrial_norm_nonneg h
  have he := ok.eMu_pos
  obtain ⟨s1, s2, s3, s4⟩ := saved_dev ok hU h (a := (1 - b) * (m.eMu * (mkTrial h).norm) + b * a)
    (p := (1 - b) * (-m.K d * (mkTrial h).trace) + b * p)
    (h' := mccHencky m (mkTrial h) b p a)
    (by have : 0 ≤ 1 - b := by linarith
        positivity)
    (by intro i
        have h1 := ok.dne
        have h2 := ok.hK.ne'
        have h3 := ok.eMu_pos.ne'
        unfold mccHencky
        congr 1
        · congr 1; field_simp; ring
        · field_simp; ring)
  exact ⟨s1, s3, s4⟩

/-- **C40**, **C51** Viscous Cam-Clay. `(py, qy)` is the point on the ellipse given by the rate-independent
mapping. With the Perzyna law the pressure is the one of that point, and the shear stress is above the
ellipse and solves the flow equation; with the Duvaut-Lions law both stresses relax linearly towards that
point, and an exponent other than one is reported through the exit flag. -/
theorem C40_viscousCamClay {cabs} {svd : Matrix (Fin d) (Fin d) ℝ → Svd d} {m : Material} (ok : MatOk m d)
    (cam : CamOk m) (hm : m.plastic = .mccVisc) (hM : 0 ≤ m.M) (hτ : 0 ≤ m.viscTime)
    (hn : 0 ≤ m.viscExponent) {dt : ℝ} (hdt : 0 < dt) (q : Particle d ℝ)
    (exit : Bool) (hs : IsSvd q.F (svd q.F)) {out : PState d} (h : plasticity cabs svd m dt q exit = some out)
    {P Q : ℝ} (hPd : P = trialP m (svd q.F)) (hQd : Q = trialQ m (svd q.F)) :
    (¬ OutsideEllipse m.M (hardeningPc m d q.epsPlVol) m.beta P Q ∧
      StayedElastic m q (svd q.F) out ∧ out.exit = exit) ∨
    ∃ py qy, Returned m d m.M q.epsPlVol P Q py qy ∧
      (m.useDuvautLions = true → ∃ b, b = dt / (dt + m.viscTime) ∧
        newP out = (1 - b) * P + b * py ∧ (0 < Q → newQ m out = (1 - b) * Q + b * qy) ∧
        (Q = 0 → newQ m out = 0) ∧
        out.q.epsPlDev = q.epsPlDev + b * (Q - qy) / m.eMu ∧
        (out.exit = false → m.viscExponent = 1)) ∧
      (m.useDuvautLions = false → newP out = py ∧ (Q = 0 → newQ m out = 0) ∧
        (0 < Q → qy ≤ newQ m out ∧
          (m.viscExponent = 1 → (qy ≤ Q → FlowEq m qy (newQ m out) out.q.deltaGamma) ∧
            (Q < qy → newQ m out = qy)) ∧
          (m.viscExponent ≠ 1 → out.exit = false → ∃ g, newQ m out = max qy (Q - m.fMu * g) ∧
            (qy ≤ Q → 0 ≤ g ∧ |flowResidual m qy (Q - m.fMu * g) (g / dt)| < 1e-2)) ∧
          m.fMu * (out.q.deltaGamma * dt) = Q - newQ m out ∧
          out.q.epsPlDev = q.epsPlDev + (Q - newQ m out) / m.eMu)) ∧
      out.q.epsPlVol = q.epsPlVol + (newP out - P) / m.K d ∧
      SameMotion q out.q := by
  obtain ⟨hP, hQ⟩ := trial_eq ok hs
  rw [← hPd] at hP
  rw [← hQd] at hQ
  have he := ok.eMu_pos
  have hf := ok.fMu_pos
  have hK := ok.hK
  obtain ⟨st, h1, rfl⟩ := plasticity_some.mp h
  simp only [plastModel, hm] at h1
  obtain ⟨pc?, r, hr, h1⟩ := plastMCC_shape h1
  rw [← hP, ← hQ] at hr
  simp only [newP, newQ, newTau_hencky ok.hel]
  rcases mccReturn_spec cam hK hM hr with ⟨d1, d2, d3, d4, d5⟩ | ⟨d1, d2⟩
  · left
    rcases h1 with ⟨-, muI, rfl⟩ | ⟨h1, -⟩
    swap
    · rw [d1] at h1; simp at h1
    refine ⟨d2, ?_, d5⟩
    unfold StayedElastic
    simp only [elasticTau_eq hs]
  · right
    rcases h1 with ⟨h1, -⟩ | ⟨-, b, qs, e, muI, hv, rfl⟩
    · rw [d1] at h1; simp at h1
    simp only [hm, if_true] at hv
    rw [← hQ] at hv
    have hq0 : 0 ≤ r.q := by obtain ⟨-, pc, -, ⟨a, -⟩, -⟩ := d2; exact a
    have hnorm : 0 < Q ↔ 0 < (mkTrial (svd q.F).hencky).norm := by
      rw [hQ]; exact mul_pos_iff_of_pos_left he
    have hnorm0 : Q = 0 → (mkTrial (svd q.F).hencky).norm = 0 := by
      rw [hQ]; intro hz; exact (mul_eq_zero.mp hz).resolve_left he.ne'
    simp only [mccDone, ← hP, ← hQ]
    refine ⟨r.p, r.q, d2, ?_⟩
    cases hdl : m.useDuvautLions with
    | true =>
      obtain ⟨rfl, rfl, rfl⟩ := mccViscous_DL hdl hv
      have hq1 : 0 ≤ m.viscTime / dt := by positivity
      have hbeq : 1 / (1 + m.viscTime / dt) = dt / (dt + m.viscTime) := by field_simp
      have hb0 : 0 ≤ 1 / (1 + m.viscTime / dt) := by positivity
      have hb1 : 1 / (1 + m.viscTime / dt) ≤ 1 := by rw [div_le_one (by positivity)]; linarith
      obtain ⟨s1, s2, s3⟩ := saved_mcc_b ok hs.orthU (svd q.F).hencky (p := r.p) hq0 hb0 hb1
      rw [← hP] at s1
      rw [← hQ] at s2
      rw [← hbeq]
      refine ⟨fun _ => ⟨_, rfl, s1, fun hp => s2 (hnorm.mp hp), fun hp => s3 (hnorm0 hp), rfl, ?_⟩,
        fun h => absurd h (by simp), ?_, ⟨rfl, rfl, rfl, rfl, rfl⟩⟩
      · intro hx
        simpa using (Bool.or_eq_false_iff.mp hx).2
      · rw [s1]; ring
    | false =>
      obtain ⟨rfl, v2, v3, v4⟩ := mccViscous_perzyna hdl hf hτ hn hdt hq0 hv
      obtain ⟨s1, s2, s3, s4⟩ := saved_mcc ok hs.orthU (svd q.F).hencky (hq0.trans v2) (p := r.p)
      have hdg : m.dPre * (1 * (Q - qs) / m.eMu) / dt = (Q - qs) / m.fMu / dt := by
        have := ok.dPre_pos.ne'
        rw [ok.fMu_eq]; field_simp
      refine ⟨fun h => absurd h (by simp), fun _ => ⟨s1, fun hp => s4 (hnorm0 hp), fun hp => ?_⟩, ?_,
        ⟨rfl, rfl, rfl, rfl, rfl⟩⟩
      · rw [s3 (hnorm.mp hp), hdg]
        refine ⟨v2, v3, fun hne hx => (v4 hne hx).2, ?_, ?_⟩
        · field_simp
        · ring
      · rw [s1]; ring

end Verif.Props
