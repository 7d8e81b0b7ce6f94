import Verif.Lemmas.Swap
import Verif.Props.FreeFall
import Verif.Props.CamClayVisc
import Verif.Props.Viscous

set_option linter.unusedSectionVars false
set_option linter.unusedSimpArgs false
set_option linter.unusedVariables false

/-!
# C95: material models with common parameters coincide
-/

namespace Verif.Props
open Verif Matrix
noncomputable section

/-! ### single updates -/

section update
variable {d : ℕ} {m : Material}

/-- Softening Drucker-Prager material with `xi = 0`. -/
def softDP (m : Material) : Material := { m with plastic := .dpSoft, xi := 0 }
/-- Viscous Drucker-Prager material with `visc_time = 0` and `visc_exponent = 1`. -/
def inviscidDP (m : Material) : Material := { m with plastic := .dpVisc, viscTime := 0, viscExponent := 1 }
/-- Drucker-Prager material. -/
def plainDP (m : Material) : Material := { m with plastic := .dp }
/-- Von Mises material. -/
def plainVM (m : Material) : Material := { m with plastic := .vm }
/-- Viscous von Mises material with `visc_time = 0`, `visc_exponent = 1` and `xi = 0`. -/
def inviscidVM (m : Material) : Material := { m with plastic := .vmVisc, viscTime := 0, viscExponent := 1, xi := 0 }
/-- Cam-Clay material. -/
def plainMCC (m : Material) : Material := { m with plastic := .mcc }
/-- Viscous Cam-Clay material with `visc_time = 0` and `visc_exponent = 1`. -/
def inviscidMCC (m : Material) : Material := { m with plastic := .mccVisc, viscTime := 0, viscExponent := 1 }

/-- The particle and `exit` after the plastic update. -/
def updated (cabs : ℝ → ℝ) (svd : Matrix (Fin d) (Fin d) ℝ → Svd d) (m : Material) (dt : ℝ) (q : Particle d ℝ) :
    Option (Particle d ℝ × Bool) :=
  (plasticity cabs svd m dt q false).map fun st => (st.q, st.exit)

lemma hencky_isotropic {s : Svd d} (hd : 0 < d) (h : (mkTrial s.hencky).norm = 0) (i : Fin d) :
    s.hencky i = (mkTrial s.hencky).trace / d := by
  have h0 : vnorm (fun i => s.hencky i - (∑ j, s.hencky j) / d) = 0 := h
  have := congrFun (Verif.vnorm_eq_zero h0) i
  exact sub_eq_zero.mp this

/-- An isotropic state without compression is reproduced by the exponential. -/
lemma expF_isotropic {F : Matrix (Fin d) (Fin d) ℝ} {s : Svd d} (hs : IsSvd F s) (hd : 0 < d)
    (h : (mkTrial s.hencky).norm = 0) (ht : 0 ≤ (mkTrial s.hencky).trace) :
    s.expF (fun _ => (mkTrial s.hencky).trace / d) = F := by
  have hb : ∀ i, 1e-4 ≤ s.sig i := by
    intro i
    have hi := hencky_isotropic hd h i
    have h0 : 0 ≤ s.hencky i := by rw [hi]; positivity
    by_contra hlt
    push Not at hlt
    have : s.hencky i < 0 := by
      unfold Svd.hencky
      rw [abs_of_nonneg (hs.nonneg i), max_eq_right hlt.le]
      exact Real.log_neg (by norm_num) (by norm_num)
    linarith
  rw [← expF_hencky hs hb]
  congr 1
  funext i
  exact (hencky_isotropic hd h i).symm

/-- Without softening and without viscosity the two Drucker-Prager models agree, unless the trial pressure is exactly
at the (shifted) tip and there is shear or a volume correction. -/
lemma soft_visc (ok : MatOk m d) (hM : 0 < m.M) (hc : 0 ≤ m.qCohesion) (hmi : m.useMibf = false) (cabs)
    {svd : Matrix (Fin d) (Fin d) ℝ → Svd d} {dt : ℝ} (hdt : 0 < dt) (q : Particle d ℝ) (hs : IsSvd q.F (svd q.F))
    (hgood : trialP m (svd q.F) + pressureShift m d q = -m.qCohesion / m.M →
      trialQ m (svd q.F) = 0 ∧ pressureShift m d q = 0) :
    updated cabs svd (softDP m) dt q = updated cabs svd (inviscidDP m) dt q := by
  obtain ⟨hP, hQ⟩ := trial_eq ok hs
  have he := ok.eMu_pos
  have hf := ok.fMu_pos
  have hK := ok.hK
  have hdn := ok.dne
  have hq := ok.hq
  have e1 : (softDP m).K d = m.K d := rfl
  have e2 : (softDP m).eMu = m.eMu := rfl
  have e3 : (softDP m).dPre = m.dPre := rfl
  have e4 : (inviscidDP m).K d = m.K d := rfl
  have e5 : (inviscidDP m).eMu = m.eMu := rfl
  have e6 : (inviscidDP m).dPre = m.dPre := rfl
  have e7 : (inviscidDP m).fMu = m.fMu := rfl
  have hdp : m.dPre = 1 / m.qPrefac := rfl
  have hef : m.fMu = m.qPrefac * m.eMu := by unfold Material.fMu Material.eMu; ring
  have ht : ∀ s h F, newTau (softDP m) (d := d) s h F = newTau (inviscidDP m) s h F := fun _ _ _ => rfl
  simp only [updated, plasticity, plastModel, Option.bind_eq_bind, ht]
  set t := mkTrial (svd q.F).hencky with htd
  have hn0 : 0 ≤ t.norm := mkTrial_norm_nonneg _
  simp only [show (softDP m).plastic = .dpSoft from rfl, show (inviscidDP m).plastic = .dpVisc from rfl, Option.bind_some,
    Option.map_some, plastDPSoft, plastDPVisc, e1, e2, e3, e4, e5, e6, e7, show (softDP m).xi = 0 from rfl,
    show (softDP m).usePradhana = m.usePradhana from rfl, show (inviscidDP m).usePradhana = m.usePradhana from rfl,
    show (softDP m).M = m.M from rfl, show (inviscidDP m).M = m.M from rfl,
    show (softDP m).qCohesion = m.qCohesion from rfl, show (inviscidDP m).qCohesion = m.qCohesion from rfl,
    show (inviscidDP m).useMibf = false from hmi, neg_zero, zero_mul, Real.exp_zero, mul_one, Bool.false_eq_true, if_false,
    show (inviscidDP m).viscExponent = 1 from rfl, decide_true, viscIncrement, if_true, closedForm,
    show (inviscidDP m).viscTime = 0 from rfl, zero_div, mul_zero, add_zero, ite_self]
  have hS : (if m.usePradhana = true then -m.K d * q.epsPlVolPradhana else 0) = pressureShift m d q := rfl
  simp only [hS]
  rw [hP, hQ] at hgood
  generalize hSd : pressureShift m d q = S at *
  set P := -m.K d * t.trace with hPd
  have hY : m.M * (P + S) + -(-m.qCohesion / m.M) * m.M = m.M * (P + S) + m.qCohesion := by field_simp
  simp only [hY]
  by_cases h1 : P + S < -m.qCohesion / m.M
  · rw [if_pos h1.le, if_pos h1, if_neg (show ¬ (P + S > -m.qCohesion / m.M ∧ m.eMu * t.norm > m.M * (P + S) + m.qCohesion) from fun h => absurd h.1 (not_lt.mpr h1.le))]
    simp only [Option.bind_some, Option.map_some]
  simp only [if_neg h1]
  by_cases h2 : P + S = -m.qCohesion / m.M
  · obtain ⟨hq0, hS0⟩ := hgood h2
    have hnorm : t.norm = 0 := by
      rcases mul_eq_zero.mp hq0 with h | h
      · exact absurd h he.ne'
      · exact h
    have hP0 : P = -m.qCohesion / m.M := by rw [← h2, hS0, add_zero]
    have htr : 0 ≤ t.trace := by
      have : P ≤ 0 := by rw [hP0]; exact div_nonpos_of_nonpos_of_nonneg (by linarith) hM.le
      rw [hPd] at this
      by_contra hlt
      push Not at hlt
      nlinarith
    have hh : (fun _ : Fin d => -(-m.qCohesion / m.M) / (m.K d * d)) = (svd q.F).hencky := by
      funext i
      rw [hencky_isotropic ok.hd hnorm i, ← hP0, hPd]
      field_simp
      rfl
    have hF : (svd q.F).expF (svd q.F).hencky = q.F := by
      have := expF_isotropic hs ok.hd hnorm htr
      rw [← this]
      congr 1
      · rw [this]
      · funext i; rw [this]; exact hencky_isotropic ok.hd hnorm i
    have hpr : m.usePradhana = true → q.epsPlVolPradhana = 0 := by
      intro hu
      rw [hS0] at hSd
      simp only [pressureShift, hu, if_true] at hSd
      rcases mul_eq_zero.mp hSd with h | h
      · linarith
      · exact h
    rw [if_pos h2.le, if_neg (show ¬ (P + S > -m.qCohesion / m.M ∧ m.eMu * t.norm > m.M * (P + S) + m.qCohesion) from fun h => absurd h.1 (not_lt.mpr h2.le))]
    simp only [Option.bind_some, Option.map_some, hh, hF, hnorm, mul_zero, zero_div, add_zero, hP0, sub_self]
    by_cases hu : m.usePradhana = true
    · simp [hu, hpr hu]
    · simp [hu]
  have h3 : -m.qCohesion / m.M < P + S := lt_of_le_of_ne (not_lt.mp h1) (Ne.symm h2)
  rw [if_neg (not_le.mpr h3)]
  have hYpos : 0 < m.M * (P + S) + m.qCohesion := by
    rw [div_lt_iff₀ hM] at h3; nlinarith
  by_cases h4 : m.eMu * t.norm ≤ m.M * (P + S) + m.qCohesion
  · rw [if_pos h4, if_neg (show ¬ (P + S > -m.qCohesion / m.M ∧ m.eMu * t.norm > m.M * (P + S) + m.qCohesion) from fun h => absurd h.2 (not_lt.mpr h4))]
    simp only [Option.bind_some, Option.map_some]
  push Not at h4
  rw [if_neg (not_le.mpr h4), if_pos (show P + S > -m.qCohesion / m.M ∧ m.eMu * t.norm > m.M * (P + S) + m.qCohesion from ⟨h3, h4⟩)]
  have hdg : ¬ (m.eMu * t.norm - (m.M * (P + S) + m.qCohesion)) / m.fMu < 0 := by
    apply not_lt.mpr
    have : 0 < m.eMu * t.norm - (m.M * (P + S) + m.qCohesion) := by linarith
    positivity
  have hr : m.dPre * (t.norm - (m.M * (P + S) + m.qCohesion) / m.eMu) =
      (m.eMu * t.norm - (m.M * (P + S) + m.qCohesion)) / m.fMu := by
    rw [hdp, hef]; field_simp
  simp only [Option.bind_eq_bind, Option.bind_some, Option.map_some, hdg, decide_false, Bool.or_false, hr]

/-- Without pressure correction and softening the Drucker-Prager models agree, unless the yield stress of the trial
state is positive and below `1e-10`. -/
lemma soft_plain (ok : MatOk m d) (hM : 0 < m.M) (hpr : m.usePradhana = false) (cabs)
    {svd : Matrix (Fin d) (Fin d) ℝ → Svd d} {dt : ℝ} (q : Particle d ℝ) (hdg : q.deltaGamma = 0)
    (hs : IsSvd q.F (svd q.F))
    (hgood : ¬ (0 < m.M * trialP m (svd q.F) + m.qCohesion ∧ m.M * trialP m (svd q.F) + m.qCohesion < 1e-10)) :
    updated cabs svd (plainDP m) dt q = updated cabs svd (softDP m) dt q := by
  obtain ⟨hP, hQ⟩ := trial_eq ok hs
  have he := ok.eMu_pos
  have hq := ok.hq
  have e1 : (softDP m).K d = m.K d := rfl
  have e2 : (softDP m).eMu = m.eMu := rfl
  have e3 : (softDP m).dPre = m.dPre := rfl
  have e4 : (plainDP m).K d = m.K d := rfl
  have e5 : (plainDP m).eMu = m.eMu := rfl
  have e6 : (plainDP m).dPre = m.dPre := rfl
  have hdp : 0 < m.dPre := by unfold Material.dPre; positivity
  have ht : ∀ s h F, newTau (plainDP m) (d := d) s h F = newTau (softDP m) s h F := fun _ _ _ => rfl
  simp only [updated, plasticity, plastModel, Option.bind_eq_bind, ht]
  set t := mkTrial (svd q.F).hencky with htd
  simp only [show (softDP m).plastic = .dpSoft from rfl, show (plainDP m).plastic = .dp from rfl, Option.bind_some,
    Option.map_some, plastDPSoft, plastDP, e1, e2, e3, e4, e5, e6, show (softDP m).xi = 0 from rfl,
    show (softDP m).usePradhana = false from hpr, show (softDP m).M = m.M from rfl, show (plainDP m).M = m.M from rfl,
    show (softDP m).qCohesion = m.qCohesion from rfl, show (plainDP m).qCohesion = m.qCohesion from rfl,
    neg_zero, zero_mul, Real.exp_zero, mul_one, Bool.false_eq_true, if_false, add_zero]
  rw [hP] at hgood
  set P := -m.K d * t.trace with hPd
  have hY : m.M * P + -(-m.qCohesion / m.M) * m.M = m.M * P + m.qCohesion := by field_simp
  simp only [hY]
  by_cases h1 : m.M * P + m.qCohesion < 1e-10
  · have h2 : m.M * P + m.qCohesion ≤ 0 := by
      by_contra h
      exact hgood ⟨not_le.mp h, h1⟩
    have h3 : P ≤ -m.qCohesion / m.M := by rw [le_div_iff₀ hM]; linarith
    rw [if_pos h1, if_pos h3]
  have h3 : ¬ P ≤ -m.qCohesion / m.M := by
    rw [le_div_iff₀ hM]
    intro h
    apply h1
    have : m.M * P + m.qCohesion ≤ 0 := by linarith
    exact lt_of_le_of_lt this (by norm_num)
  have h4 : ¬ P < -m.qCohesion / m.M := fun h => h3 h.le
  simp only [if_neg h1, if_neg h3, if_neg h4]
  have hiff : m.dPre * (t.norm - (m.M * P + m.qCohesion) / m.eMu) > 0 ↔ ¬ m.eMu * t.norm ≤ m.M * P + m.qCohesion := by
    rw [gt_iff_lt, mul_pos_iff_of_pos_left hdp, sub_pos, div_lt_iff₀ he, not_le, mul_comm t.norm]
  by_cases h5 : m.eMu * t.norm ≤ m.M * P + m.qCohesion
  · have h6 : ¬ m.dPre * (t.norm - (m.M * P + m.qCohesion) / m.eMu) > 0 := fun h => (hiff.mp h) h5
    simp only [if_pos h5, if_neg h6, hdg]
  · simp only [if_neg h5, if_pos (hiff.mpr h5)]

/-- Without softening and viscosity the von Mises models agree, unless the trial pressure is below `p_min`. -/
lemma vm_visc (ok : MatOk m d) (cabs) {svd : Matrix (Fin d) (Fin d) ℝ → Svd d} {dt : ℝ} (q : Particle d ℝ)
    (hs : IsSvd q.F (svd q.F)) (hgood : m.pMin ≤ trialP m (svd q.F)) :
    updated cabs svd (inviscidVM m) dt q = updated cabs svd (plainVM m) dt q := by
  obtain ⟨hP, hQ⟩ := trial_eq ok hs
  have he := ok.eMu_pos
  have hf := ok.fMu_pos
  have hq := ok.hq
  have e1 : (inviscidVM m).K d = m.K d := rfl
  have e2 : (inviscidVM m).eMu = m.eMu := rfl
  have e3 : (inviscidVM m).dPre = m.dPre := rfl
  have e4 : (inviscidVM m).fMu = m.fMu := rfl
  have e5 : (plainVM m).eMu = m.eMu := rfl
  have e6 : (plainVM m).dPre = m.dPre := rfl
  have hdp : m.dPre = 1 / m.qPrefac := rfl
  have hef : m.fMu = m.qPrefac * m.eMu := by unfold Material.fMu Material.eMu; ring
  have ht : ∀ s h F, newTau (inviscidVM m) (d := d) s h F = newTau (plainVM m) s h F := fun _ _ _ => rfl
  simp only [updated, plasticity, plastModel, Option.bind_eq_bind, ht]
  set t := mkTrial (svd q.F).hencky with htd
  simp only [show (inviscidVM m).plastic = .vmVisc from rfl, show (plainVM m).plastic = .vm from rfl, Option.bind_some,
    Option.map_some, plastVM, plastVMVisc, e1, e2, e3, e4, e5, e6, show (inviscidVM m).xi = 0 from rfl,
    show (inviscidVM m).pMin = m.pMin from rfl, show (inviscidVM m).qMax = m.qMax from rfl, show (plainVM m).qMax = m.qMax from rfl,
    show (inviscidVM m).qMin = m.qMin from rfl, neg_zero, zero_mul, Real.exp_zero, mul_one,
    show (inviscidVM m).viscExponent = 1 from rfl, true_and, decide_true, viscIncrement, if_true, closedForm,
    show (inviscidVM m).viscTime = 0 from rfl, zero_div, mul_zero, add_zero, ite_self, add_sub_cancel]
  rw [hP] at hgood
  rw [if_neg (not_lt.mpr hgood)]
  have hiff : t.norm - m.qMax / m.eMu > 0 ↔ m.eMu * t.norm > m.qMax := by
    rw [gt_iff_lt, sub_pos, div_lt_iff₀ he, mul_comm]
  by_cases h5 : m.eMu * t.norm > m.qMax
  · have hneg : ¬ (m.eMu * t.norm - m.qMax) / m.fMu < 0 := by
      apply not_lt.mpr
      have : 0 < m.eMu * t.norm - m.qMax := by linarith
      positivity
    have hr : 1 / m.dPre * ((m.eMu * t.norm - m.qMax) / m.fMu) = t.norm - m.qMax / m.eMu := by
      rw [hdp, hef]; field_simp
    have hr2 : (m.eMu * t.norm - m.qMax) / m.fMu = m.dPre * (t.norm - m.qMax / m.eMu) := by
      rw [hdp, hef]; field_simp
    simp only [if_pos h5, if_pos (hiff.mpr h5), Option.bind_eq_bind, Option.bind_some, Option.map_some, hneg, decide_false,
      Bool.or_false, hr]
    rw [hr2]
  · rw [if_neg h5, if_neg (fun h => h5 (hiff.mp h))]
    simp only [Option.bind_some, Option.map_some]

/-- `plastMCC` with the viscous correction `f`. -/
def mccCore (cabs : ℝ → ℝ) (m : Material) (dt : ℝ) (s : Svd d) (t : Trial d) (f : ℝ → ℝ → Bool → Option (ℝ × ℝ × Bool))
    (st : PState d) : Option (PState d) := do
  let pTrial := -m.K d * t.trace
  let qTrial := m.eMu * t.norm
  let st := if m.useMibf then { st with q := { st.q with muI := m.M } } else st
  let (pc?, r) ← mccReturn cabs m d true m.M st.q.epsPlVol pTrial qTrial st.exit
  let st : PState d := { st with exit := r.exit }
  if r.did then
    let v ← f qTrial r.q r.exit
    let b := v.1
    let qs := v.2.1
    let volInst := -b * (pTrial - r.p) / m.K d
    let devInst := b * (qTrial - qs) / m.eMu
    let hVol := -pTrial / m.K d - volInst
    let hDev := qTrial / m.eMu - devInst
    let h : Fin d → ℝ := fun i => hDev * t.dir i + hVol / d
    let epsVol := st.q.epsPlVol + volInst
    let muI ← if m.useMibf then mccMuI m d pc? epsVol r.p qs hDev qTrial b else some st.q.muI
    some
      { count := st.count + 1
        exit := v.2.2
        hencky := h
        q := { st.q with
          epsPlVol := epsVol
          epsPlDev := st.q.epsPlDev + devInst
          deltaGamma := m.dPre * devInst / dt
          F := s.expF h
          muI := muI } }
  else some st

lemma plastMCC_visc (cabs dt) (s : Svd d) (t) (st) : plastMCC cabs (inviscidMCC m) dt s t st =
    mccCore cabs m dt s t (mccViscous (inviscidMCC m) dt) st := rfl

lemma plastMCC_plain (cabs dt) (s : Svd d) (t) (st) : plastMCC cabs (plainMCC m) dt s t st =
    mccCore cabs m dt s t (fun _ q ex => some (1, q, ex)) st := rfl

lemma mccViscous_zero (hf : 0 < m.fMu) (dt Q q : ℝ) (ex : Bool) :
    ∃ x, mccViscous (inviscidMCC m) dt Q q ex = some (1, q, x) ∧ (m.useDuvautLions = true ∨ q ≤ Q → x = ex) := by
  have e1 : (inviscidMCC m).useDuvautLions = m.useDuvautLions := rfl
  have e2 : (inviscidMCC m).viscTime = 0 := rfl
  have e3 : (inviscidMCC m).viscExponent = 1 := rfl
  have e4 : (inviscidMCC m).fMu = m.fMu := rfl
  simp only [mccViscous, e1, e2, e3, e4, mul_zero, zero_div, add_zero, if_true, fdiv, if_neg hf.ne', Option.bind_eq_bind,
    Option.bind_some]
  by_cases hdl : m.useDuvautLions = true
  · exact ⟨ex, by simp [hdl], fun _ => rfl⟩
  simp only [if_neg hdl]
  have hc : Q - m.fMu * ((Q - q) / m.fMu) = q := by rw [mul_div_cancel₀ _ hf.ne']; ring
  by_cases hle : q ≤ Q
  · have h0 : ¬ (Q - q) / m.fMu < 0 := not_lt.mpr (div_nonneg (by linarith) hf.le)
    refine ⟨ex, ?_, fun _ => rfl⟩
    simp only [if_neg h0, hc, max_self]
  · have h0 : (Q - q) / m.fMu < 0 := div_neg_of_neg_of_pos (by push Not at hle; linarith) hf
    simp only [if_pos h0]
    push Not at hle
    by_cases h1 : (Q - q) / m.fMu > -1e-14
    · refine ⟨ex, ?_, fun _ => rfl⟩
      simp only [if_pos h1, mul_zero, sub_zero, max_eq_left hle.le]
    · refine ⟨true, ?_, fun h => ?_⟩
      · simp only [if_neg h1, hc, max_self]
      · rcases h with h | h
        · exact absurd h hdl
        · exact absurd h (not_le.mpr hle)

/-- Without viscosity the Cam-Clay models agree, for the Duvaut-Lions law always, for the Perzyna law unless the return
mapping raises the shear stress. -/
lemma mcc_visc (ok : MatOk m d) {cabs} {svd : Matrix (Fin d) (Fin d) ℝ → Svd d} {dt : ℝ} (q : Particle d ℝ)
    (hgood : m.useDuvautLions = true ∨ ∀ r, updated cabs svd (plainMCC m) dt q = some r → q.epsPlDev ≤ r.1.epsPlDev) :
    updated cabs svd (inviscidMCC m) dt q = updated cabs svd (plainMCC m) dt q := by
  have he := ok.eMu_pos
  have ht : ∀ s h F, newTau (inviscidMCC m) (d := d) s h F = newTau (plainMCC m) s h F := fun _ _ _ => rfl
  have hcore : mccCore cabs m dt (svd q.F) (mkTrial (svd q.F).hencky) (mccViscous (inviscidMCC m) dt)
      ⟨q, (svd q.F).hencky, 0, false⟩ = mccCore cabs m dt (svd q.F) (mkTrial (svd q.F).hencky)
      (fun _ q ex => some (1, q, ex)) ⟨q, (svd q.F).hencky, 0, false⟩ := by
    rcases hgood with hdl | hgood
    · unfold mccCore
      simp only [Option.bind_eq_bind]
      congr 1
      funext r
      obtain ⟨x, hx, hx'⟩ := mccViscous_zero ok.fMu_pos dt (m.eMu * (mkTrial (svd q.F).hencky).norm) r.2.q r.2.exit
      rw [hx' (.inl hdl)] at hx
      simp only [hx]
    · simp only [updated, plasticity, plastModel, show (plainMCC m).plastic = .mcc from rfl, plastMCC_plain,
        Option.bind_eq_bind] at hgood
      revert hgood
      unfold mccCore
      simp only [Option.bind_eq_bind]
      by_cases hmi : m.useMibf = true
      · simp only [if_pos hmi]
        cases mccReturn cabs m d true m.M q.epsPlVol (-m.K d * (mkTrial (svd q.F).hencky).trace)
          (m.eMu * (mkTrial (svd q.F).hencky).norm) false with
        | none => intro; simp only [Option.bind_none]
        | some r =>
        simp only [Option.bind_some]
        obtain ⟨x, hx, hx'⟩ := mccViscous_zero ok.fMu_pos dt (m.eMu * (mkTrial (svd q.F).hencky).norm) r.2.q r.2.exit
        by_cases hdid : r.2.did = true
        · simp only [if_pos hdid, hx, Option.bind_some]
          by_cases hle : r.2.q ≤ m.eMu * (mkTrial (svd q.F).hencky).norm
          · rw [hx' (.inr hle)]; intro; rfl
          have hneg : 1 * (m.eMu * (mkTrial (svd q.F).hencky).norm - r.2.q) / m.eMu < 0 := by
            rw [one_mul]; exact div_neg_of_neg_of_pos (by push Not at hle; linarith) he
          cases mccMuI m d r.1 (q.epsPlVol + -1 * (-m.K d * (mkTrial (svd q.F).hencky).trace - r.2.p) / m.K d) r.2.p r.2.q
            (m.eMu * (mkTrial (svd q.F).hencky).norm / m.eMu -
              1 * (m.eMu * (mkTrial (svd q.F).hencky).norm - r.2.q) / m.eMu)
            (m.eMu * (mkTrial (svd q.F).hencky).norm) 1 with
          | none => intro; simp only [Option.bind_none]
          | some mu =>
            intro hgood
            exfalso
            have := hgood _ rfl
            simp only at this
            linarith
        · simp only [if_neg hdid]; intro; trivial
      · simp only [if_neg hmi]
        cases mccReturn cabs m d true m.M q.epsPlVol (-m.K d * (mkTrial (svd q.F).hencky).trace)
          (m.eMu * (mkTrial (svd q.F).hencky).norm) false with
        | none => intro; simp only [Option.bind_none]
        | some r =>
        simp only [Option.bind_some]
        obtain ⟨x, hx, hx'⟩ := mccViscous_zero ok.fMu_pos dt (m.eMu * (mkTrial (svd q.F).hencky).norm) r.2.q r.2.exit
        by_cases hdid : r.2.did = true
        · simp only [if_pos hdid, hx, Option.bind_some]
          by_cases hle : r.2.q ≤ m.eMu * (mkTrial (svd q.F).hencky).norm
          · rw [hx' (.inr hle)]; intro; rfl
          have hneg : 1 * (m.eMu * (mkTrial (svd q.F).hencky).norm - r.2.q) / m.eMu < 0 := by
            rw [one_mul]; exact div_neg_of_neg_of_pos (by push Not at hle; linarith) he
          intro hgood
          exfalso
          have := hgood _ rfl
          simp only at this
          linarith
        · simp only [if_neg hdid]; intro; trivial
  simp only [updated, plasticity, plastModel, show (inviscidMCC m).plastic = .mccVisc from rfl,
    show (plainMCC m).plastic = .mcc from rfl, plastMCC_plain, plastMCC_visc, hcore, ht]

end update

/-! ### runs -/

section run
variable {d : ℕ} {R : Setup (d + 2)} {m : Material} {i e : Bool} {fuel : ℕ} {s : LoopState (d + 2) (World (d + 2))}

lemma updated_of (R : Setup (d + 2)) (m : Material) (dt q) :
    plasticUpdate (withMaterial R m) dt q = updated R.cabs R.svd m dt q := rfl

/-- `p` before and `p'` after a step: `p'` is not exactly at the tip of the yield surface (shifted by the volume
correction of `p`) with shear stress or with a volume correction. -/
def OffTip (m : Material) (d : ℕ) (p p' : Particle d ℝ) : Prop :=
  savedP p'.tau + pressureShift m d p = -m.qCohesion / m.M → savedQ m.qPrefac p'.tau = 0 ∧ pressureShift m d p = 0

/-- **C95** Drucker-Prager material with `DPSoft` and `xi = 0`, and with `DPVisc`, `visc_time = 0`, `visc_exponent = 1`: the
runs are the same, as long as no particle is exactly at the (shifted) tip. -/
theorem C95_druckerPrager (ok : MatOk m (d + 2)) (hM : 0 < m.M) (hc : 0 ≤ m.qCohesion) (hmi : m.useMibf = false)
    (hmin : 0 < R.C.minDt) (hsvd : ∀ F, IsSvd F (R.svd F))
    (hoff : EveryStep (withMaterial R (inviscidDP m)) s (OffTip m (d + 2))) :
    runProgram (withMaterial R (softDP m)) i e fuel s = runProgram (withMaterial R (inviscidDP m)) i e fuel s := by
  have hw : withMaterial (withMaterial R (inviscidDP m)) (softDP m) = withMaterial R (softDP m) := rfl
  rw [← hw]
  refine runProgram_swap (R := withMaterial R (inviscidDP m)) hmin rfl rfl (fun dt q hdt h => ?_)
    (fun dt p q r x v hdt hpq h hgood => ?_) hoff
  · exfalso
    rw [updated_of] at h
    obtain ⟨out, ho, -⟩ := C38_viscousDruckerPrager (cabs := R.cabs) (svd := R.svd) (m := inviscidDP m) ⟨ok.hd, ok.hK, ok.hmu, ok.hq, ok.hel⟩
      rfl rfl hM hc (le_refl (0 : ℝ)) hdt q false (hsvd q.F) rfl rfl rfl rfl
    simp only [updated, ho, Option.map_some] at h
    cases h
  · rw [hw, updated_of]
    rw [updated_of] at h
    rw [← h]
    refine soft_visc ok hM hc hmi _ hdt q (hsvd q.F) fun htip => ?_
    obtain ⟨out, ho, -, hkeep, -, -, hq, -⟩ := C38_viscousDruckerPrager (cabs := R.cabs) (svd := R.svd) (m := inviscidDP m)
      ⟨ok.hd, ok.hK, ok.hmu, ok.hq, ok.hel⟩ rfl rfl hM hc (le_refl (0 : ℝ)) hdt q false (hsvd q.F) rfl rfl rfl rfl
    simp only [updated, ho, Option.map_some, Option.some.injEq] at h
    subst h
    obtain ⟨_, _, _, _, _, _, rfl⟩ := hpq.1
    have e1 := hkeep htip.ge
    have e2 := hq htip
    have := hgood (by rw [← htip]; exact congrArg (· + _) e1)
    exact ⟨e2.symm.trans this.1, this.2⟩

/-- **C95** `DP` and `DPSoft` with `xi = 0` and without the volume correction (with MUSL, otherwise the saved rate of
particles that stop flowing differs, C64): the runs are the same, as long as the yield stress of no particle is positive
and below `1e-10`. -/
theorem C95_plainDruckerPrager (ok : MatOk m (d + 2)) (hM : 0 < m.M) (hc : 0 ≤ m.qCohesion) (hpr : m.usePradhana = false)
    (hmusl : R.S.useMusl = true) (hmin : 0 < R.C.minDt) (hsvd : ∀ F, IsSvd F (R.svd F))
    (hoff : EveryStep (withMaterial R (softDP m)) s fun _ p' =>
      ¬ (0 < m.M * savedP p'.tau + m.qCohesion ∧ m.M * savedP p'.tau + m.qCohesion < 1e-10)) :
    runProgram (withMaterial R (plainDP m)) i e fuel s = runProgram (withMaterial R (softDP m)) i e fuel s := by
  have hw : withMaterial (withMaterial R (softDP m)) (plainDP m) = withMaterial R (plainDP m) := rfl
  rw [← hw]
  refine runProgram_swap (R := withMaterial R (softDP m)) hmin rfl rfl (fun dt q hdt h => ?_)
    (fun dt p q r x v hdt hpq h hgood => ?_) hoff
  · exfalso
    rw [updated_of] at h
    simp [updated, plasticity, plastModel, softDP] at h
  · rw [hw, updated_of]
    rw [updated_of] at h
    rw [← h]
    have hdg : q.deltaGamma = 0 := by rw [hpq.2]; exact if_pos hmusl
    refine soft_plain ok hM hpr _ q hdg (hsvd q.F) fun hwin => hgood ?_
    obtain ⟨out, ho, ⟨c', -, -, -, hcase⟩, -⟩ := C36_softening (cabs := R.cabs) (svd := R.svd) (m := softDP m)
      ⟨ok.hd, ok.hK, ok.hmu, ok.hq, ok.hel⟩ rfl hM hc (le_refl (0 : ℝ)) dt q false (hsvd q.F)
    simp only [updated, ho, Option.map_some, Option.some.injEq] at h
    subst h
    have hcoh : softCohesion (softDP m) c' = m.qCohesion := by simp [softCohesion, softDP]
    have hS : pressureShift (softDP m) (d + 2) q = 0 := by simp [pressureShift, softDP, hpr]
    have hT : trialP (softDP m) (R.svd q.F) = trialP m (R.svd q.F) := rfl
    simp only [hcoh, hS, hT, add_zero] at hcase
    rcases hcase with ⟨-, hp, -⟩ | ⟨-, -, hle, -⟩
    · show 0 < m.M * newP out + m.qCohesion ∧ m.M * newP out + m.qCohesion < 1e-10
      rw [hp]; exact hwin
    · exfalso
      have : trialP m (R.svd q.F) ≤ -m.qCohesion / m.M := hle
      rw [le_div_iff₀ hM] at this
      linarith [hwin.1]

/-- **C95** Von Mises material with `VM`, and with `VMVisc`, `visc_time = 0`, `visc_exponent = 1`, `xi = 0`: the runs are the
same, as long as no pressure is below `p_min`. -/
theorem C95_vonMises (ok : MatOk m (d + 2)) (hq : 0 ≤ m.qMax) (hmin : 0 < R.C.minDt) (hsvd : ∀ F, IsSvd F (R.svd F))
    (hoff : EveryStep (withMaterial R (plainVM m)) s fun _ p' => m.pMin ≤ savedP p'.tau) :
    runProgram (withMaterial R (inviscidVM m)) i e fuel s = runProgram (withMaterial R (plainVM m)) i e fuel s := by
  have hw : withMaterial (withMaterial R (plainVM m)) (inviscidVM m) = withMaterial R (inviscidVM m) := rfl
  rw [← hw]
  refine runProgram_swap (R := withMaterial R (plainVM m)) hmin rfl rfl (fun dt q hdt h => ?_)
    (fun dt p q r x v hdt hpq h hgood => ?_) hoff
  · exfalso
    rw [updated_of] at h
    simp [updated, plasticity, plastModel, plainVM] at h
  · rw [hw, updated_of]
    rw [updated_of] at h
    obtain ⟨out, ho, -, hp, -⟩ := C34_vonMises (cabs := R.cabs) (svd := R.svd) (m := plainVM m)
      ⟨ok.hd, ok.hK, ok.hmu, ok.hq, ok.hel⟩ rfl hq dt q false (hsvd q.F)
    simp only [updated, ho, Option.map_some, Option.some.injEq] at h
    refine (vm_visc ok _ q (hsvd q.F) ?_).trans ?_
    · subst h
      exact hgood.trans hp.le
    · simp only [updated, ho, Option.map_some, h]

/-- **C95** Cam-Clay material with `MCC`, and with `MCCVisc`, `visc_time = 0`, `visc_exponent = 1`: the runs are the same,
with the Duvaut-Lions law always (and with all hardening laws), with the Perzyna law as long as no accumulated plastic shear
strain decreases. -/
theorem C95_camClay (ok : MatOk m (d + 2)) (hmin : 0 < R.C.minDt)
    (hoff : m.useDuvautLions = true ∨
      EveryStep (withMaterial R (plainMCC m)) s fun p p' => p.epsPlDev ≤ p'.epsPlDev) :
    runProgram (withMaterial R (inviscidMCC m)) i e fuel s = runProgram (withMaterial R (plainMCC m)) i e fuel s := by
  have hw : withMaterial (withMaterial R (plainMCC m)) (inviscidMCC m) = withMaterial R (inviscidMCC m) := rfl
  rw [← hw]
  rcases hoff with hdl | hoff
  · refine runProgram_swap_all (R := withMaterial R (plainMCC m)) hmin rfl rfl fun dt q hdt => ?_
    rw [hw, updated_of, updated_of]
    exact mcc_visc ok q (.inl hdl)
  · refine runProgram_swap (R := withMaterial R (plainMCC m)) hmin rfl rfl (fun dt q hdt h => ?_)
      (fun dt p q r x v hdt hpq h hgood => ?_) hoff
    · rw [hw, updated_of]
      rw [updated_of] at h
      rw [mcc_visc ok q (.inr fun r hr => ?_)]
      · exact h
      · rw [h] at hr; cases hr
    · rw [hw, updated_of]
      rw [updated_of] at h
      rw [mcc_visc ok q (.inr fun r' hr => ?_)]
      · exact h
      · rw [h] at hr
        obtain rfl := Option.some.inj hr
        obtain ⟨_, _, _, _, _, _, rfl⟩ := hpq.1
        exact hgood

end run
end
end Verif.Props
