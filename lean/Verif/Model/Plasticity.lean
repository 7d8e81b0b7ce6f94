import Verif.Model.Enums
import Verif.Model.CamClay
import Verif.Model.Boundary
import Verif.Model.Transfer
import Mathlib.Data.Matrix.Diagonal
import Mathlib.LinearAlgebra.Matrix.NonsingularInverse
import Mathlib.Analysis.SpecialFunctions.Log.Basic

/-!
# Model of `plasticity.cpp` and of the stress output of `save_data.cpp`

Over `ℝ`. The singular value decomposition of Eigen is a parameter `svd`; theorems about it assume
`IsSvd`. `none` = undefined behaviour (uninitialised variable read) or an operation that leaves the
real numbers (see `CamClay.lean`). Divisions by the material constants, by `dim` and by `dt` are plain
divisions; theorems assume these positive. An invalid value of one of the `enum`s is not modelled.
-/

namespace Verif
open Matrix

/-- The elastoplastic parameters of `Simulation` (simulation.hpp:46-47, 74-110). -/
structure Material where
  elastic : ElasticModel
  plastic : PlasticModel
  hardening : HardeningLaw
  usePradhana : Bool
  useMibf : Bool
  E : ℝ
  nu : ℝ
  stressTol : ℝ
  xi : ℝ
  qMax : ℝ
  qMin : ℝ
  pMin : ℝ
  M : ℝ
  qCohesion : ℝ
  viscExponent : ℝ
  viscTime : ℝ
  useDuvautLions : Bool
  beta : ℝ
  p0 : ℝ
  rhoS : ℝ
  grainDiameter : ℝ
  iRef : ℝ
  mu1 : ℝ
  mu2 : ℝ
  qPrefac : ℝ

namespace Material
variable (m : Material)

/-- `lambda` (simulation.cpp:112). -/
noncomputable def lam : ℝ := m.nu * m.E / ((1 + m.nu) * (1 - 2 * m.nu))
/-- `mu` (simulation.cpp:113). -/
noncomputable def mu : ℝ := m.E / (2 * (1 + m.nu))
/-- `K` (simulation.cpp:114, 283-285). -/
noncomputable def K (d : ℕ) : ℝ := m.lam + 2 * m.mu / d
/-- `d_prefac` (simulation.cpp:127). -/
noncomputable def dPre : ℝ := 1 / m.qPrefac
/-- `e_mu_prefac` (simulation.cpp:128). -/
noncomputable def eMu : ℝ := 2 * m.qPrefac * m.mu
/-- `f_mu_prefac` (simulation.cpp:129). -/
noncomputable def fMu : ℝ := 2 * m.qPrefac * m.qPrefac * m.mu
/-- `fac_Q` (simulation.cpp:131). -/
noncomputable def facQ : ℝ := m.iRef / (m.grainDiameter * Real.sqrt m.rhoS)

end Material

/-- Result of `Eigen::JacobiSVD`: `matrixU()`, `singularValues()`, `matrixV()`. -/
structure Svd (d : ℕ) where
  U : Matrix (Fin d) (Fin d) ℝ
  sig : Fin d → ℝ
  V : Matrix (Fin d) (Fin d) ℝ

/-- The contract of a singular value decomposition. -/
structure IsSvd {d : ℕ} (F : Matrix (Fin d) (Fin d) ℝ) (s : Svd d) : Prop where
  eq : F = s.U * diagonal s.sig * s.Vᵀ
  orthU : s.U * s.Uᵀ = 1
  orthV : s.V * s.Vᵀ = 1
  nonneg : ∀ i, 0 ≤ s.sig i

/-- The quantities computed from the trial deformation (plasticity.cpp:33-41). -/
structure Trial (d : ℕ) where
  hencky : Fin d → ℝ
  trace : ℝ
  norm : ℝ
  dir : Fin d → ℝ

/-- `hencky` (plasticity.cpp:15, 35). -/
noncomputable def Svd.hencky {d : ℕ} (s : Svd d) : Fin d → ℝ :=
  fun i => Real.log (max |s.sig i| 1e-4)

/-- plasticity.cpp:36-41. -/
noncomputable def mkTrial {d : ℕ} (h : Fin d → ℝ) : Trial d :=
  let trace := ∑ i, h i
  let dev : Fin d → ℝ := fun i => h i - trace / d
  let norm := vnorm dev
  { hencky := h
    trace := trace
    norm := norm
    dir := if norm > 0 then fun i => dev i / norm else dev }

/-- `svd.matrixU() * hencky.array().exp().matrix().asDiagonal() * svd.matrixV().transpose()`. -/
noncomputable def Svd.expF {d : ℕ} (s : Svd d) (h : Fin d → ℝ) : Matrix (Fin d) (Fin d) ℝ :=
  s.U * diagonal (fun i => Real.exp (h i)) * s.Vᵀ

/-- The variables written by a plastic model: the particle, `hencky`, the increment of
`plastic_count` and `exit`. -/
structure PState (d : ℕ) where
  q : Particle d ℝ
  hencky : Fin d → ℝ
  count : ℕ
  exit : Bool

variable {d : ℕ}

/-- von Mises (plasticity.cpp:44-63). -/
noncomputable def plastVM (m : Material) (dt : ℝ) (s : Svd d) (t : Trial d) (st : PState d) : PState d :=
  let qYield := m.qMax
  let dg := t.norm - qYield / m.eMu
  if dg > 0 then
    let h := t.hencky - dg • t.dir
    { st with
      count := st.count + 1
      hencky := h
      q := { st.q with
        deltaGamma := m.dPre * dg / dt
        F := s.expF h
        epsPlDev := st.q.epsPlDev + dg } }
  else st

/-- Drucker-Prager (plasticity.cpp:65-99). -/
noncomputable def plastDP (m : Material) (dt : ℝ) (s : Svd d) (t : Trial d) (st : PState d) : PState d :=
  let pTrial := -m.K d * t.trace
  let qYield := m.M * pTrial + m.qCohesion
  if qYield < 1e-10 then
    let pProj := -m.qCohesion / m.M
    let h : Fin d → ℝ := fun _ => -pProj / (m.K d * d)
    let dg := m.dPre * t.norm
    { st with
      count := st.count + 1
      hencky := h
      q := { st.q with
        F := s.expF h
        deltaGamma := dg / dt
        epsPlDev := st.q.epsPlDev + 1 / m.dPre * dg
        epsPlVol := st.q.epsPlVol + (pProj - pTrial) / m.K d } }
  else
    let dg := m.dPre * (t.norm - qYield / m.eMu)
    if dg > 0 then
      let h := t.hencky - (1 / m.dPre * dg) • t.dir
      { st with
        count := st.count + 1
        hencky := h
        q := { st.q with
          deltaGamma := dg / dt
          F := s.expF h
          epsPlDev := st.q.epsPlDev + 1 / m.dPre * dg } }
    else st

/-- Drucker-Prager with softening cohesion (plasticity.cpp:101-176). -/
noncomputable def plastDPSoft (m : Material) (dt : ℝ) (s : Svd d) (t : Trial d) (st : PState d) :
    PState d :=
  let pTrial := -m.K d * t.trace
  let qTrial := m.eMu * t.norm
  let pTipOrig := -m.qCohesion / m.M
  let pTip := pTipOrig * Real.exp (-m.xi * st.q.epsPlDev)
  let pShift := if m.usePradhana then -m.K d * st.q.epsPlVolPradhana else 0
  let qYield := m.M * (pTrial + pShift) + (-pTip * m.M)
  if pTrial + pShift ≤ pTip then
    let pProj := pTipOrig * Real.exp (-m.xi * st.q.epsPlDev)
    let h : Fin d → ℝ := fun _ => -pProj / (m.K d * d)
    let dg := m.dPre * t.norm
    let vol := (pProj - pTrial) / m.K d
    { st with
      count := st.count + 1
      hencky := h
      q := { st.q with
        F := s.expF h
        deltaGamma := dg / dt
        epsPlDev := st.q.epsPlDev + 1 / m.dPre * dg
        epsPlVol := st.q.epsPlVol + vol
        epsPlVolPradhana :=
          if m.usePradhana then st.q.epsPlVolPradhana + vol else st.q.epsPlVolPradhana } }
  else if qTrial ≤ qYield then
    { st with
      q := { st.q with
        epsPlVolPradhana := if m.usePradhana then 0 else st.q.epsPlVolPradhana
        deltaGamma := 0 } }
  else
    let tmp := st.q.epsPlDev + (t.norm - qYield / m.eMu)
    let pProj := pTipOrig * Real.exp (-m.xi * tmp)
    if pTrial + pShift < pProj then
      let dg := m.dPre * t.norm
      let vol := (pProj - pTrial) / m.K d
      let h : Fin d → ℝ := fun _ => -pProj / (m.K d * d)
      { st with
        count := st.count + 1
        hencky := h
        q := { st.q with
          F := s.expF h
          deltaGamma := dg / dt
          epsPlDev := st.q.epsPlDev + 1 / m.dPre * dg
          epsPlVol := st.q.epsPlVol + vol
          epsPlVolPradhana :=
            if m.usePradhana then st.q.epsPlVolPradhana + vol else st.q.epsPlVolPradhana } }
    else
      let qYieldNew := m.M * (pTrial + pShift) + (-pProj * m.M)
      let dg := m.dPre * (t.norm - qYieldNew / m.eMu)
      let h := t.hencky - (1 / m.dPre * dg) • t.dir
      { st with
        count := st.count + 1
        hencky := h
        q := { st.q with
          F := s.expF h
          deltaGamma := dg / dt
          epsPlDev := st.q.epsPlDev + 1 / m.dPre * dg
          epsPlVolPradhana := if m.usePradhana then 0 else st.q.epsPlVolPradhana } }

/-- The Newton loop of the viscoplastic models (plasticity.cpp:217-264, 335-378, 616-645) for a residual
and its derivative; `n` iterations remain. Returns `delta_gamma` and `exit`. -/
noncomputable def newtonLoop (resid diff : ℝ → Option ℝ) : ℕ → ℝ → Bool → Option (ℝ × Bool)
  | 0, dg, exit => some (dg, exit)
  | n + 1, dg, exit => do
    let exit := exit || n == 0
    let r ← resid dg
    if |r| < 1e-2 then some (dg, exit)
    else
      let rd ← diff dg
      let rd := if |rd| < 1e-14 then (if rd ≥ 0 then 1e-14 else -1e-14) else rd
      let dg := dg - r / rd
      newtonLoop resid diff n (if dg < 0 then 1e-10 else dg) exit

/-- Residual of the Duvaut-Lions flow rule (plasticity.cpp:232, 346); `qy` is the yield stress as a
function of `delta_gamma`. -/
noncomputable def residDL (m : Material) (dt qTrial : ℝ) (qy : ℝ → ℝ) (dg : ℝ) : Option ℝ := do
  let w ← fpow (m.viscTime / dt * dg) m.viscExponent
  some (qTrial - qy dg - m.fMu * (w + dg))

/-- Its derivative as used (plasticity.cpp:236, 350); `qyDiff` is the derivative of the yield stress. -/
noncomputable def residDiffDL (m : Material) (dt : ℝ) (qyDiff : ℝ → ℝ) (dg : ℝ) : Option ℝ := do
  let a ← fpow (m.viscTime / dt) m.viscExponent
  let b ← fpow dg (m.viscExponent - 1)
  some (-qyDiff dg - m.fMu * (a * m.viscExponent * b + 1))

/-- Residual of the Perzyna flow rule (plasticity.cpp:241-245, 355-359, 623-627). -/
noncomputable def residPerzyna (m : Material) (dt qTrial : ℝ) (qy : ℝ → ℝ) (dg : ℝ) : Option ℝ := do
  let tm := m.viscTime * dg + dt
  let tmp ← fdiv dt tm
  let tmp1 ← fpow tmp m.viscExponent
  some ((qTrial - m.fMu * dg) * tmp1 - qy dg)

/-- Its derivative as used (plasticity.cpp:250, 363, 632). -/
noncomputable def residDiffPerzyna (m : Material) (dt qTrial : ℝ) (qyDiff : ℝ → ℝ) (dg : ℝ) :
    Option ℝ := do
  let tm := m.viscTime * dg + dt
  let tmp ← fdiv dt tm
  let tmp1 ← fpow tmp m.viscExponent
  let tmp2 ← fpow tmp (m.viscExponent - 1)
  let r ← fdiv ((qTrial - m.fMu * dg) * m.viscExponent * tmp2 * (-m.viscTime * dt)) (tm * tm)
  some (-m.fMu * tmp1 + r - qyDiff dg)

/-- The closed form for exponent one (plasticity.cpp:203-212, 320-329). Returns `delta_gamma` and
whether it is negative (then `exit` is set). -/
noncomputable def closedForm (m : Material) (dt qTrial qYield : ℝ) : ℝ × Bool :=
  let dg := if m.useDuvautLions then (qTrial - qYield) / (m.fMu * (1 + m.viscTime / dt))
    else (qTrial - qYield) / (m.fMu + qYield * m.viscTime / dt)
  (dg, decide (dg < 0))

/-- The plastic increment of the viscous models (plasticity.cpp:200-265, 317-380): closed form if
`closed`, otherwise Newton from 1% of the rate-independent increment; `qy`, `qyDiff` are the yield stress
and its derivative as functions of the increment. Returns `delta_gamma` and `exit`. -/
noncomputable def viscIncrement (m : Material) (dt : ℝ) (closed : Bool) (qTrial qYield : ℝ)
    (qy qyDiff : ℝ → ℝ) (exit : Bool) : Option (ℝ × Bool) :=
  if closed then some ((closedForm m dt qTrial qYield).1, exit || (closedForm m dt qTrial qYield).2)
  else
    let dg0 := 0.01 * (qTrial - qYield) / m.fMu
    if m.useDuvautLions then newtonLoop (residDL m dt qTrial qy) (residDiffDL m dt qyDiff) 60 dg0 exit
    else newtonLoop (residPerzyna m dt qTrial qy) (residDiffPerzyna m dt qTrial qyDiff) 60 dg0 exit

/-- Viscous von Mises (plasticity.cpp:178-273). -/
noncomputable def plastVMVisc (m : Material) (dt : ℝ) (s : Svd d) (t : Trial d) (st : PState d) :
    Option (PState d) :=
  let qTrial := m.eMu * t.norm
  let qYield := m.qMin + (m.qMax - m.qMin) * Real.exp (-m.xi * st.q.epsPlDev)
  let pTrial := -m.K d * t.trace
  if pTrial < m.pMin * Real.exp (-m.xi * st.q.epsPlVol) then
    let dg := qTrial / m.fMu
    some { st with
      q := { st.q with
        F := s.U * s.Vᵀ
        epsPlVol := st.q.epsPlVol + -pTrial / m.K d
        epsPlDev := st.q.epsPlDev + 1 / m.dPre * dg
        deltaGamma := dg / dt } }
  else if qTrial > qYield then do
    let soft : ℝ → ℝ := fun dg => Real.exp (-m.xi * (st.q.epsPlDev + 1 / m.dPre * dg))
    let qy : ℝ → ℝ := fun dg => m.qMin + (m.qMax - m.qMin) * soft dg
    let qyDiff : ℝ → ℝ := fun dg => -m.xi / m.dPre * (m.qMax - m.qMin) * soft dg
    let r ← viscIncrement m dt (decide (m.viscExponent = 1 ∧ m.xi = 0)) qTrial qYield qy qyDiff st.exit
    let h := t.hencky - (1 / m.dPre * r.1) • t.dir
    some
      { count := st.count + 1
        exit := r.2
        hencky := h
        q := { st.q with
          F := s.expF h
          epsPlDev := st.q.epsPlDev + 1 / m.dPre * r.1
          deltaGamma := r.1 / dt } }
  else some st

/-- Viscous Drucker-Prager (plasticity.cpp:275-394). -/
noncomputable def plastDPVisc (m : Material) (dt : ℝ) (s : Svd d) (t : Trial d) (st : PState d) :
    Option (PState d) :=
  let pTrial := -m.K d * t.trace
  let qTrial := m.eMu * t.norm
  let pTip := -m.qCohesion / m.M
  let pShift := if m.usePradhana then -m.K d * st.q.epsPlVolPradhana else 0
  let qYield := m.M * (pTrial + pShift) + m.qCohesion
  let st := if m.useMibf then { st with q := { st.q with muI := m.M } } else st
  let st :=
    if pTrial + pShift < pTip then
      let dg := m.dPre * t.norm
      let vol := (pTip - pTrial) / m.K d
      let h : Fin d → ℝ := fun _ => -pTip / (m.K d * d)
      { st with
        count := st.count + 1
        hencky := h
        q := { st.q with
          F := s.expF h
          deltaGamma := dg / dt
          epsPlDev := st.q.epsPlDev + 1 / m.dPre * dg
          epsPlVol := st.q.epsPlVol + vol
          epsPlVolPradhana :=
            if m.usePradhana then st.q.epsPlVolPradhana + vol else st.q.epsPlVolPradhana } }
    else
      { st with
        q := { st.q with
          epsPlVolPradhana := if m.usePradhana then 0 else st.q.epsPlVolPradhana
          deltaGamma := 0 } }
  if pTrial + pShift > pTip ∧ qTrial > qYield then do
    let r ← viscIncrement m dt (decide (m.viscExponent = 1)) qTrial qYield (fun _ => qYield) (fun _ => 0)
      st.exit
    let muI := if m.useMibf then
        if |pTrial + pShift| < 1e-10 then 1e10
        else (qTrial - m.fMu * r.1 - m.qCohesion) / (pTrial + pShift)
      else st.q.muI
    let h := t.hencky - (1 / m.dPre * r.1) • t.dir
    some
      { count := st.count + 1
        exit := r.2
        hencky := h
        q := { st.q with
          muI := muI
          F := s.expF h
          epsPlDev := st.q.epsPlDev + 1 / m.dPre * r.1
          deltaGamma := r.1 / dt } }
  else some st

/-- The positive root `(-b + sqrt(b*b - 4*a*c)) / (2*a)` (plasticity.cpp:443, 521). -/
noncomputable def posRoot (a b c : ℝ) : ℝ := (-b + Real.sqrt (b * b - 4 * a * c)) / (2 * a)

/-- mu(I) Drucker-Prager (plasticity.cpp:397-458). The radicands and divisors there are positive
whenever the parameters are (proved with the theorems about this function). -/
noncomputable def plastDPMui (m : Material) (dt : ℝ) (s : Svd d) (t : Trial d) (st : PState d) :
    PState d :=
  let pTrial := -m.K d * t.trace
  let qTrial := m.eMu * t.norm
  let pTip := -m.qCohesion / m.mu1
  let pShift := if m.usePradhana then -m.K d * st.q.epsPlVolPradhana else 0
  let st : PState d := { st with q := { st.q with muI := m.mu1, viscosity := 0 } }
  let st :=
    if pTrial + pShift < pTip then
      let dg := m.dPre * t.norm
      let vol := (pTip - pTrial) / m.K d
      let h : Fin d → ℝ := fun _ => -pTip / (m.K d * d)
      { st with
        count := st.count + 1
        hencky := h
        q := { st.q with
          F := s.expF h
          deltaGamma := dg
          epsPlDev := st.q.epsPlDev + 1 / m.dPre * dg
          epsPlVol := st.q.epsPlVol + vol
          epsPlVolPradhana := st.q.epsPlVolPradhana + vol } }
    else { st with q := { st.q with epsPlVolPradhana := 0 } }
  let qYield := m.mu1 * (pTrial + pShift) + m.qCohesion
  if pTrial + pShift > pTip ∧ qTrial > qYield + m.stressTol then
    let pSpecial := pTrial + pShift - pTip + m.stressTol
    let a := m.fMu * dt
    let b := pTrial * (m.mu2 - m.mu1) + m.fMu * dt * m.facQ * Real.sqrt pSpecial - (qTrial - qYield)
    let c := -(qTrial - qYield) * m.facQ * Real.sqrt pSpecial
    let rate := posRoot a b c
    let muI := m.mu1 + (m.mu2 - m.mu1) / (m.facQ * Real.sqrt pSpecial / rate + 1)
    let dg := rate * dt
    let h := t.hencky - (1 / m.dPre * dg) • t.dir
    { st with
      count := st.count + 1
      hencky := h
      q := { st.q with
        muI := muI
        viscosity := (muI - m.mu1) * pSpecial / rate
        F := s.expF h
        epsPlDev := st.q.epsPlDev + 1 / m.dPre * dg
        deltaGamma := dg / dt } }
  else st

/-- The hardening law with exponential, `p0*exp(-xi*eps)` (plasticity.cpp:473, 508, 561, 671). -/
noncomputable def Material.expLaw (m : Material) (eps : ℝ) : ℝ := m.p0 * Real.exp (-m.xi * eps)

/-- The hardening law with sinh, `K*sinh(-xi*eps + asinh(p0/K))` (plasticity.cpp:478, 511, 566, 674). -/
noncomputable def Material.sinhLaw (m : Material) (d : ℕ) (eps : ℝ) : ℝ :=
  m.K d * Real.sinh (-m.xi * eps + Real.arsinh (m.p0 / m.K d))

/-- Call of the return mapping selected by the hardening law with slope `slope`
(plasticity.cpp:472-493, 556-580); returns also the local variable `p_c`, `none` if it is left
uninitialised. With `allowNoHard = false` (MCCMui) the law `NoHard` is invalid and `perform_rma` is
read uninitialised: undefined. -/
noncomputable def mccReturn (cabs : ℝ → ℝ) (m : Material) (d : ℕ) (allowNoHard : Bool) (slope epsVol p q : ℝ)
    (exit : Bool) : Option (Option ℝ × Rma) :=
  match m.hardening with
  | .noHard =>
    if allowNoHard then do
      let r ← mccRmaExplicit cabs p q exit slope m.p0 m.beta (m.K d) m.fMu
      some (none, r)
    else none
  | .expoExpl => do
    let pc := max m.stressTol (m.expLaw epsVol)
    let r ← mccRmaExplicit cabs p q exit slope pc m.beta (m.K d) m.fMu
    some (some pc, r)
  | .sinhExpl => do
    let pc := max m.stressTol (m.sinhLaw d epsVol)
    let r ← mccRmaExplicit cabs p q exit slope pc m.beta (m.K d) m.fMu
    some (some pc, r)
  | .expoImpl => do
    let r ← mccRmaImplicitExponentialOnevar cabs p q exit slope m.p0 m.beta m.mu (m.K d) m.xi epsVol
    some (none, r)
  | .sinhImpl => do
    let r ← mccRmaImplicitSinhOnevar p q exit slope m.p0 m.beta m.mu (m.K d) m.xi epsVol
    some (none, r)

/-- mu(I) Cam-Clay (plasticity.cpp:460-538). -/
noncomputable def plastMCCMui (cabs : ℝ → ℝ) (m : Material) (dt : ℝ) (s : Svd d) (t : Trial d)
    (st : PState d) : Option (PState d) := do
  let pTrial := -m.K d * t.trace
  let qTrial := m.eMu * t.norm
  let (pc?, r) ← mccReturn cabs m d false m.mu1 st.q.epsPlVol pTrial qTrial st.exit
  let st : PState d := { st with exit := r.exit, q := { st.q with muI := m.mu1, viscosity := 0 } }
  if r.did then
    let ep := r.p / (m.K d * d)
    let epsVol := st.q.epsPlVol + (t.trace + d * ep)
    let st : PState d := { st with count := st.count + 1, q := { st.q with epsPlVol := epsVol } }
    let (st, qs) ← if qTrial > r.q + m.stressTol then do
        let pc ← match m.hardening with
          | .expoImpl => some (max (m.expLaw epsVol) (r.p + m.stressTol))
          | .sinhImpl => some (max (m.sinhLaw d epsVol) (r.p + m.stressTol))
          | _ => pc?
        let pSpecial := r.p + m.beta * pc + m.stressTol
        let rp ← fsqrt pSpecial
        let rr ← fsqrt ((pc - r.p) * pSpecial)
        let a := m.fMu * dt
        let b := rr * (m.mu2 - m.mu1) + m.fMu * dt * m.facQ * rp - (qTrial - r.q)
        let c := -(qTrial - r.q) * m.facQ * rp
        let rate := posRoot a b c
        let qs := max r.q (qTrial - m.fMu * dt * rate)
        let w ← fdiv (m.facQ * rp) rate
        let muI := m.mu1 + (m.mu2 - m.mu1) / (w + 1)
        let dg := (qTrial - qs) / m.fMu
        some ({ st with q := { st.q with
            muI := muI
            viscosity := (muI - m.mu1) * rr / rate
            epsPlDev := st.q.epsPlDev + 1 / m.dPre * dg
            deltaGamma := dg / dt } }, qs)
      else some (st, r.q)
    let h : Fin d → ℝ := fun i => qs / m.eMu * t.dir i - ep
    some { st with hencky := h, q := { st.q with F := s.expF h } }
  else some st

/-- The viscous correction of `MCCVisc` (plasticity.cpp:588-653): the factor `b`, the new `q_stress`
and `exit`. -/
noncomputable def mccViscous (m : Material) (dt qTrial qYield : ℝ) (exit : Bool) :
    Option (ℝ × ℝ × Bool) :=
  if m.useDuvautLions then
    some (1 / (1 + m.viscTime / dt), qYield, exit || decide (m.viscExponent ≠ 1))
  else do
    let r ← if m.viscExponent = 1 then do
        let dg ← fdiv (qTrial - qYield) (m.fMu + qYield * m.viscTime / dt)
        some (if dg < 0 then (if dg > -1e-14 then (0, exit) else (dg, true)) else (dg, exit))
      else
        newtonLoop (residPerzyna m dt qTrial fun _ => qYield) (residDiffPerzyna m dt qTrial fun _ => 0) 60
          (0.01 * (qTrial - qYield) / m.fMu) exit
    some (1, max qYield (qTrial - m.fMu * r.1), r.2)

/-- The friction value stored by MCC/MCCVisc for the internal boundary friction
(plasticity.cpp:669-688); reading an uninitialised `p_c` is undefined. -/
noncomputable def mccMuI (m : Material) (d : ℕ) (pc? : Option ℝ) (epsVol pStress qStress hDev qTrial b : ℝ) :
    Option ℝ := do
  let pc ← match m.hardening with
    | .expoImpl => some (max 0 (m.expLaw epsVol))
    | .sinhImpl => some (max 0 (m.sinhLaw d epsVol))
    | _ => pc?
  if pStress < -m.beta * pc + m.stressTol ∨ pStress > pc - m.stressTol then some m.M
  else
    let rr ← fsqrt ((pStress + m.beta * pc) * (pc - pStress))
    if m.useDuvautLions then fdiv ((m.eMu * hDev - qTrial * (1 - b)) / b) rr
    else fdiv qStress rr

/-- Modified Cam-Clay and its viscous variant (plasticity.cpp:541-691). -/
noncomputable def plastMCC (cabs : ℝ → ℝ) (m : Material) (dt : ℝ) (s : Svd d) (t : Trial d)
    (st : PState d) : Option (PState d) := do
  let pTrial := -m.K d * t.trace
  let qTrial := m.eMu * t.norm
  let st := if m.useMibf then { st with q := { st.q with muI := m.M } } else st
  let (pc?, r) ← mccReturn cabs m d true m.M st.q.epsPlVol pTrial qTrial st.exit
  let st : PState d := { st with exit := r.exit }
  if r.did then
    let v ← if m.plastic = .mccVisc then mccViscous m dt qTrial r.q r.exit else some (1, r.q, r.exit)
    let b := v.1
    let qs := v.2.1
    let volInst := -b * (pTrial - r.p) / m.K d
    let devInst := b * (qTrial - qs) / m.eMu
    let hVol := -pTrial / m.K d - volInst
    let hDev := qTrial / m.eMu - devInst
    let h : Fin d → ℝ := fun i => hDev * t.dir i + hVol / d
    let epsVol := st.q.epsPlVol + volInst
    let muI ← if m.useMibf then mccMuI m d pc? epsVol r.p qs hDev qTrial b else some st.q.muI
    some
      { count := st.count + 1
        exit := v.2.2
        hencky := h
        q := { st.q with
          epsPlVol := epsVol
          epsPlDev := st.q.epsPlDev + devInst
          deltaGamma := m.dPre * devInst / dt
          F := s.expF h
          muI := muI } }
  else some st

/-- The Kirchhoff stress of Hencky elasticity (plasticity.cpp:25-27, 701-703). -/
noncomputable def henckyTau (lam mu : ℝ) (U : Matrix (Fin d) (Fin d) ℝ) (h : Fin d → ℝ) :
    Matrix (Fin d) (Fin d) ℝ :=
  U * diagonal (fun i => lam * (∑ j, h j) * 1 + 2 * mu * h i) * Uᵀ

/-- The Kirchhoff stress of the neo-Hookean model (plasticity.cpp:21-22, 697-698), for a positive determinant (see
`plastModel`). -/
noncomputable def neoHookeanTau (lam mu : ℝ) (F : Matrix (Fin d) (Fin d) ℝ) :
    Matrix (Fin d) (Fin d) ℝ :=
  (mu • (F - (Fᵀ)⁻¹) + (lam * Real.log F.det) • (Fᵀ)⁻¹) * Fᵀ

/-- plasticity.cpp:20-28, 694-707. -/
noncomputable def newTau (m : Material) (s : Svd d) (h : Fin d → ℝ) (F : Matrix (Fin d) (Fin d) ℝ) :
    Matrix (Fin d) (Fin d) ℝ :=
  match m.elastic with
  | .neoHookean => neoHookeanTau m.lam m.mu F
  | .hencky => henckyTau m.lam m.mu s.U h

/-- The plastic model applied to the trial state (plasticity.cpp:44-691). Without plasticity the neo-Hookean stress of a
singular or inverted deformation is inf or NaN (division by zero, logarithm of a number that is not positive,
plasticity.cpp:21): `none`. With plasticity `simulate` refuses the neo-Hookean law (simulation.cpp:80-85). -/
noncomputable def plastModel (cabs : ℝ → ℝ) (m : Material) (dt : ℝ) (s : Svd d) (t : Trial d)
    (st : PState d) : Option (PState d) :=
  match m.plastic with
  | .noPlasticity => if m.elastic = .neoHookean ∧ st.q.F.det ≤ 0 then none else some st
  | .vm => some (plastVM m dt s t st)
  | .dp => some (plastDP m dt s t st)
  | .dpSoft => some (plastDPSoft m dt s t st)
  | .vmVisc => plastVMVisc m dt s t st
  | .dpVisc => plastDPVisc m dt s t st
  | .dpMui => some (plastDPMui m dt s t st)
  | .mccMui => plastMCCMui cabs m dt s t st
  | .mcc => plastMCC cabs m dt s t st
  | .mccVisc => plastMCC cabs m dt s t st

/-- `plasticity` (plasticity.cpp:10-715) for a particle whose `F` already holds the trial deformation
gradient (deformation_update.cpp:59, g2p.cpp:99). -/
noncomputable def plasticity (cabs : ℝ → ℝ) (svd : Matrix (Fin d) (Fin d) ℝ → Svd d) (m : Material)
    (dt : ℝ) (q : Particle d ℝ) (exit : Bool) : Option (PState d) := do
  let s := svd q.F
  let t := mkTrial s.hencky
  let st ← plastModel cabs m dt s t { q := q, hencky := s.hencky, count := 0, exit := exit }
  some { st with q := { st.q with tau := newTau m s st.hencky st.q.F } }

/-- The pressure written to the particle file (save_data.cpp:30). -/
noncomputable def savedP (tau : Matrix (Fin d) (Fin d) ℝ) : ℝ := -tau.trace / d

/-- The shear stress written to the particle file (save_data.cpp:31-32). -/
noncomputable def savedQ (qPrefac : ℝ) (tau : Matrix (Fin d) (Fin d) ℝ) : ℝ :=
  qPrefac * Real.sqrt (selfDoubleDot (tau + savedP tau • (1 : Matrix (Fin d) (Fin d) ℝ)))

/-- `NeoHookeanPiola` (simulation.hpp:230-232), for a positive determinant. -/
noncomputable def neoHookeanPiola (lam mu : ℝ) (F : Matrix (Fin d) (Fin d) ℝ) :
    Matrix (Fin d) (Fin d) ℝ :=
  mu • (F - (Fᵀ)⁻¹) + (lam * Real.log F.det) • (Fᵀ)⁻¹

/-- `HenckyPiola` (simulation.hpp:234-241). -/
noncomputable def henckyPiola (lam mu : ℝ) (s : Svd d) : Matrix (Fin d) (Fin d) ℝ :=
  let logS : Matrix (Fin d) (Fin d) ℝ := diagonal fun i => Real.log |s.sig i|
  let invS : Matrix (Fin d) (Fin d) ℝ := diagonal fun i => (s.sig i)⁻¹
  s.U * ((2 * mu) • (invS * logS) + (lam * logS.trace) • invS) * s.Vᵀ

end Verif
