import Verif.Props.CamClayVisc

set_option linter.unusedSectionVars false
set_option linter.unusedSimpArgs false
set_option linter.unusedVariables false

/-!
# C39, C40 for the mu(I) Cam-Clay model
-/

namespace Verif.Props
open Verif Matrix

variable {d : ℕ}

/-- Preconsolidation pressure used by the friction law of the mu(I) Cam-Clay model for the pressure `p`,
old and new plastic volumetric strain. -/
noncomputable def frictionPc (m : Material) (d : ℕ) (old new p : ℝ) : ℝ :=
  match m.hardening with
  | .expoImpl => max (m.p0 * Real.exp (-m.xi * new)) (p + m.stressTol)
  | .sinhImpl =>
    max (m.K d * Real.sinh (-m.xi * new + Real.arsinh (m.p0 / m.K d))) (p + m.stressTol)
  | _ => hardeningPc m d old

lemma fsqrt_some {x r : ℝ} (h : fsqrt x = some r) : 0 ≤ x ∧ r = Real.sqrt x := by
  unfold fsqrt at h
  split_ifs at h with h1
  exact ⟨not_lt.mp h1, (Option.some.inj h).symm⟩

/-- State after the correction by the mu(I) Cam-Clay model. -/
noncomputable def muiDone (m : Material) (s : Svd d) (t : Trial d) (st : PState d) (p qs epsVol epsDev dg visc muI : ℝ)
    (e : Bool) : PState d :=
  { count := st.count + 1
    exit := e
    hencky := fun i => qs / m.eMu * t.dir i - p / (m.K d * d)
    q := { st.q with
      epsPlVol := epsVol
      epsPlDev := epsDev
      deltaGamma := dg
      viscosity := visc
      muI := muI
      F := s.expF fun i => qs / m.eMu * t.dir i - p / (m.K d * d) } }

lemma plastMCCMui_shape {cabs : ℝ → ℝ} {m : Material} {dt : ℝ} {s : Svd d} {t : Trial d} {st out : PState d}
    (h : plastMCCMui cabs m dt s t st = some out) :
    ∃ pc? r, mccReturn cabs m d false m.mu1 st.q.epsPlVol (-m.K d * t.trace) (m.eMu * t.norm) st.exit =
        some (pc?, r) ∧
      (r.did = false ∧ out = { st with exit := r.exit, q := { st.q with muI := m.mu1, viscosity := 0 } } ∨
       r.did = true ∧ ¬ m.eMu * t.norm > r.q + m.stressTol ∧
        out = muiDone m s t st r.p r.q (st.q.epsPlVol + (t.trace + d * (r.p / (m.K d * d)))) st.q.epsPlDev
          st.q.deltaGamma 0 m.mu1 r.exit ∨
       r.did = true ∧ m.eMu * t.norm > r.q + m.stressTol ∧ ∃ pc rp rr rate qs w,
        pc = frictionPc m d st.q.epsPlVol (st.q.epsPlVol + (t.trace + d * (r.p / (m.K d * d)))) r.p ∧
        fsqrt (r.p + m.beta * pc + m.stressTol) = some rp ∧
        fsqrt ((pc - r.p) * (r.p + m.beta * pc + m.stressTol)) = some rr ∧
        rate = posRoot (m.fMu * dt) (rr * (m.mu2 - m.mu1) + m.fMu * dt * m.facQ * rp - (m.eMu * t.norm - r.q))
          (-(m.eMu * t.norm - r.q) * m.facQ * rp) ∧
        qs = max r.q (m.eMu * t.norm - m.fMu * dt * rate) ∧
        fdiv (m.facQ * rp) rate = some w ∧
        out = muiDone m s t st r.p qs (st.q.epsPlVol + (t.trace + d * (r.p / (m.K d * d))))
          (st.q.epsPlDev + 1 / m.dPre * ((m.eMu * t.norm - qs) / m.fMu)) ((m.eMu * t.norm - qs) / m.fMu / dt)
          ((m.mu1 + (m.mu2 - m.mu1) / (w + 1) - m.mu1) * rr / rate) (m.mu1 + (m.mu2 - m.mu1) / (w + 1)) r.exit) := by
  unfold plastMCCMui at h
  simp only [Option.bind_eq_bind, Option.bind_eq_some_iff] at h
  obtain ⟨⟨pc?, r⟩, hr, h⟩ := h
  refine ⟨pc?, r, hr, ?_⟩
  simp only at h
  cases hd : r.did with
  | false =>
    left
    simp only [hd, Bool.false_eq_true, if_false, Option.some.injEq] at h
    exact ⟨rfl, h.symm⟩
  | true =>
    right
    rw [if_pos hd] at h
    by_cases hc : m.eMu * t.norm > r.q + m.stressTol
    · right
      refine ⟨rfl, hc, ?_⟩
      rw [if_pos hc] at h
      cases hh : m.hardening
      all_goals
        simp only [hh, Option.bind_some, Option.bind_eq_some_iff] at h
      · obtain ⟨pc, hpc, rp, hrp, rr, hrr, w, hw, h⟩ := h
        simp [mccReturn, hh] at hr
      · obtain ⟨pc, hpc, rp, hrp, rr, hrr, w, hw, h⟩ := h
        refine ⟨pc, rp, rr, _, _, w, ?_, hrp, hrr, rfl, rfl, hw, (Option.some.inj h).symm⟩
        simp only [mccReturn, hh, Option.bind_eq_bind, Option.bind_eq_some_iff, Option.some.injEq,
          Prod.mk.injEq] at hr
        obtain ⟨_, -, h1, -⟩ := hr
        rw [hpc, Option.some.injEq] at h1
        simp only [frictionPc, hardeningPc, hh, ← h1]
        rfl
      · obtain ⟨pc, hpc, rp, hrp, rr, hrr, w, hw, h⟩ := h
        refine ⟨pc, rp, rr, _, _, w, ?_, hrp, hrr, rfl, rfl, hw, (Option.some.inj h).symm⟩
        simp only [mccReturn, hh, Option.bind_eq_bind, Option.bind_eq_some_iff, Option.some.injEq,
          Prod.mk.injEq] at hr
        obtain ⟨_, -, h1, -⟩ := hr
        rw [hpc, Option.some.injEq] at h1
        simp only [frictionPc, hardeningPc, hh, ← h1]
        rfl
      · obtain ⟨rp, hrp, rr, hrr, w, hw, h⟩ := h
        refine ⟨_, rp, rr, _, _, w, ?_, hrp, hrr, rfl, rfl, hw, (Option.some.inj h).symm⟩
        simp only [frictionPc, hh]
        rfl
      · obtain ⟨rp, hrp, rr, hrr, w, hw, h⟩ := h
        refine ⟨_, rp, rr, _, _, w, ?_, hrp, hrr, rfl, rfl, hw, (Option.some.inj h).symm⟩
        simp only [frictionPc, hh]
        rfl
    · left
      rw [if_neg hc] at h
      refine ⟨rfl, hc, ?_⟩
      simp only [Option.bind_some] at h
      exact (Option.some.inj h).symm

/-- Positive root if the constant coefficient vanishes but the linear one is negative. -/
lemma posRoot_spec' {a b c : ℝ} (ha : 0 < a) (hc : c < 0 ∨ c = 0 ∧ b < 0) :
    0 < posRoot a b c ∧ a * (posRoot a b c * posRoot a b c) + b * posRoot a b c + c = 0 := by
  rcases hc with hc | ⟨rfl, hb⟩
  · exact ⟨(posRoot_spec ha hc).1, (posRoot_spec ha hc).2.1⟩
  · have : posRoot a b 0 = -b / a := by
      unfold posRoot
      rw [mul_zero, sub_zero, Real.sqrt_mul_self_eq_abs, abs_of_neg hb]
      field_simp
      ring
    rw [this]
    refine ⟨div_pos (by linarith) ha, ?_⟩
    field_simp
    ring

/-- **C39**, **C40** mu(I) Cam-Clay: `(newP, qy)` is on the static ellipse (slope `mu1`). Up to the tolerance the
new shear stress is `qy`; otherwise it exceeds `qy` by `(mu(I) - mu1)` times the ellipse function, where
`mu(I)` between `mu1` and `mu2` belongs to the shear rate stored. -/
theorem C39_camClay {cabs} {svd : Matrix (Fin d) (Fin d) ℝ → Svd d} {m : Material} (ok : MatOk m d)
    (cam : CamOk m) (hm : m.plastic = .mccMui) (h1 : 0 ≤ m.mu1) (h12 : m.mu1 < m.mu2) (hfq : 0 < m.facQ)
    {dt : ℝ} (hdt : 0 < dt) (q : Particle d ℝ) (exit : Bool) (hs : IsSvd q.F (svd q.F)) {out : PState d}
    (h : plasticity cabs svd m dt q exit = some out)
    {P Q : ℝ} (hPd : P = trialP m (svd q.F)) (hQd : Q = trialQ m (svd q.F)) :
    (¬ OutsideEllipse m.mu1 (hardeningPc m d q.epsPlVol) m.beta P Q ∧
      StayedElastic m q (svd q.F) out ∧ out.exit = exit ∧ out.q.muI = m.mu1 ∧ out.q.viscosity = 0) ∨
    ∃ qy, Returned m d m.mu1 q.epsPlVol P Q (newP out) qy ∧
      out.q.epsPlVol = q.epsPlVol + (newP out - P) / m.K d ∧ (Q = 0 → newQ m out = 0) ∧
      (Q ≤ qy + m.stressTol → (0 < Q → newQ m out = qy) ∧ out.q.muI = m.mu1 ∧ out.q.viscosity = 0 ∧
        out.q.epsPlDev = q.epsPlDev) ∧
      (qy + m.stressTol < Q → 0 < out.q.deltaGamma ∧ m.mu1 < out.q.muI ∧ out.q.muI ≤ m.mu2 ∧
        m.fMu * (out.q.deltaGamma * dt) = Q - newQ m out ∧
        out.q.epsPlDev = q.epsPlDev + (Q - newQ m out) / m.eMu ∧
        ∃ pc ps, pc = frictionPc m d q.epsPlVol out.q.epsPlVol (newP out) ∧
          ps = newP out + m.beta * pc + m.stressTol ∧ 0 ≤ ps ∧
          out.q.muI = muOfRate m ps out.q.deltaGamma ∧
          newQ m out = qy + (out.q.muI - m.mu1) * Real.sqrt ((pc - newP out) * ps) ∧
          out.q.viscosity * out.q.deltaGamma = (out.q.muI - m.mu1) * Real.sqrt ((pc - newP out) * ps)) ∧
      SameMotion q out.q := by
  obtain ⟨hP, hQ⟩ := trial_eq ok hs
  rw [← hPd] at hP
  rw [← hQd] at hQ
  have he := ok.eMu_pos
  have hf := ok.fMu_pos
  have hK := ok.hK
  have hdn := ok.dne
  have hQ0 : 0 ≤ Q := by rw [hQ]; exact mul_nonneg he.le (mkTrial_norm_nonneg _)
  obtain ⟨st, h1', rfl⟩ := plasticity_some.mp h
  simp only [plastModel, hm] at h1'
  obtain ⟨pc?, r, hr, h1'⟩ := plastMCCMui_shape h1'
  rw [← hP, ← hQ] at hr
  rw [← hQ] at h1'
  simp only [newP, newQ, newTau_hencky ok.hel]
  have hnorm : 0 < Q ↔ 0 < (mkTrial (svd q.F).hencky).norm := by
    rw [hQ]; exact mul_pos_iff_of_pos_left he
  have hnorm0 : Q = 0 → (mkTrial (svd q.F).hencky).norm = 0 := by
    rw [hQ]; intro hz; exact (mul_eq_zero.mp hz).resolve_left he.ne'
  have hvol : ∀ p, (mkTrial (svd q.F).hencky).trace + d * (p / (m.K d * d)) = (p - P) / m.K d := by
    intro p; rw [hP]; field_simp; ring
  rcases mccReturn_spec cam hK h1 hr with ⟨d1, d2, d3, d4, d5⟩ | ⟨d1, d2⟩
  · left
    rcases h1' with ⟨-, rfl⟩ | ⟨h2, -⟩ | ⟨h2, -⟩
    · refine ⟨d2, ?_, d5, rfl, rfl⟩
      unfold StayedElastic
      simp only [elasticTau_eq hs]
    · rw [d1] at h2; simp at h2
    · rw [d1] at h2; simp at h2
  · right
    have hq0 : 0 ≤ r.q := by obtain ⟨-, pc, -, ⟨a, -⟩, -⟩ := d2; exact a
    have hsav := fun (qs : ℝ) (hqs : 0 ≤ qs) => saved_dev ok hs.orthU (svd q.F).hencky (a := qs) (p := r.p)
      (h' := fun i => qs / m.eMu * (mkTrial (svd q.F).hencky).dir i - r.p / (m.K d * d)) hqs
      (by intro i; ring)
    rcases h1' with ⟨h2, -⟩ | ⟨-, hc, rfl⟩ | ⟨-, hc, pc, rp, rr, rate, qs, w, hpc, hrp, hrr, hrate, hqs, hw, rfl⟩
    · rw [d1] at h2; simp at h2
    · obtain ⟨s1, s2, s3, s4⟩ := hsav r.q hq0
      simp only [muiDone]
      rw [s1, hvol]
      exact ⟨r.q, d2, rfl, fun hz => s4 (hnorm0 hz), fun _ => ⟨fun hp => s3 (hnorm.mp hp), by trivial, by trivial, by trivial⟩,
        fun hlt => absurd hlt hc, ⟨rfl, rfl, rfl, rfl, rfl⟩⟩
    · have hqsn : 0 ≤ qs := by rw [hqs]; exact hq0.trans (le_max_left _ _)
      obtain ⟨s1, s2, s3, s4⟩ := hsav qs hqsn
      simp only [muiDone]
      rw [s1, hvol]
      rw [hvol] at hpc
      have htol := cam.tol
      have hX : 0 < Q - r.q := by linarith
      have hQp : 0 < Q := by linarith
      have hnp := hnorm.mp hQp
      rw [s3 hnp]
      obtain ⟨hps, hrp'⟩ := fsqrt_some hrp
      obtain ⟨hpr, hrr'⟩ := fsqrt_some hrr
      have hrp0 : 0 ≤ rp := by rw [hrp']; exact Real.sqrt_nonneg _
      have hrr0 : 0 ≤ rr := by rw [hrr']; exact Real.sqrt_nonneg _
      have hfd : 0 < m.fMu * dt := by positivity
      obtain ⟨r0, req⟩ := posRoot_spec' (a := m.fMu * dt)
        (b := rr * (m.mu2 - m.mu1) + m.fMu * dt * m.facQ * rp - (Q - r.q)) (c := -(Q - r.q) * m.facQ * rp) hfd (by
          rcases hrp0.lt_or_eq with hp | hp
          · left
            have : 0 < (Q - r.q) * m.facQ * rp := by positivity
            linarith
          · right
            refine ⟨by rw [← hp]; ring, ?_⟩
            have hz : r.p + m.beta * pc + m.stressTol = 0 := by
              rw [← hp] at hrp'
              exact (Real.sqrt_eq_zero hps).mp hrp'.symm
            have hz2 : rr = 0 := by rw [hrr', hz]; simp
            rw [hz2, ← hp]; linarith)
      rw [← hrate] at r0 req
      have hw' : w = m.facQ * rp / rate := by
        rw [fdiv_of_pos r0] at hw; exact (Option.some.inj hw).symm
      have hB : 0 < m.facQ * rp + rate := by positivity
      have hmu : (m.mu2 - m.mu1) / (w + 1) = (m.mu2 - m.mu1) * rate / (m.facQ * rp + rate) := by
        rw [hw']; field_simp
      have hd12 : 0 < m.mu2 - m.mu1 := by linarith
      have hflow : Q - m.fMu * dt * rate = r.q + (m.mu2 - m.mu1) / (w + 1) * rr := by
        rw [hmu, div_mul_eq_mul_div, ← sub_eq_iff_eq_add', eq_div_iff hB.ne']
        linarith
      have hmpos : 0 < (m.mu2 - m.mu1) / (w + 1) := by rw [hmu]; positivity
      have hqs' : qs = Q - m.fMu * dt * rate := by
        rw [hqs]; apply max_eq_right; rw [hflow]
        have : 0 ≤ (m.mu2 - m.mu1) / (w + 1) * rr := mul_nonneg hmpos.le hrr0
        linarith
      have hdgr : (Q - qs) / m.fMu / dt = rate := by rw [hqs']; field_simp; ring
      refine ⟨r.q, d2, rfl, fun hz => absurd hz hQp.ne', fun hle => absurd hc (not_lt.mpr hle), fun _ => ?_,
        ⟨rfl, rfl, rfl, rfl, rfl⟩⟩
      rw [hdgr]
      refine ⟨r0, by linarith, ?_, ?_, ?_, pc, _, hpc, rfl, hps, ?_, ?_, ?_⟩
      · have : (m.mu2 - m.mu1) / (w + 1) ≤ m.mu2 - m.mu1 := by
          apply div_le_self hd12.le
          rw [hw']
          have : 0 ≤ m.facQ * rp / rate := by positivity
          linarith
        linarith
      · rw [hqs']; ring
      · have := ok.dPre_pos.ne'
        rw [ok.fMu_eq]; field_simp
      · rw [muOfRate_eq hfq hps, ← hrp', hw']
      · rw [← hrr', hqs', hflow]; ring
      · rw [← hrr']; field_simp

/-! ### Definedness and concrete states -/

lemma mccMuI_explicit {m : Material} (cam : CamOk m) (hh : isImplicit m.hardening = false) (pc x y z u v w : ℝ) :
    ∃ mu, mccMuI m d (some pc) x y z u v w = some mu := by
  have hm' : mccMuI m d (some pc) x y z u v w = if y < -m.beta * pc + m.stressTol ∨ y > pc - m.stressTol then some m.M
      else (fsqrt ((y + m.beta * pc) * (pc - y))).bind fun rr =>
        if m.useDuvautLions then fdiv ((m.eMu * u - v * (1 - w)) / w) rr else fdiv z rr := by
    unfold mccMuI
    cases h : m.hardening <;> simp [h, isImplicit] at hh ⊢
  rw [hm']
  split_ifs with h1 h2
  · exact ⟨_, rfl⟩
  all_goals
    push Not at h1
    have ht := cam.tol
    have hrad : 0 < (y + m.beta * pc) * (pc - y) := mul_pos (by linarith [h1.1]) (by linarith [h1.2])
    rw [fsqrt, if_neg (not_lt.mpr hrad.le), Option.bind_some, fdiv, if_neg (Real.sqrt_pos.mpr hrad).ne']
    exact ⟨_, rfl⟩

/-- **C40** Explicit hardening, and no hardening without the internal boundary friction: the Cam-Clay update never
meets an undefined operation. -/
theorem C40_camClay_defined {cabs : ℝ → ℝ} (hcabs : cabs 0 = 0) {svd : Matrix (Fin d) (Fin d) ℝ → Svd d}
    {m : Material} (cam : CamOk m) (hm : m.plastic = .mcc) (hh : isImplicit m.hardening = false)
    (hM : 0 ≤ m.M) (hmi : m.useMibf = false ∨ m.hardening ≠ .noHard) (dt : ℝ) (q : Particle d ℝ) (exit : Bool) :
    ∃ out, plasticity cabs svd m dt q exit = some out := by
  have key : ∀ p qq, ∃ w, mccReturn cabs m d true m.M q.epsPlVol p qq exit = some w ∧
      (m.hardening ≠ .noHard → ∃ pc, 0 < pc ∧ w.1 = some pc) := by
    intro p qq
    unfold mccReturn
    cases h : m.hardening <;> simp only [h, if_true, isImplicit, reduceCtorEq, Bool.true_eq_false] at hh ⊢
    · obtain ⟨r, hr⟩ := C40_explicit_defined hcabs hM cam.beta cam.p0 p qq (m.K d) m.fMu exit
      rw [hr]; exact ⟨_, rfl, fun h => absurd rfl h⟩
    · obtain ⟨r, hr⟩ := C40_explicit_defined hcabs hM cam.beta
        (show 0 < max m.stressTol (m.expLaw q.epsPlVol) from lt_of_lt_of_le cam.tol (le_max_left _ _))
        p qq (m.K d) m.fMu exit
      rw [hr]; exact ⟨_, rfl, fun _ => ⟨_, lt_of_lt_of_le cam.tol (le_max_left _ _), rfl⟩⟩
    · obtain ⟨r, hr⟩ := C40_explicit_defined hcabs hM cam.beta
        (show 0 < max m.stressTol (m.sinhLaw d q.epsPlVol) from lt_of_lt_of_le cam.tol (le_max_left _ _))
        p qq (m.K d) m.fMu exit
      rw [hr]; exact ⟨_, rfl, fun _ => ⟨_, lt_of_lt_of_le cam.tol (le_max_left _ _), rfl⟩⟩
  obtain ⟨⟨pc?, r⟩, hr, hpc⟩ := key (-m.K d * (mkTrial (svd q.F).hencky).trace)
    (m.eMu * (mkTrial (svd q.F).hencky).norm)
  have hmu : ∀ x y z u v w, m.hardening ≠ .noHard → ∃ mu, mccMuI m d pc? x y z u v w = some mu := by
    intro x y z u v w hne
    obtain ⟨pc, -, rfl⟩ := hpc hne
    exact mccMuI_explicit cam hh pc x y z u v w
  have : ∃ st, plastModel cabs m dt (svd q.F) (mkTrial (svd q.F).hencky) ⟨q, (svd q.F).hencky, 0, exit⟩ = some st := by
    by_cases hu : m.useMibf = true
    · have hne := hmi.resolve_left (by simp [hu])
      simp only [plastModel, hm, plastMCC, hu, if_true, hr, Option.bind_eq_bind, Option.bind_some, reduceCtorEq,
        if_false]
      split_ifs with h1
      · obtain ⟨mu, h2⟩ := hmu _ _ _ _ _ _ hne
        rw [h2]
        exact ⟨_, rfl⟩
      · exact ⟨_, rfl⟩
    · have hmi := eq_false_of_ne_true hu
      simp only [plastModel, hm, plastMCC, hmi, Bool.false_eq_true, if_false, hr, Option.bind_eq_bind,
        Option.bind_some, reduceCtorEq]
      split_ifs <;> exact ⟨_, rfl⟩
  obtain ⟨st, hst⟩ := this
  exact ⟨_, plasticity_some.mpr ⟨st, hst, rfl⟩⟩

namespace Ex

/-- Cam-Clay with slope 1/2, pressure 1, cohesion ratio 1/2 and hardening law `hl`. -/
noncomputable def cam (pm : PlasticModel) (hl : HardeningLaw) : Material :=
  { Verif.Ex.mat pm with M := 1 / 2, mu1 := 1 / 2, hardening := hl }

lemma cam_ok (pm hl) : MatOk (cam pm hl) 2 :=
  ⟨(Verif.Ex.mat_ok pm).hd, (Verif.Ex.mat_ok pm).hK, (Verif.Ex.mat_ok pm).hmu, (Verif.Ex.mat_ok pm).hq,
    (Verif.Ex.mat_ok pm).hel⟩

lemma cam_cam (pm hl) : CamOk (cam pm hl) :=
  ⟨by norm_num [cam, Verif.Ex.mat], by norm_num [cam, Verif.Ex.mat], by norm_num [cam, Verif.Ex.mat]⟩

lemma cam_trial (pm hl) : trialP (cam pm hl) (Verif.Ex.svd (1 / 4) (-1 / 2) (Verif.Ex.part (1 / 4) (-1 / 2)).F) = 1 / 4 ∧
    trialQ (cam pm hl) (Verif.Ex.svd (1 / 4) (-1 / 2) (Verif.Ex.part (1 / 4) (-1 / 2)).F) = 3 / 4 := by
  obtain ⟨e1, e2⟩ := ex_trial pm (a := 1 / 4) (b := -1 / 2) (by norm_num) (by norm_num) _
    (Verif.Ex.isSvd (1 / 4) (-1 / 2))
  refine ⟨e1.trans (by norm_num), e2.trans (by norm_num)⟩

/-- The implicit mapping of a state whose pressure is that of the centre. -/
lemma centre : mccRmaImplicitExponentialOnevar abs (1 / 4) (3 / 4) false (1 / 2) 1 (1 / 2) 1 1 0 0 =
    some ⟨1 / 4, 3 / 8, false, true⟩ := by
  have hs : Real.sqrt (9 / 16) = 3 / 4 := by
    rw [show (9 / 16 : ℝ) = (3 / 4) ^ 2 by norm_num, Real.sqrt_sq (by norm_num)]
  have hl : ∀ law dlaw le mu K qT epvT right, implicitLoop abs law dlaw le (1 / 2) (1 / 2) mu K (1 / 4) qT epvT 30 0
      (1 / 4) 1 epvT right false = some (true, 1 / 4, 1, false) := by
    intro law dlaw le mu K qT epvT right
    rw [implicitLoop, if_pos (by norm_num)]
  have h1 : fdiv 1 (1 * Real.exp (-0 * 0)) = some 1 := by norm_num [fdiv]
  rw [mccRmaImplicitExponentialOnevar]
  simp only [h1, Option.bind_eq_bind, Option.bind_some, mul_one, hl]
  norm_num [implicitFinish, fsqrt, hs]

lemma cam_return (pm) (allow : Bool) (slope : ℝ) (h : slope = 1 / 2) :
    mccReturn abs (cam pm .expoImpl) 2 allow slope 0 (1 / 4) (3 / 4) false =
      some (none, ⟨1 / 4, 3 / 8, false, true⟩) := by
  subst h
  have hK : (cam pm .expoImpl).K 2 = 1 := Verif.Ex.mat_K pm
  have hmu : (cam pm .expoImpl).mu = 1 := Verif.Ex.mat_mu pm
  have : mccRmaImplicitExponentialOnevar abs (1 / 4) (3 / 4) false (1 / 2)
      (cam pm .expoImpl).p0 (cam pm .expoImpl).beta (cam pm .expoImpl).mu
      ((cam pm .expoImpl).K 2) (cam pm .expoImpl).xi 0 = some ⟨1 / 4, 3 / 8, false, true⟩ := by
    rw [hK, hmu]; exact centre
  simp only [mccReturn, show (cam pm .expoImpl).hardening = .expoImpl from rfl, this]
  rfl

end Ex

/-- Cam-Clay with implicit hardening: the shear stress 3/4 at pressure 1/4 is returned to 3/8. -/
example : ∃ out, plasticity abs (Verif.Ex.svd (1 / 4) (-1 / 2)) (Ex.cam .mcc .expoImpl) 1
      (Verif.Ex.part (1 / 4) (-1 / 2)) false = some out ∧ newP out = 1 / 4 ∧ newQ (Ex.cam .mcc .expoImpl) out = 3 / 8 ∧
      OnEllipse (1 / 2) 1 (1 / 2) (newP out) (newQ (Ex.cam .mcc .expoImpl) out) := by
  have ok := Ex.cam_ok .mcc .expoImpl
  have hs := Verif.Ex.isSvd (1 / 4) (-1 / 2)
  obtain ⟨t1, t2⟩ := Ex.cam_trial .mcc .expoImpl
  obtain ⟨hP, hQ⟩ := trial_eq ok hs
  rw [t1] at hP
  rw [t2] at hQ
  have hr := Ex.cam_return .mcc true (Ex.cam .mcc .expoImpl).M rfl
  have hst : ∃ st, plastModel abs (Ex.cam .mcc .expoImpl) 1
      (Verif.Ex.svd (1 / 4) (-1 / 2) (Verif.Ex.part (1 / 4) (-1 / 2)).F)
      (mkTrial (Verif.Ex.svd (1 / 4) (-1 / 2) (Verif.Ex.part (1 / 4) (-1 / 2)).F).hencky)
      ⟨Verif.Ex.part (1 / 4) (-1 / 2), (Verif.Ex.svd (1 / 4) (-1 / 2) (Verif.Ex.part (1 / 4) (-1 / 2)).F).hencky, 0,
        false⟩ = some st := by
    simp only [plastModel, show (Ex.cam .mcc .expoImpl).plastic = .mcc from rfl, plastMCC,
      show (Ex.cam .mcc .expoImpl).useMibf = false from rfl, Bool.false_eq_true, if_false, ← hP, ← hQ,
      show (Verif.Ex.part (1 / 4) (-1 / 2)).epsPlVol = 0 from rfl, hr, Option.bind_eq_bind,
      Option.bind_some, reduceCtorEq]
    exact ⟨_, rfl⟩
  obtain ⟨st, hst⟩ := hst
  have hp := plasticity_some.mpr ⟨st, hst, rfl⟩
  have hm := hst
  simp only [plastModel, show (Ex.cam .mcc .expoImpl).plastic = .mcc from rfl] at hm
  obtain ⟨pc?, r, hr', hm⟩ := plastMCC_shape hm
  rw [← hP, ← hQ, show (Verif.Ex.part (1 / 4) (-1 / 2)).epsPlVol = 0 from rfl, hr, Option.some.injEq,
    Prod.mk.injEq] at hr'
  obtain ⟨-, rfl⟩ := hr'
  rcases hm with ⟨hm, -⟩ | ⟨-, b, qs, e, muI, hv, rfl⟩
  · simp at hm
  simp only [show (Ex.cam .mcc .expoImpl).plastic = .mcc from rfl, reduceCtorEq, if_false, Option.some.injEq,
    Prod.mk.injEq] at hv
  obtain ⟨rfl, rfl, -⟩ := hv
  have hn : 0 < (mkTrial (Verif.Ex.svd (1 / 4) (-1 / 2) (Verif.Ex.part (1 / 4) (-1 / 2)).F).hencky).norm := by
    have := ok.eMu_pos
    by_contra hc
    have h0 := le_antisymm (not_lt.mp hc) (mkTrial_norm_nonneg _)
    rw [h0] at hQ; norm_num at hQ
  obtain ⟨s1, -, s3, -⟩ := saved_mcc ok hs.orthU
    (Verif.Ex.svd (1 / 4) (-1 / 2) (Verif.Ex.part (1 / 4) (-1 / 2)).F).hencky (a := 3 / 8) (p := 1 / 4) (by norm_num)
  refine ⟨_, hp, s1, s3 hn, ?_⟩
  have := C41_exponential ok (Ex.cam_cam _ _) rfl rfl (by norm_num [Ex.cam]) 1 _ _ hs hp
    (by rw [t1, t2]; unfold OutsideEllipse; norm_num [Ex.cam, Verif.Ex.mat, Verif.Ex.part])
    (lt_of_lt_of_eq (by norm_num : (0 : ℝ) < 3 / 8) (s3 hn).symm)
  simpa [Ex.cam, Verif.Ex.mat] using this

/-- Viscous Cam-Clay: the theorem applies, with the stress above the ellipse point. -/
example : ∃ out, plasticity abs (Verif.Ex.svd (1 / 4) (-1 / 2)) (Ex.cam .mccVisc .expoImpl) 1
      (Verif.Ex.part (1 / 4) (-1 / 2)) false = some out ∧
      ∃ py qy, Returned (Ex.cam .mccVisc .expoImpl) 2 (1 / 2) 0 (1 / 4) (3 / 4) py qy ∧ newP out = py ∧
        qy ≤ newQ (Ex.cam .mccVisc .expoImpl) out := by
  have ok := Ex.cam_ok .mccVisc .expoImpl
  have hs := Verif.Ex.isSvd (1 / 4) (-1 / 2)
  obtain ⟨t1, t2⟩ := Ex.cam_trial .mccVisc .expoImpl
  obtain ⟨hP, hQ⟩ := trial_eq ok hs
  rw [t1] at hP
  rw [t2] at hQ
  have hf : (Ex.cam .mccVisc .expoImpl).fMu = 1 := Verif.Ex.mat_fMu .mccVisc
  have hv : mccViscous (Ex.cam .mccVisc .expoImpl) 1 (3 / 4) (3 / 8) false =
      some (1, max (3 / 8) (3 / 4 - 1 * (3 / 11)), false) := by
    simp only [mccViscous, hf]
    norm_num [Ex.cam, Verif.Ex.mat, fdiv]
  have hst : ∃ st, plastModel abs (Ex.cam .mccVisc .expoImpl) 1
      (Verif.Ex.svd (1 / 4) (-1 / 2) (Verif.Ex.part (1 / 4) (-1 / 2)).F)
      (mkTrial (Verif.Ex.svd (1 / 4) (-1 / 2) (Verif.Ex.part (1 / 4) (-1 / 2)).F).hencky)
      ⟨Verif.Ex.part (1 / 4) (-1 / 2), (Verif.Ex.svd (1 / 4) (-1 / 2) (Verif.Ex.part (1 / 4) (-1 / 2)).F).hencky, 0,
        false⟩ = some st := by
    simp only [plastModel, show (Ex.cam .mccVisc .expoImpl).plastic = .mccVisc from rfl, plastMCC,
      show (Ex.cam .mccVisc .expoImpl).useMibf = false from rfl, Bool.false_eq_true, if_false, ← hP, ← hQ,
      show (Verif.Ex.part (1 / 4) (-1 / 2)).epsPlVol = 0 from rfl,
      Ex.cam_return .mccVisc true (Ex.cam .mccVisc .expoImpl).M rfl, Option.bind_eq_bind,
      Option.bind_some, if_true, hv]
    exact ⟨_, rfl⟩
  obtain ⟨st, hst⟩ := hst
  have hp := plasticity_some.mpr ⟨st, hst, rfl⟩
  refine ⟨_, hp, ?_⟩
  rcases C40_viscousCamClay ok (Ex.cam_cam _ _) rfl (by norm_num [Ex.cam]) (by norm_num [Ex.cam, Verif.Ex.mat])
    (by norm_num [Ex.cam, Verif.Ex.mat]) one_pos _ _ hs hp t1.symm t2.symm with ⟨hc, -⟩ | hc
  · exact absurd (by unfold OutsideEllipse hardeningPc; norm_num [Ex.cam, Verif.Ex.mat, Verif.Ex.part]) hc
  · obtain ⟨py, qy, h1, -, h3, -⟩ := hc
    obtain ⟨h4, -, h6⟩ := h3 rfl
    exact ⟨py, qy, h1, h4, (h6 (by norm_num)).1⟩

/-- mu(I) Cam-Clay: the theorem applies to a flowing state. -/
lemma ex_mccMui : ∃ out, plasticity abs (Verif.Ex.svd (1 / 4) (-1 / 2)) (Ex.cam .mccMui .expoImpl) 1
      (Verif.Ex.part (1 / 4) (-1 / 2)) false = some out ∧
      ∃ qy, Returned (Ex.cam .mccMui .expoImpl) 2 (1 / 2) 0 (1 / 4) (3 / 4) (newP out) qy := by
  have ok := Ex.cam_ok .mccMui .expoImpl
  have hs := Verif.Ex.isSvd (1 / 4) (-1 / 2)
  obtain ⟨t1, t2⟩ := Ex.cam_trial .mccMui .expoImpl
  obtain ⟨hP, hQ⟩ := trial_eq ok hs
  rw [t1] at hP
  rw [t2] at hQ
  have hf : (Ex.cam .mccMui .expoImpl).fMu = 1 := Verif.Ex.mat_fMu .mccMui
  have hfq : (Ex.cam .mccMui .expoImpl).facQ = 1 := by norm_num [Material.facQ, Ex.cam, Verif.Ex.mat]
  have hst : ∃ st, plastModel abs (Ex.cam .mccMui .expoImpl) 1
      (Verif.Ex.svd (1 / 4) (-1 / 2) (Verif.Ex.part (1 / 4) (-1 / 2)).F)
      (mkTrial (Verif.Ex.svd (1 / 4) (-1 / 2) (Verif.Ex.part (1 / 4) (-1 / 2)).F).hencky)
      ⟨Verif.Ex.part (1 / 4) (-1 / 2), (Verif.Ex.svd (1 / 4) (-1 / 2) (Verif.Ex.part (1 / 4) (-1 / 2)).F).hencky, 0,
        false⟩ = some st := by
    have hlaw : ∀ e, (Ex.cam .mccMui .expoImpl).expLaw e = 1 := by
      intro e; simp [Material.expLaw, Ex.cam, Verif.Ex.mat]
    have htol : (Ex.cam .mccMui .expoImpl).stressTol = 1e-5 := rfl
    have hbeta : (Ex.cam .mccMui .expoImpl).beta = 1 / 2 := rfl
    have hmax : max (1 : ℝ) (1 / 4 + 1e-5) = 1 := max_eq_left (by norm_num)
    have q1 : fsqrt (1 / 4 + 1 / 2 * 1 + 1e-5) = some (Real.sqrt (1 / 4 + 1 / 2 * 1 + 1e-5)) := by
      rw [fsqrt, if_neg (by norm_num)]
    have q2 : fsqrt ((1 - 1 / 4) * (1 / 4 + 1 / 2 * 1 + 1e-5)) =
        some (Real.sqrt ((1 - 1 / 4) * (1 / 4 + 1 / 2 * 1 + 1e-5))) := by
      rw [fsqrt, if_neg (by norm_num)]
    have hrp : 0 < Real.sqrt (1 / 4 + 1 / 2 * 1 + 1e-5) := Real.sqrt_pos.mpr (by norm_num)
    have hroot : ∀ b, 0 < posRoot (1 * 1) b (-(3 / 4 - 3 / 8) * 1 * Real.sqrt (1 / 4 + 1 / 2 * 1 + 1e-5)) :=
      fun b => (posRoot_spec (by norm_num) (by linarith)).1
    simp only [plastModel, show (Ex.cam .mccMui .expoImpl).plastic = .mccMui from rfl, plastMCCMui, ← hP, ← hQ,
      show (Verif.Ex.part (1 / 4) (-1 / 2)).epsPlVol = 0 from rfl,
      Ex.cam_return .mccMui false (Ex.cam .mccMui .expoImpl).mu1 rfl, Option.bind_eq_bind,
      Option.bind_some, if_true]
    rw [if_pos (by rw [htol]; norm_num)]
    simp only [show (Ex.cam .mccMui .expoImpl).hardening = .expoImpl from rfl, hlaw, htol, hbeta, hmax,
      Option.bind_some, q1, q2, hf, hfq]
    rw [fdiv_of_pos (hroot _)]
    exact ⟨_, rfl⟩
  obtain ⟨st, hst⟩ := hst
  have hp := plasticity_some.mpr ⟨st, hst, rfl⟩
  refine ⟨_, hp, ?_⟩
  rcases C39_camClay ok (Ex.cam_cam _ _) rfl (by norm_num [Ex.cam]) (by norm_num [Ex.cam, Verif.Ex.mat])
    (by rw [hfq]; norm_num) one_pos _ _ hs hp t1.symm t2.symm with ⟨hc, -⟩ | hc
  · exact absurd (by unfold OutsideEllipse hardeningPc; norm_num [Ex.cam, Verif.Ex.mat, Verif.Ex.part]) hc
  · obtain ⟨qy, h1, -⟩ := hc
    exact ⟨qy, h1⟩

end Verif.Props
