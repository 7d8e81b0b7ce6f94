import Verif.Props.Yield
import Verif.Props.CamClayVisc
import Verif.Props.GridFile
import Verif.Props.Bounds

set_option linter.unusedSectionVars false
set_option linter.unusedSimpArgs false
set_option linter.unusedVariables false

/-!
# C82: the friction coefficient which the material hands to the walls (`use_mibf`)
-/

namespace Verif.Props
open Verif Matrix

section update
variable {d : ℕ} {cabs : ℝ → ℝ} {svd : Matrix (Fin d) (Fin d) ℝ → Svd d} {m : Material} {dt : ℝ}
  {q : Particle d ℝ} {exit : Bool} {out : PState d}

/-- **C82** Models without a friction of their own (and the rate-independent Drucker-Prager models) leave the
coefficient of the particle alone. -/
theorem C82_constant (hm : m.plastic = .noPlasticity ∨ m.plastic = .vm ∨ m.plastic = .vmVisc ∨ m.plastic = .dp ∨
      m.plastic = .dpSoft) (h : plasticity cabs svd m dt q exit = some out) : out.q.muI = q.muI := by
  obtain ⟨st, h1, rfl⟩ := plasticity_some.mp h
  suffices st.q.muI = q.muI from this
  rcases hm with hm | hm | hm | hm | hm <;>
    simp only [plastModel, hm, Option.some.injEq, Option.ite_none_left_eq_some] at h1
  · rw [← h1.2]
  · rw [← h1]; unfold plastVM; simp only; split_ifs <;> rfl
  · unfold plastVMVisc at h1
    simp only at h1
    split_ifs at h1
    · rw [← Option.some.inj h1]
    · simp only [Option.bind_eq_bind, Option.bind_eq_some_iff] at h1
      obtain ⟨r, -, h1⟩ := h1
      rw [← Option.some.inj h1]
    · rw [← Option.some.inj h1]
  · rw [← h1]; unfold plastDP; simp only; split_ifs <;> rfl
  · rw [← h1]; unfold plastDPSoft; simp only; split_ifs <;> rfl

/-- The coefficient of a Cam-Clay particle with `use_mibf`. -/
lemma plastMCC_friction {s : Svd d} {t : Trial d} {st : PState d} (hmi : m.useMibf = true)
    (h : plastMCC cabs m dt s t st = some out) :
    ∃ pc? r, mccReturn cabs m d true m.M st.q.epsPlVol (-m.K d * t.trace) (m.eMu * t.norm) st.exit =
        some (pc?, r) ∧
      (r.did = false ∧ out.q.muI = m.M ∨
       r.did = true ∧ ∃ b qs e muI,
        (if m.plastic = .mccVisc then mccViscous m dt (m.eMu * t.norm) r.q r.exit else some (1, r.q, r.exit)) =
          some (b, qs, e) ∧
        mccMuI m d pc? (st.q.epsPlVol + -b * (-m.K d * t.trace - r.p) / m.K d) r.p qs
          (m.eMu * t.norm / m.eMu - b * (m.eMu * t.norm - qs) / m.eMu) (m.eMu * t.norm) b = some muI ∧
        out = mccDone m dt s t st b r.p qs muI e) := by
  unfold plastMCC at h
  simp only [hmi, if_true, Option.bind_eq_bind, Option.bind_eq_some_iff] at h
  obtain ⟨⟨pc?, r⟩, hr, h⟩ := h
  refine ⟨pc?, r, hr, ?_⟩
  simp only at h
  cases hd : r.did with
  | false =>
    left
    simp only [hd, Bool.false_eq_true, if_false, Option.some.injEq] at h
    exact ⟨rfl, by rw [← h]⟩
  | true =>
    right
    refine ⟨rfl, ?_⟩
    by_cases hv : m.plastic = .mccVisc <;>
      simp only [hd, hv, if_true, if_false, reduceCtorEq, Bool.false_eq_true, Option.bind_some,
        Option.bind_eq_some_iff] at h ⊢
    · obtain ⟨⟨b, qs, e⟩, hv, muI, hmu, h⟩ := h
      exact ⟨b, qs, e, muI, hv, hmu, (Option.some.inj h).symm⟩
    · obtain ⟨muI, hmu, h⟩ := h
      exact ⟨1, r.q, r.exit, muI, rfl, hmu, (Option.some.inj h).symm⟩

/-- Preconsolidation pressure used for the coefficient. -/
noncomputable def frictionLaw (m : Material) (d : ℕ) (eps0 eps : ℝ) : ℝ :=
  match m.hardening with
  | .expoImpl => m.p0 * Real.exp (-m.xi * eps)
  | .sinhImpl => max 0 (m.K d * Real.sinh (-m.xi * eps + Real.arsinh (m.p0 / m.K d)))
  | _ => hardeningPc m d eps0

/-- The coefficient is the slope of the line from the centre of the ellipse function to the stress, or that of the
yield surface. -/
lemma mccMuI_cases {allow : Bool} {slope eps0 eps p0 q0 p qs hDev qT b mu : ℝ} {e : Bool} {pc? : Option ℝ} {r : Rma}
    (cam : CamOk m)
    (hr : mccReturn cabs m d allow slope eps0 p0 q0 e = some (pc?, r)) (hmd : m.hardening ≠ .noHard)
    (hnum : m.useDuvautLions = true → (m.eMu * hDev - qT * (1 - b)) / b = qs)
    (h : mccMuI m d pc? eps p qs hDev qT b = some mu) :
    mu = m.M ∨ -m.beta * frictionLaw m d eps0 eps < p ∧ p < frictionLaw m d eps0 eps ∧
      0 < Real.sqrt ((p + m.beta * frictionLaw m d eps0 eps) * (frictionLaw m d eps0 eps - p)) ∧
      mu = qs / Real.sqrt ((p + m.beta * frictionLaw m d eps0 eps) * (frictionLaw m d eps0 eps - p)) := by
  have key : ∀ pc, pc = frictionLaw m d eps0 eps →
      (if p < -m.beta * pc + m.stressTol ∨ p > pc - m.stressTol then some m.M
        else (fsqrt ((p + m.beta * pc) * (pc - p))).bind fun rr =>
          if m.useDuvautLions = true then fdiv ((m.eMu * hDev - qT * (1 - b)) / b) rr
          else fdiv qs rr) = some mu → mu = m.M ∨ -m.beta * frictionLaw m d eps0 eps < p ∧
      p < frictionLaw m d eps0 eps ∧
      0 < Real.sqrt ((p + m.beta * frictionLaw m d eps0 eps) * (frictionLaw m d eps0 eps - p)) ∧
      mu = qs / Real.sqrt ((p + m.beta * frictionLaw m d eps0 eps) * (frictionLaw m d eps0 eps - p)) := by
    rintro pc rfl h
    split_ifs at h with h1 h2
    · exact .inl (Option.some.inj h).symm
    all_goals
      right
      obtain ⟨rr, hrr, h⟩ := Option.bind_eq_some_iff.mp h
      obtain ⟨-, rfl⟩ := fsqrt_some hrr
      obtain ⟨h3, rfl⟩ := fdiv_eq_some h
      push Not at h1
      have := cam.tol
      refine ⟨by linarith [h1.1], by linarith [h1.2], lt_of_le_of_ne (Real.sqrt_nonneg _) (Ne.symm h3), ?_⟩
    · rw [hnum h2]
    · rfl
  unfold mccMuI at h
  cases hh : m.hardening <;> simp only [hh, Option.bind_eq_bind, Option.bind_some] at h
  · exact absurd hh hmd
  · simp only [mccReturn, hh, Option.bind_eq_bind, Option.bind_eq_some_iff, Option.some.injEq, Prod.mk.injEq] at hr
    obtain ⟨-, -, rfl, -⟩ := hr
    simp only [Option.bind_some] at h
    exact key _ (by simp only [frictionLaw, hh, hardeningPc]; rfl) h
  · simp only [mccReturn, hh, Option.bind_eq_bind, Option.bind_eq_some_iff, Option.some.injEq, Prod.mk.injEq] at hr
    obtain ⟨-, -, rfl, -⟩ := hr
    simp only [Option.bind_some] at h
    exact key _ (by simp only [frictionLaw, hh, hardeningPc]; rfl) h
  · refine key _ ?_ h
    simp only [frictionLaw, hh]
    exact max_eq_right (by unfold Material.expLaw; have := cam.p0; positivity)
  · refine key _ ?_ h
    simp only [frictionLaw, hh]
    rfl

lemma ellipse_slope {M pc beta p qy : ℝ} (hM : 0 ≤ M) (h : OnEllipse M pc beta p qy)
    (hs : 0 < Real.sqrt ((p + beta * pc) * (pc - p))) : qy / Real.sqrt ((p + beta * pc) * (pc - p)) = M := by
  obtain ⟨h1, h2, h3, h4⟩ := h
  rw [div_eq_iff hs.ne']
  have h5 : 0 ≤ (p + beta * pc) * (pc - p) := (Real.sqrt_pos.mp hs).le
  rw [← Real.sqrt_mul_self h1, h4, show M * M * (pc - p) * (p + beta * pc) = M * M * ((p + beta * pc) * (pc - p)) by ring,
    Real.sqrt_mul (mul_self_nonneg M), Real.sqrt_mul_self hM]

/-- The numerator used with the Duvaut-Lions law is the shear stress on the ellipse. -/
lemma numerator_eq {m : Material} {qT qs b : ℝ} (he : 0 < m.eMu) (hb : b ≠ 0) :
    (m.eMu * (qT / m.eMu - b * (qT - qs) / m.eMu) - qT * (1 - b)) / b = qs := by
  field_simp
  ring

/-- **C82** Cam-Clay with explicit hardening, rate-independent or with the Duvaut-Lions law: the coefficient is always
the slope `M`. -/
theorem C82_camClay (ok : MatOk m d) (cam : CamOk m)
    (hm : m.plastic = .mcc ∨ m.plastic = .mccVisc ∧ m.useDuvautLions = true) (hM : 0 ≤ m.M) (hmi : m.useMibf = true)
    (hh : m.hardening = .expoExpl ∨ m.hardening = .sinhExpl) (hτ : 0 ≤ m.viscTime) (hdt : 0 < dt)
    (h : plasticity cabs svd m dt q exit = some out) : out.q.muI = m.M := by
  obtain ⟨st, h1, rfl⟩ := plasticity_some.mp h
  suffices st.q.muI = m.M from this
  have h1' : plastMCC cabs m dt (svd q.F) (mkTrial (svd q.F).hencky) ⟨q, (svd q.F).hencky, 0, exit⟩ = some st := by
    rcases hm with hm | ⟨hm, -⟩ <;> simpa only [plastModel, hm] using h1
  obtain ⟨pc?, r, hr, h2⟩ := plastMCC_friction hmi h1'
  rcases h2 with ⟨-, h2⟩ | ⟨hd, b, qs, e, mu, hv, hmu, rfl⟩
  · exact h2
  show mu = m.M
  have hb : b ≠ 0 ∧ qs = r.q := by
    rcases hm with hm | ⟨hm, hdl⟩
    · simp only [hm, reduceCtorEq, if_false, Option.some.injEq, Prod.mk.injEq] at hv
      exact ⟨by rw [← hv.1]; exact one_ne_zero, hv.2.1.symm⟩
    · rw [if_pos hm] at hv
      obtain ⟨rfl, rfl, -⟩ := mccViscous_DL hdl hv
      have : 0 ≤ m.viscTime / dt := by positivity
      exact ⟨by positivity, rfl⟩
  obtain ⟨hb, rfl⟩ := hb
  have hne : m.hardening ≠ .noHard := by rcases hh with h | h <;> rw [h] <;> simp
  rcases mccMuI_cases cam hr hne (fun _ => numerator_eq ok.eMu_pos hb) hmu with h | ⟨-, -, h3, h4⟩
  · exact h
  have hlaw : frictionLaw m d q.epsPlVol (q.epsPlVol + -b * (-m.K d * (mkTrial (svd q.F).hencky).trace - r.p) / m.K d) =
      hardeningPc m d q.epsPlVol := by
    unfold frictionLaw; rcases hh with h | h <;> simp only [h]
  rw [hlaw] at h3 h4
  rw [h4]
  refine ellipse_slope hM ?_ h3
  rcases mccReturn_spec cam ok.hK hM hr with ⟨d1, -⟩ | ⟨-, -, pc, -, d2, d3⟩
  · rw [d1] at hd; simp at hd
  rcases d3 with ⟨-, rfl⟩ | ⟨h, -⟩ | ⟨h, -⟩
  · exact d2
  all_goals
    exfalso
    rcases hh with hh | hh <;> rw [hh] at h <;> simp [isImplicit] at h

/-- **C82** Cam-Clay with implicit hardening: the coefficient is the slope, except for a state clipped to an end of
the ellipse, which is free of shear stress and may get the coefficient zero. With the sinh law the lower bound of the
hardening law must not be active. -/
theorem C82_camClay_implicit (ok : MatOk m d) (cam : CamOk m) (hm : m.plastic = .mcc) (hM : 0 ≤ m.M)
    (hmi : m.useMibf = true) (hs : IsSvd q.F (svd q.F)) (h : plasticity cabs svd m dt q exit = some out)
    (hh : m.hardening = .expoImpl ∨ m.hardening = .sinhImpl ∧
      0.01 ≤ m.K d * Real.sinh (-m.xi * out.q.epsPlVol + Real.arsinh (m.p0 / m.K d))) :
    out.q.muI = m.M ∨ out.q.muI = 0 ∧ newQ m out = 0 := by
  obtain ⟨hP, hQ⟩ := trial_eq ok hs
  obtain ⟨st, h1, rfl⟩ := plasticity_some.mp h
  simp only [plastModel, hm] at h1
  obtain ⟨pc?, r, hr, h2⟩ := plastMCC_friction hmi h1
  rcases h2 with ⟨-, h2⟩ | ⟨hd, b, qs, e, mu, hv, hmu, rfl⟩
  · exact .inl h2
  simp only [newQ, newTau_hencky ok.hel]
  show mu = m.M ∨ mu = 0 ∧ savedQ m.qPrefac (henckyTau m.lam m.mu (svd q.F).U
    (mccHencky m (mkTrial (svd q.F).hencky) b r.p qs)) = 0
  simp only [hm, reduceCtorEq, if_false, Option.some.injEq, Prod.mk.injEq] at hv
  obtain ⟨rfl, rfl, -⟩ := hv
  have hne : m.hardening ≠ .noHard := by rcases hh with h | ⟨h, -⟩ <;> rw [h] <;> simp
  rcases mccMuI_cases cam hr hne (fun _ => numerator_eq ok.eMu_pos one_ne_zero) hmu with h | ⟨-, -, h3, h4⟩
  · exact .inl h
  rcases mccReturn_spec cam ok.hK hM hr with ⟨d1, -⟩ | ⟨-, -, pc, -, d2, d3⟩
  · rw [d1] at hd; simp at hd
  rcases d3 with ⟨h, -⟩ | ⟨-, hpc⟩ | ⟨-, hend⟩
  · exfalso
    rcases hh with hh | ⟨hh, -⟩ <;> rw [hh] at h <;> simp [isImplicit] at h
  · left
    set T := (mkTrial (svd q.F).hencky).trace
    have he : q.epsPlVol + (r.p - -m.K d * T) / m.K d = q.epsPlVol + -1 * (-m.K d * T - r.p) / m.K d := by ring
    simp only [mccDone] at hh
    have hlaw : frictionLaw m d q.epsPlVol (q.epsPlVol + -1 * (-m.K d * T - r.p) / m.K d) = pc := by
      rw [hpc, he]
      unfold frictionLaw hardeningPc
      rcases hh with h | ⟨h, h'⟩ <;> simp only [h]
      rw [max_eq_right h', max_eq_right (le_trans (by norm_num) h')]
    simp only at h3 h4
    rw [hlaw] at h3 h4
    rw [h4]
    exact ellipse_slope hM d2 h3
  · right
    have hq0 : r.q = 0 := hend.1
    refine ⟨by rw [h4, hq0, zero_div], ?_⟩
    rw [hq0]
    obtain ⟨-, s2, -, -⟩ := saved_mcc ok hs.orthU (svd q.F).hencky le_rfl (p := r.p)
    exact le_antisymm s2 (mul_nonneg ok.hq.le (Real.sqrt_nonneg _))

/-- **C82** Cam-Clay with the Perzyna law and explicit hardening: the coefficient is at least `M`; it is `M`, or the
shear stress divided by the ellipse function. -/
theorem C82_viscousCamClay (ok : MatOk m d) (cam : CamOk m) (hm : m.plastic = .mccVisc) (hdl : m.useDuvautLions = false)
    (hM : 0 ≤ m.M) (hmi : m.useMibf = true) (hh : m.hardening = .expoExpl ∨ m.hardening = .sinhExpl)
    (hτ : 0 ≤ m.viscTime) (hn : 0 ≤ m.viscExponent) (hdt : 0 < dt) (hs : IsSvd q.F (svd q.F))
    (h : plasticity cabs svd m dt q exit = some out) :
    m.M ≤ out.q.muI ∧ (out.q.muI = m.M ∨ trialQ m (svd q.F) = 0 ∨
      newQ m out = out.q.muI * Real.sqrt ((newP out + m.beta * hardeningPc m d q.epsPlVol) *
        (hardeningPc m d q.epsPlVol - newP out))) := by
  obtain ⟨hP, hQ⟩ := trial_eq ok hs
  obtain ⟨st, h1, rfl⟩ := plasticity_some.mp h
  simp only [plastModel, hm] at h1
  obtain ⟨pc?, r, hr, h2⟩ := plastMCC_friction hmi h1
  rcases h2 with ⟨-, h2⟩ | ⟨hd, b, qs, e, mu, hv, hmu, rfl⟩
  · exact ⟨h2.ge, .inl h2⟩
  simp only [newQ, newP, newTau_hencky ok.hel]
  show m.M ≤ mu ∧ (mu = m.M ∨ trialQ m (svd q.F) = 0 ∨ savedQ m.qPrefac (henckyTau m.lam m.mu (svd q.F).U
    (mccHencky m (mkTrial (svd q.F).hencky) b r.p qs)) = mu * Real.sqrt ((savedP (henckyTau m.lam m.mu (svd q.F).U
    (mccHencky m (mkTrial (svd q.F).hencky) b r.p qs)) + _) * (_ - savedP (henckyTau m.lam m.mu (svd q.F).U
    (mccHencky m (mkTrial (svd q.F).hencky) b r.p qs)))))
  rcases mccReturn_spec cam ok.hK hM hr with ⟨d1, -⟩ | ⟨-, -, pc, -, d2, d3⟩
  · rw [d1] at hd; simp at hd
  have hpc : pc = hardeningPc m d q.epsPlVol := by
    rcases d3 with ⟨-, h⟩ | ⟨h, -⟩ | ⟨h, -⟩
    · exact h
    all_goals
      exfalso
      rcases hh with hh | hh <;> rw [hh] at h <;> simp [isImplicit] at h
  subst hpc
  rw [if_pos hm] at hv
  obtain ⟨rfl, v2, -, -⟩ := mccViscous_perzyna hdl ok.fMu_pos hτ hn hdt d2.1 hv
  have hne : m.hardening ≠ .noHard := by rcases hh with h | h <;> rw [h] <;> simp
  rcases mccMuI_cases cam hr hne (fun h => absurd h (by simp [hdl])) hmu with h | ⟨-, -, h3, h4⟩
  · exact ⟨h.ge, .inl h⟩
  have hlaw : ∀ x, frictionLaw m d q.epsPlVol x = hardeningPc m d q.epsPlVol := by
    intro x
    unfold frictionLaw; rcases hh with h | h <;> simp only [h]
  simp only [hlaw] at h3 h4
  obtain ⟨s1, -, s3, -⟩ := saved_mcc ok hs.orthU (svd q.F).hencky (d2.1.trans v2) (p := r.p)
  refine ⟨?_, .inr ?_⟩
  · rw [h4, ← ellipse_slope hM d2 h3]
    exact div_le_div_of_nonneg_right v2 h3.le
  · by_cases hz : trialQ m (svd q.F) = 0
    · exact .inl hz
    right
    have hn0 : 0 < (mkTrial (svd q.F).hencky).norm := by
      refine lt_of_le_of_ne (mkTrial_norm_nonneg _) fun h => hz ?_
      rw [hQ, ← h, mul_zero]
    rw [s3 hn0, s1, h4]
    field_simp

/-- **C82** Cam-Clay, rate-independent or viscous, with any hardening law: the coefficient is not negative. -/
theorem C82_camClay_nonneg (ok : MatOk m d) (cam : CamOk m) (hm : m.plastic = .mcc ∨ m.plastic = .mccVisc)
    (hM : 0 ≤ m.M) (hmi : m.useMibf = true) (hh : m.hardening ≠ .noHard)
    (hτ : 0 ≤ m.viscTime) (hn : 0 ≤ m.viscExponent) (hdt : 0 < dt)
    (h : plasticity cabs svd m dt q exit = some out) : 0 ≤ out.q.muI := by
  obtain ⟨st, h1, rfl⟩ := plasticity_some.mp h
  suffices 0 ≤ st.q.muI from this
  have h1' : plastMCC cabs m dt (svd q.F) (mkTrial (svd q.F).hencky) ⟨q, (svd q.F).hencky, 0, exit⟩ = some st := by
    rcases hm with hm | hm <;> simpa only [plastModel, hm] using h1
  obtain ⟨pc?, r, hr, h2⟩ := plastMCC_friction hmi h1'
  rcases h2 with ⟨-, h2⟩ | ⟨hd, b, qs, e, mu, hv, hmu, rfl⟩
  · exact hM.trans h2.ge
  show 0 ≤ mu
  rcases mccReturn_spec cam ok.hK hM hr with ⟨d1, -⟩ | ⟨-, -, pc, -, d2, -⟩
  · rw [d1] at hd; simp at hd
  have hb : b ≠ 0 ∧ 0 ≤ qs := by
    rcases hm with hm | hm
    · simp only [hm, reduceCtorEq, if_false, Option.some.injEq, Prod.mk.injEq] at hv
      exact ⟨by rw [← hv.1]; exact one_ne_zero, by rw [← hv.2.1]; exact d2.1⟩
    · rw [if_pos hm] at hv
      cases hdl : m.useDuvautLions with
      | true =>
        obtain ⟨rfl, rfl, -⟩ := mccViscous_DL hdl hv
        have : 0 ≤ m.viscTime / dt := by positivity
        exact ⟨by positivity, d2.1⟩
      | false =>
        obtain ⟨rfl, v2, -, -⟩ := mccViscous_perzyna hdl ok.fMu_pos hτ hn hdt d2.1 hv
        exact ⟨one_ne_zero, d2.1.trans v2⟩
  rcases mccMuI_cases cam hr hh (fun _ => numerator_eq ok.eMu_pos hb.1) hmu with h | ⟨-, -, h3, h4⟩
  · exact hM.trans h.ge
  · rw [h4]
    exact div_nonneg hb.2 h3.le

/-- **C82** Without hardening the Cam-Clay models read an uninitialised preconsolidation pressure as soon as a trial
stress is outside of the ellipse. -/
theorem C82_noHard_false (ok : MatOk m d) (cam : CamOk m) (hm : m.plastic = .mcc ∨ m.plastic = .mccVisc) (hM : 0 ≤ m.M)
    (hmi : m.useMibf = true) (hh : m.hardening = .noHard) (hs : IsSvd q.F (svd q.F))
    (hout : OutsideEllipse m.M m.p0 m.beta (trialP m (svd q.F)) (trialQ m (svd q.F))) :
    plasticity cabs svd m dt q exit = none := by
  obtain ⟨hP, hQ⟩ := trial_eq ok hs
  by_contra hc
  obtain ⟨out, h⟩ := Option.ne_none_iff_exists'.mp hc
  obtain ⟨st, h1, rfl⟩ := plasticity_some.mp h
  have h1' : plastMCC cabs m dt (svd q.F) (mkTrial (svd q.F).hencky) ⟨q, (svd q.F).hencky, 0, exit⟩ = some st := by
    rcases hm with hm | hm <;> simpa only [plastModel, hm] using h1
  obtain ⟨pc?, r, hr, h2⟩ := plastMCC_friction hmi h1'
  have hp : pc? = none := by
    simp only [mccReturn, hh, if_true, Option.bind_eq_bind, Option.bind_eq_some_iff, Option.some.injEq,
      Prod.mk.injEq] at hr
    obtain ⟨-, -, h, -⟩ := hr
    exact h.symm
  rcases h2 with ⟨hd, -⟩ | ⟨-, b, qs, e, mu, -, hmu, -⟩
  · rcases mccReturn_spec cam ok.hK hM hr with ⟨-, d1, -⟩ | ⟨d1, -⟩
    · rw [← hP, ← hQ] at d1
      exact d1 (by unfold hardeningPc; rw [hh]; exact hout)
    · rw [d1] at hd; simp at hd
  · simp only [mccMuI, hh, hp, Option.bind_eq_bind, Option.bind_none, reduceCtorEq] at hmu

/-- The coefficient of viscous Drucker-Prager material. -/
lemma plastDPVisc_friction (ok : MatOk m d) (hm : m.plastic = .dpVisc) (hmi : m.useMibf = true)
    (hs : IsSvd q.F (svd q.F)) (h : plasticity cabs svd m dt q exit = some out)
    {P Q S Y : ℝ} (hPd : P = trialP m (svd q.F)) (hQd : Q = trialQ m (svd q.F))
    (hSd : S = pressureShift m d q) (hYd : Y = m.M * (P + S) + m.qCohesion) :
    ¬ (-m.qCohesion / m.M < P + S ∧ Y < Q) ∧ out.q.muI = m.M ∨ -m.qCohesion / m.M < P + S ∧ Y < Q ∧ ∃ r,
      viscIncrement m dt (decide (m.viscExponent = 1)) Q Y (fun _ => Y) (fun _ => 0) exit = some r ∧
      out.q.deltaGamma = r.1 / dt ∧
      out.q.muI = if |P + S| < 1e-10 then 1e10 else (Q - m.fMu * r.1 - m.qCohesion) / (P + S) := by
  obtain ⟨hP, hQ⟩ := trial_eq ok hs
  rw [← hPd] at hP
  rw [← hQd] at hQ
  have hS' : (if m.usePradhana = true then -m.K d * q.epsPlVolPradhana else 0) = S := hSd.symm
  obtain ⟨st, h1, rfl⟩ := plasticity_some.mp h
  simp only [plastModel, hm, plastDPVisc, ite_muI, hS', ← hP, ← hQ, ← hYd, hmi, if_true] at h1
  by_cases h3 : P + S > -m.qCohesion / m.M ∧ Q > Y
  · right
    rw [if_neg (not_lt.mpr h3.1.le), if_pos h3] at h1
    simp only [Option.bind_eq_bind, Option.bind_eq_some_iff] at h1
    obtain ⟨r, hr, h1⟩ := h1
    exact ⟨h3.1, h3.2, r, hr, by rw [← Option.some.inj h1], by rw [← Option.some.inj h1]⟩
  · left
    refine ⟨h3, ?_⟩
    rw [if_neg h3] at h1
    rw [← Option.some.inj h1]
    show (ite _ _ _ : PState d).q.muI = _
    by_cases h2 : P + S < -m.qCohesion / m.M
    · rw [if_pos h2]
    · rw [if_neg h2]

/-- **C82** Viscous Drucker-Prager material without cohesion: the coefficient is at least the slope `M` (if that is not
above the value `1e10` used near zero pressure). -/
theorem C82_druckerPrager (ok : MatOk m d) (hm : m.plastic = .dpVisc) (hn : m.viscExponent = 1) (hM : 0 < m.M)
    (hM2 : m.M ≤ 1e10) (hc : m.qCohesion = 0) (hmi : m.useMibf = true) (hτ : 0 ≤ m.viscTime) (hdt : 0 < dt)
    (hs : IsSvd q.F (svd q.F)) (h : plasticity cabs svd m dt q exit = some out) :
    m.M ≤ out.q.muI := by
  rcases plastDPVisc_friction ok hm hmi hs h rfl rfl rfl rfl with ⟨-, h1⟩ | ⟨h1, h2, r, h3, -, h4⟩
  · exact h1.ge
  rw [h4]
  split_ifs with h5
  · exact hM2
  set X := trialP m (svd q.F) + pressureShift m d q
  rw [hc] at h1 h2 h3 ⊢
  have hX : 0 < X := by simpa using h1
  rw [le_div_iff₀ hX]
  have hY : 0 ≤ m.M * X + 0 := by positivity
  simp only [hn, decide_true, viscIncrement, if_true, Option.some.injEq] at h3
  have := (closedForm_spec ok.fMu_pos hτ hdt hY h2).2.2.1
  rw [← h3]
  simp only
  linarith

/-- **C82** With cohesion the coefficient of viscous Drucker-Prager material becomes negative: under a small tension,
whenever the shear stress left is above the cohesion. -/
theorem C82_tension_negative (ok : MatOk m d) (hm : m.plastic = .dpVisc) (hn : m.viscExponent = 1) (hM : 0 < m.M)
    (hmi : m.useMibf = true) (hc : 0 < m.qCohesion) (hτ : 0 ≤ m.viscTime) (hdt : 0 < dt)
    (hs : IsSvd q.F (svd q.F)) (h : plasticity cabs svd m dt q exit = some out)
    (ht1 : -m.qCohesion / m.M < trialP m (svd q.F) + pressureShift m d q)
    (ht2 : trialP m (svd q.F) + pressureShift m d q ≤ -1e-10) (hq : m.qCohesion < newQ m out) : out.q.muI < 0 := by
  obtain ⟨out', h', -, -, c1, c2, -, -, -, -, c3, -⟩ := C38_viscousDruckerPrager (cabs := cabs) ok hm hn hM hc.le hτ hdt q
    exit hs rfl rfl rfl rfl
  obtain rfl := Option.some.inj (h.symm.trans h')
  set X := trialP m (svd q.F) + pressureShift m d q
  have hX : X < 0 := by norm_num at ht2; linarith
  have hpl : m.M * X + m.qCohesion < trialQ m (svd q.F) := by
    by_contra hle
    push Not at hle
    obtain ⟨-, h2, -⟩ := c1 ht1 hle
    have h3 : newQ m out = trialQ m (svd q.F) := by unfold newQ trialQ; rw [h2]
    have : m.M * X < 0 := mul_neg_of_pos_of_neg hM hX
    linarith
  rcases plastDPVisc_friction ok hm hmi hs h rfl rfl rfl rfl with ⟨h1, -⟩ | ⟨-, -, r, -, h3, h4⟩
  · exact absurd ⟨ht1, hpl⟩ h1
  have hnq : newQ m out = trialQ m (svd q.F) - m.fMu * r.1 := by
    have := (c2 ht1 hpl).2.2.1
    rw [h3, div_mul_cancel₀ _ hdt.ne'] at this
    linarith
  rw [h4, if_neg (by rw [abs_of_neg hX, not_lt]; linarith), ← hnq]
  exact div_neg_of_pos_of_neg (by linarith) hX

/-- A plate with a negative coefficient speeds up the material that slides along it (`friction == 0` is the only value
treated separately). -/
lemma slide_negative {fric t n : ℝ} (hf : fric < 0) (hn : n ≠ 0) : |t| < |slide2 fric t n| := by
  have hn' := abs_pos.mpr hn
  have h1 : fric * |n| < 0 := mul_neg_of_neg_of_pos hf hn'
  unfold slide2
  rw [if_neg hf.ne, if_neg (not_lt.mpr (h1.le.trans (abs_nonneg t)))]
  split_ifs with h
  · rw [abs_of_pos h]
    exact lt_of_lt_of_le (by linarith) (le_abs_self _)
  · rw [abs_of_nonpos (not_lt.mp h)]
    exact lt_of_lt_of_le (by linarith) (neg_le_abs _)

end update

section witness

/-- A cohesive viscous Drucker-Prager material with `use_mibf`. -/
noncomputable def cohesive : Material := { Ex.mat .dpVisc with useMibf := true, viscTime := 100 }

lemma cohesive_ok : MatOk cohesive 2 :=
  ⟨(Ex.mat_ok .dpVisc).hd, (Ex.mat_ok .dpVisc).hK, (Ex.mat_ok .dpVisc).hmu, (Ex.mat_ok .dpVisc).hq, rfl⟩

/-- **C82** is false for viscous Drucker-Prager material with cohesion: a sheared particle under slight tension gets a
negative coefficient, and a plate at rest which uses it speeds up the flow along the plate. -/
theorem C82_cohesion_false : ∃ out, plasticity abs (Ex.svd (17 / 32) (-15 / 32)) cohesive 1
      (Ex.part (17 / 32) (-15 / 32)) false = some out ∧ out.exit = false ∧ out.q.muI < 0 ∧
    ∀ v : Fin 2 → ℝ, v 1 < 0 → 0 < v 0 →
      v 0 < (plateRel2 .bottom .slipStick out.q.muI v) 0 := by
  have ok := cohesive_ok
  obtain ⟨e1, e2⟩ := ex_trial .dpVisc (a := 17 / 32) (b := -15 / 32) (by norm_num) (by norm_num) _ (Ex.isSvd _ _)
  have e1' : trialP cohesive (Ex.svd (17 / 32) (-15 / 32) (Ex.part (17 / 32) (-15 / 32)).F) = -1 / 16 := e1.trans (by norm_num)
  have e2' : trialQ cohesive (Ex.svd (17 / 32) (-15 / 32) (Ex.part (17 / 32) (-15 / 32)).F) = 1 := e2.trans (by norm_num)
  have hf : cohesive.fMu = 1 := Ex.mat_fMu .dpVisc
  obtain ⟨out, h, -, -, -, c2, -, -, -, -, -, -, he⟩ := C38_viscousDruckerPrager (cabs := abs) (m := cohesive) ok rfl rfl
    (by norm_num [cohesive, Ex.mat]) (by norm_num [cohesive, Ex.mat]) (by norm_num [cohesive, Ex.mat]) one_pos
    (Ex.part (17 / 32) (-15 / 32)) false (Ex.isSvd _ _) e1'.symm e2'.symm rfl rfl
  have hsh : pressureShift cohesive 2 (Ex.part (17 / 32) (-15 / 32)) = 0 := by simp [pressureShift, cohesive, Ex.mat]
  rw [hsh] at c2
  obtain ⟨-, -, h3, h4, -⟩ := c2 (by norm_num [cohesive, Ex.mat]) (by norm_num [cohesive, Ex.mat])
  have h4' : newQ cohesive out = (1 * (-1 / 16 + 0) + 1 / 8) * (1 + 100 * out.q.deltaGamma) := h4
  rw [hf] at h3
  have hq : (1 / 8 : ℝ) < newQ cohesive out := by norm_num at h3 h4'; linarith
  have hneg : out.q.muI < 0 := C82_tension_negative ok rfl rfl (by norm_num [cohesive, Ex.mat]) rfl
    (by norm_num [cohesive, Ex.mat]) (by norm_num [cohesive, Ex.mat]) one_pos (Ex.isSvd _ _) h
    (by rw [e1', hsh]; norm_num [cohesive, Ex.mat]) (by rw [e1', hsh]; norm_num) hq
  refine ⟨out, h, he, hneg, fun v hv h0 => ?_⟩
  have := slide_negative (t := v 0) hneg hv.ne
  rw [abs_of_pos h0] at this
  have e : plateRel2 .bottom .slipStick out.q.muI v 0 = slide2 out.q.muI (v 0) (v 1) := by simp [plateRel2]
  rw [e]
  have hs : 0 < slide2 out.q.muI (v 0) (v 1) := by
    have h1 : out.q.muI * |v 1| ≤ 0 := mul_nonpos_of_nonpos_of_nonneg hneg.le (abs_nonneg _)
    unfold slide2
    rw [if_neg hneg.ne, if_neg (not_lt.mpr (h1.trans (abs_nonneg _))), if_pos h0]
    linarith
  rwa [abs_of_pos hs] at this

end witness

section run
variable {d : ℕ} {R : Setup (d + 2)} {s : LoopState (d + 2) (World (d + 2))}

/-- In a run on the state `s`, the friction coefficients of the particles in all particle files, and those of all nodes
with mass in all steps (which are used by the walls in that step and are written to the grid file after it), are in
`A`. -/
def FrictionIn (R : Setup (d + 2)) (s : LoopState (d + 2) (World (d + 2))) (A : Set ℝ) : Prop :=
  (∀ i e fuel n t w, .particles n t w ∈ filesOf (runProgram R i e fuel s) → .particles n t w ∉ s.out →
    ∀ p ∈ w.ps, p.muI ∈ A) ∧
  ∀ s1 dt g w, StepOf R s s1 dt g w → ∀ i, IsNode w.g i → 0 < w.mass (flatIndex w.g.size i) →
    w.friction (flatIndex w.g.size i) ∈ A

/-- Mass and friction on the grid of a step. -/
lemma physStep_arrays {n : ℕ} {w w' : World (d + 2)} {dt time : ℝ} {grav : Fin (d + 2) → ℝ} {ex : Bool}
    (hpbc : R.S.pbc = false) (h : physStep R w dt grav time n = some (w', ex)) :
    ∃ arr, P2G R.S.P w'.g (R.sched n w.ps) = some arr ∧ w'.mass = (fun l => (arr l).mass) ∧
      w'.friction = fun l => (arr l).friction := by
  simp only [physStep, hpbc, Bool.false_eq_true, if_false, List.append_nil, Option.bind_eq_bind,
    Option.bind_eq_some_iff] at h
  obtain ⟨bg, h1, h⟩ := h
  simp only [ne_eq, not_true_eq_false, and_false, if_false, Option.bind_eq_some_iff, Option.some.injEq] at h
  obtain ⟨arr, h2, qs, h3, h⟩ := h
  by_cases hu : R.S.useMusl = true
  · simp only [if_pos hu, Option.bind_eq_some_iff] at h
    obtain ⟨r, h5, qv, h6, h⟩ := h
    obtain ⟨qs', h7, rfl⟩ := Option.map_eq_some_iff.mp h6
    obtain ⟨rfl, -⟩ := Prod.mk.inj (Option.some.inj h)
    exact ⟨arr, h2, rfl, rfl⟩
  · simp only [if_neg hu, Option.bind_some] at h
    obtain ⟨rfl, -⟩ := Prod.mk.inj (Option.some.inj h)
    exact ⟨arr, h2, rfl, rfl⟩

/-- The coefficient of a node is between those of two particles. -/
lemma node_between {deg : Deg} {dx fr m vol : ℝ} {g : Axes (d + 2) ℝ} {threads : List (List (Particle (d + 2) ℝ))}
    (h : GoodGrid dx g threads.flatten) {arr} (ha : P2G (mkTransferParams deg dx fr true m vol) g threads = some arr)
    {i : Fin (d + 2) → ℕ} (hi : IsNode g i) (hpos : 0 < (arr (flatIndex g.size i)).mass) :
    ∃ p ∈ threads.flatten, ∃ p' ∈ threads.flatten, p.muI ≤ (arr (flatIndex g.size i)).friction ∧
      (arr (flatIndex g.size i)).friction ≤ p'.muI := by
  classical
  obtain ⟨arr', ha', hb⟩ := C50_friction (deg := deg) (fr := fr) (m := m) (vol := vol) h
  obtain rfl := Option.some.inj (ha.symm.trans ha')
  have hne : threads.flatten.toFinset.Nonempty := by
    rw [List.toFinset_nonempty_iff]
    intro h0
    have h1 := hb i hi hpos 1 0 (by rw [h0]; simp)
    have h2 := hb i hi hpos 2 1 (by rw [h0]; simp)
    linarith
  obtain ⟨p, hp, h1⟩ := Finset.exists_min_image threads.flatten.toFinset (fun p => p.muI) hne
  obtain ⟨p', hp', h2⟩ := Finset.exists_max_image threads.flatten.toFinset (fun p => p.muI) hne
  have h3 := hb i hi hpos p.muI p'.muI fun q hq _ => ⟨h1 q (List.mem_toFinset.mpr hq), h2 q (List.mem_toFinset.mpr hq)⟩
  exact ⟨p, List.mem_toFinset.mp hp, p', List.mem_toFinset.mp hp', h3.1, h3.2⟩

/-- What `simulate` sets the coefficients to. -/
noncomputable def startFriction (m : Material) : ℝ := if m.plastic = .dpMui ∨ m.plastic = .mccMui then m.mu1 else m.M

lemma frictionIn_of {A : Set ℝ} (hA : A.OrdConnected) {deg : Deg} {dx fr m vol : ℝ}
    (hS : R.S.P = mkTransferParams deg dx fr true m vol) (hdx : 0 < dx) (hpbc : R.S.pbc = false)
    (hsched : ∀ k ps, (R.sched k ps).flatten.Perm ps) (hmin : 0 < R.C.minDt) (h0 : startFriction R.m ∈ A)
    (hstep : ∀ dt p p', 0 < dt → p.muI ∈ A → PlasticStep R dt p p' → p'.muI ∈ A) : FrictionIn R s A := by
  have hini : ∀ p ∈ (begin R s).w.ps, p.muI ∈ A := by
    rw [begin_w]
    have hu : R.S.P.useMibf = true := by rw [hS]; rfl
    simp only [fillMuI, hu, if_true, List.mem_map]
    rintro _ ⟨p, -, rfl⟩
    exact h0
  have key : ∀ (l l' : List (Particle (d + 2) ℝ)) (dt : ℝ), 0 < dt → (∀ p ∈ l, p.muI ∈ A) →
      List.Forall₂ (Updated R dt) l l' → ∀ p ∈ l', p.muI ∈ A := by
    intro l l' dt hdt hP h
    induction h with
    | nil => simp
    | cons h1 _ ih =>
      have a1 := hstep dt _ _ hdt (hP _ (by simp)) (plasticStep_of h1)
      have b2 := ih fun p hp => hP p (by simp [hp])
      simpa using ⟨a1, b2⟩
  have hinv : ∀ s1 dt g w, StepOf R s s1 dt g w → (∀ p ∈ s1.w.ps, p.muI ∈ A) ∧ ∀ p ∈ w.ps, p.muI ∈ A :=
    fun s1 dt g w hst => run_inv (Inv := fun w _ _ _ => ∀ p ∈ w.ps, p.muI ∈ A) hini (fun s1 dt g w h hP =>
      key _ _ dt (hmin.trans_le h.dt_ge.1) hP (physStep_forall₂ h.phys)) hst
  refine ⟨fun i e fuel n t w hev hnew => ?_, fun s1 dt g w hst i hi hpos => ?_⟩
  · rcases run_particles hev hnew with ⟨-, -, rfl⟩ | ⟨s1, dt, g, hst, -⟩
    · exact hini
    · exact (hinv _ _ _ _ hst).2
  · have hPdx : R.S.P.dx = dx := by rw [hS]; rfl
    have hgood := physStep_goodGrid hpbc (by rw [hPdx]; exact hdx) (by rw [hS]; rfl) hst.phys
    rw [hPdx] at hgood
    obtain ⟨arr, ha, hm, hf⟩ := physStep_arrays hpbc hst.phys
    rw [hS] at ha
    rw [hm] at hpos
    obtain ⟨p, hp, p', hp', h1, h2⟩ := node_between (hgood.perm (hsched _ _)) ha hi hpos
    have hold := (hinv _ _ _ _ hst).1
    rw [hf]
    exact hA.out (hold p ((hsched _ _).mem_iff.mp hp)) (hold p' ((hsched _ _).mem_iff.mp hp')) ⟨h1, h2⟩

variable {deg : Deg} {dx fr m vol : ℝ}

/-- **C82** Elastic, von Mises and rate-independent Drucker-Prager material: the friction at walls is `M` throughout. -/
theorem C82_run_constant (hS : R.S.P = mkTransferParams deg dx fr true m vol) (hdx : 0 < dx) (hpbc : R.S.pbc = false)
    (hsched : ∀ k ps, (R.sched k ps).flatten.Perm ps) (hmin : 0 < R.C.minDt)
    (hm : R.m.plastic = .noPlasticity ∨ R.m.plastic = .vm ∨ R.m.plastic = .vmVisc ∨ R.m.plastic = .dp ∨
      R.m.plastic = .dpSoft) : FrictionIn R s {R.m.M} := by
  refine frictionIn_of Set.ordConnected_singleton hS hdx hpbc hsched hmin ?_ ?_
  · rcases hm with h | h | h | h | h <;> simp [startFriction, h]
  · rintro dt p p' hdt hp ⟨q, out, x, v, ⟨_, _, _, _, _, _, rfl⟩, ho, -, rfl⟩
    exact (C82_constant hm ho).trans hp

/-- **C82** Cam-Clay with explicit hardening, rate-independent or Duvaut-Lions: the friction at walls is `M` throughout. -/
theorem C82_run_camClay (hS : R.S.P = mkTransferParams deg dx fr true m vol) (hdx : 0 < dx) (hpbc : R.S.pbc = false)
    (hsched : ∀ k ps, (R.sched k ps).flatten.Perm ps) (hmin : 0 < R.C.minDt) (ok : MatOk R.m (d + 2)) (cam : CamOk R.m)
    (hm : R.m.plastic = .mcc ∨ R.m.plastic = .mccVisc ∧ R.m.useDuvautLions = true) (hM : 0 ≤ R.m.M)
    (hmi : R.m.useMibf = true) (hh : R.m.hardening = .expoExpl ∨ R.m.hardening = .sinhExpl) (hτ : 0 ≤ R.m.viscTime) :
    FrictionIn R s {R.m.M} := by
  refine frictionIn_of Set.ordConnected_singleton hS hdx hpbc hsched hmin ?_ ?_
  · rcases hm with h | ⟨h, -⟩ <;> simp [startFriction, h]
  · rintro dt p p' hdt hp ⟨q, out, x, v, -, ho, -, rfl⟩
    exact C82_camClay ok cam hm hM hmi hh hτ hdt ho

/-- **C82** Cam-Clay with implicit exponential hardening: the friction at walls is between zero and `M` throughout. -/
theorem C82_run_camClay_implicit (hS : R.S.P = mkTransferParams deg dx fr true m vol) (hdx : 0 < dx)
    (hpbc : R.S.pbc = false) (hsched : ∀ k ps, (R.sched k ps).flatten.Perm ps) (hmin : 0 < R.C.minDt)
    (hsvd : ∀ F, IsSvd F (R.svd F)) (ok : MatOk R.m (d + 2)) (cam : CamOk R.m)
    (hm : R.m.plastic = .mcc) (hM : 0 ≤ R.m.M) (hmi : R.m.useMibf = true) (hh : R.m.hardening = .expoImpl) :
    FrictionIn R s (Set.Icc 0 R.m.M) := by
  refine frictionIn_of Set.ordConnected_Icc hS hdx hpbc hsched hmin ?_ ?_
  · simp [startFriction, hm, hM]
  · rintro dt p p' hdt hp ⟨q, out, x, v, -, ho, -, rfl⟩
    show 0 ≤ out.q.muI ∧ out.q.muI ≤ R.m.M
    rcases C82_camClay_implicit ok cam hm hM hmi (hsvd _) ho (.inl hh) with h | ⟨h, -⟩ <;> rw [h]
    · exact ⟨hM, le_rfl⟩
    · exact ⟨le_rfl, hM⟩

/-- **C82** Cam-Clay of all kinds, rate-independent or viscous, with any hardening law: the friction at walls is never
negative. -/
theorem C82_run_camClay_nonneg (hS : R.S.P = mkTransferParams deg dx fr true m vol) (hdx : 0 < dx)
    (hpbc : R.S.pbc = false) (hsched : ∀ k ps, (R.sched k ps).flatten.Perm ps) (hmin : 0 < R.C.minDt)
    (ok : MatOk R.m (d + 2)) (cam : CamOk R.m) (hm : R.m.plastic = .mcc ∨ R.m.plastic = .mccVisc) (hM : 0 ≤ R.m.M)
    (hmi : R.m.useMibf = true) (hh : R.m.hardening ≠ .noHard) (hτ : 0 ≤ R.m.viscTime) (hn : 0 ≤ R.m.viscExponent) :
    FrictionIn R s (Set.Ici 0) := by
  refine frictionIn_of Set.ordConnected_Ici hS hdx hpbc hsched hmin ?_ ?_
  · rcases hm with h | h <;> simp [startFriction, h, hM]
  · rintro dt p p' hdt hp ⟨q, out, x, v, -, ho, -, rfl⟩
    exact C82_camClay_nonneg ok cam hm hM hmi hh hτ hn hdt ho

/-- **C82** Viscous Cam-Clay (Perzyna) with explicit hardening, and viscous Drucker-Prager material without cohesion:
the friction at walls is never below `M`. -/
theorem C82_run_viscous (hS : R.S.P = mkTransferParams deg dx fr true m vol) (hdx : 0 < dx) (hpbc : R.S.pbc = false)
    (hsched : ∀ k ps, (R.sched k ps).flatten.Perm ps) (hmin : 0 < R.C.minDt) (hsvd : ∀ F, IsSvd F (R.svd F))
    (ok : MatOk R.m (d + 2)) (hM : 0 < R.m.M) (hmi : R.m.useMibf = true) (hτ : 0 ≤ R.m.viscTime)
    (hm : R.m.plastic = .dpVisc ∧ R.m.viscExponent = 1 ∧ R.m.M ≤ 1e10 ∧ R.m.qCohesion = 0 ∨
      R.m.plastic = .mccVisc ∧ CamOk R.m ∧ R.m.useDuvautLions = false ∧ 0 ≤ R.m.viscExponent ∧
        (R.m.hardening = .expoExpl ∨ R.m.hardening = .sinhExpl)) :
    FrictionIn R s (Set.Ici R.m.M) := by
  refine frictionIn_of Set.ordConnected_Ici hS hdx hpbc hsched hmin ?_ ?_
  · rcases hm with ⟨h, -⟩ | ⟨h, -⟩ <;> simp [startFriction, h]
  · rintro dt p p' hdt hp ⟨q, out, x, v, -, ho, -, rfl⟩
    rcases hm with ⟨h1, h2, h3, h4⟩ | ⟨h1, h2, h3, h4, h5⟩
    · exact C82_druckerPrager ok h1 h2 hM h3 h4 hmi hτ hdt (hsvd _) ho
    · exact (C82_viscousCamClay ok h2 h1 h3 hM.le hmi h5 hτ h4 hdt (hsvd _) ho).1

/-- **C82** The mu(I) models: the friction at walls is between `mu_1` and `mu_2` throughout. -/
theorem C82_run_muI (hS : R.S.P = mkTransferParams deg dx fr true m vol) (hdx : 0 < dx) (hpbc : R.S.pbc = false)
    (hsched : ∀ k ps, (R.sched k ps).flatten.Perm ps) (hmin : 0 < R.C.minDt) (hsvd : ∀ F, IsSvd F (R.svd F))
    (ok : MatOk R.m (d + 2)) (h1 : 0 < R.m.mu1) (h12 : R.m.mu1 < R.m.mu2) (hfq : 0 < R.m.facQ)
    (hm : R.m.plastic = .dpMui ∧ 0 ≤ R.m.qCohesion ∧ 0 ≤ R.m.stressTol ∨ R.m.plastic = .mccMui ∧ CamOk R.m) :
    FrictionIn R s (Set.Icc R.m.mu1 R.m.mu2) := by
  refine frictionIn_of Set.ordConnected_Icc hS hdx hpbc hsched hmin ?_ ?_
  · rcases hm with ⟨h, -⟩ | ⟨h, -⟩ <;> simp [startFriction, h, h12.le]
  · rintro dt p p' hdt hp ⟨q, out, x, v, -, ho, -, rfl⟩
    show R.m.mu1 ≤ out.q.muI ∧ out.q.muI ≤ R.m.mu2
    rcases hm with ⟨hm, hc, ht⟩ | ⟨hm, cam⟩
    · set P := trialP R.m (R.svd q.F) with hP
      set S := pressureShift R.m (d + 2) q with hSh
      by_cases hcase : -R.m.qCohesion / R.m.mu1 < P + S ∧
          R.m.mu1 * (P + S) + R.m.qCohesion + R.m.stressTol < trialQ R.m (R.svd q.F)
      · obtain ⟨out', ho', -, -, -, k1, k2, -⟩ := C39_muI (cabs := R.cabs) ok hm h1 h12 hfq hc ht hdt q false (hsvd _)
          hP rfl hSh rfl rfl hcase.1 hcase.2
        obtain rfl := Option.some.inj (ho.symm.trans ho')
        exact ⟨k1.le, k2.le⟩
      · obtain ⟨out', ho', k1, -⟩ := C39_other (cabs := R.cabs) ok hm dt q false (hsvd _) hP rfl hSh rfl (by
          by_contra hcon
          push Not at hcon
          exact hcase hcon)
        obtain rfl := Option.some.inj (ho.symm.trans ho')
        exact ⟨k1.ge, k1.le.trans h12.le⟩
    · rcases C39_camClay ok cam hm h1.le h12 hfq hdt q false (hsvd _) ho rfl rfl with
        ⟨-, -, -, k, -⟩ | ⟨qy, -, -, -, k1, k2, -⟩
      · exact ⟨k.ge, k.le.trans h12.le⟩
      · rcases le_or_gt (trialQ R.m (R.svd q.F)) (qy + R.m.stressTol) with h | h
        · have := (k1 h).2.1
          exact ⟨this.ge, this.le.trans h12.le⟩
        · exact ⟨(k2 h).2.1.le, (k2 h).2.2.1⟩

end run
end Verif.Props
