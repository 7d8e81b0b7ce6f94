import Verif.Props.YieldExponent
import Verif.Props.RunExamples

set_option linter.unusedSectionVars false
set_option linter.unusedSimpArgs false
set_option linter.unusedVariables false

/-!
# Runs with a viscous exponent other than one
-/

namespace Verif.Props.RunEx
open Verif Matrix
noncomputable section

/-- Exponent 2 and no relaxation time. -/
def squared (pm : PlasticModel) : Material := { Ex.mat pm with viscExponent := 2, viscTime := 0 }

lemma squared_ok (pm : PlasticModel) : MatOk (squared pm) 2 :=
  ⟨(Ex.mat_ok pm).hd, (Ex.mat_ok pm).hK, (Ex.mat_ok pm).hmu, (Ex.mat_ok pm).hq, (Ex.mat_ok pm).hel⟩

/-- The iteration for a linear residual ends after one update. -/
lemma newton_linear {resid diff : ℝ → Option ℝ} {A : ℝ} (hA : 0 < A) (h1 : ∀ g, resid g = some (A - g))
    (h2 : ∀ g, diff g = some (-1)) (n : ℕ) (g : ℝ) :
    ∃ g', newtonLoop resid diff (n + 3) g false = some (g', false) := by
  rw [newtonLoop, h1, h2]
  have e1 : ((n + 2 == 0) : Bool) = false := by simp
  have e2 : ((n + 1 == 0) : Bool) = false := by simp
  simp only [Bool.false_or, e1, Option.bind_eq_bind, Option.bind_some]
  by_cases c1 : |A - g| < 1e-2
  · rw [if_pos c1]; exact ⟨_, rfl⟩
  have e3 : g - (A - g) / -1 = A := by ring
  have e4 : (if |(-1 : ℝ)| < 1e-14 then if (-1 : ℝ) ≥ 0 then (1e-14 : ℝ) else -1e-14 else -1) = -1 := by norm_num
  rw [if_neg c1, e4, e3, if_neg (not_lt.mpr hA.le), newtonLoop, h1]
  simp only [Bool.false_or, e2, Option.bind_eq_bind, Option.bind_some, sub_self, abs_zero]
  rw [if_pos (by norm_num)]
  exact ⟨_, rfl⟩

/-- Without relaxation time the residual is linear in the increment. -/
lemma squared_increment {pm : PlasticModel} {dt Q Y : ℝ} (hdt : 0 < dt) (h : Y < Q) {qy qyd : ℝ → ℝ} (hqy : ∀ g, qy g = Y)
    (hqyd : ∀ g, qyd g = 0) : ∃ g, viscIncrement (squared pm) dt false Q Y qy qyd false = some (g, false) := by
  have hf : (squared pm).fMu = 1 := Ex.mat_fMu pm
  have h0 : (squared pm).viscTime = 0 := rfl
  have h2 : (squared pm).viscExponent = 2 := rfl
  have h1 : dt / dt = 1 := div_self hdt.ne'
  have h3 : ¬ ((1 : ℝ) < 0 ∨ (1 : ℝ) = 0 ∧ (2 : ℝ) < 0) := by norm_num
  have h4 : ¬ ((1 : ℝ) < 0 ∨ (1 : ℝ) = 0 ∧ (2 : ℝ) - 1 < 0) := by norm_num
  simp only [viscIncrement, Bool.false_eq_true, if_false, show (squared pm).useDuvautLions = false from rfl]
  refine newton_linear (sub_pos.mpr h) (fun g => ?_) (fun g => ?_) 57 _
  · simp only [residPerzyna, h0, h2, hf, fdiv, fpow, zero_mul, zero_add, if_neg hdt.ne', h1, hqy, Option.bind_eq_bind,
      Option.bind_some, if_neg h3, Real.one_rpow, Option.some.injEq]
    ring
  · simp only [residDiffPerzyna, h0, h2, hf, fdiv, fpow, zero_mul, zero_add, if_neg hdt.ne', h1, hqyd, Option.bind_eq_bind,
      Option.bind_some, if_neg h3, if_neg h4, Real.one_rpow, if_neg (mul_pos hdt hdt).ne', Option.some.injEq]
    simp

lemma squared_update (musl : Bool) {pm : PlasticModel} (hpm : pm = .dpVisc ∨ pm = .vmVisc) (dt : ℝ) (q : Particle 2 ℝ)
    (hdt : 0 < dt) : ∃ q', plasticUpdate (made musl (squared pm)) dt q = some (q', false) := by
  suffices ∃ st, plastModel (made musl (squared pm)).cabs (squared pm) dt ((made musl (squared pm)).svd q.F)
      (mkTrial ((made musl (squared pm)).svd q.F).hencky) ⟨q, ((made musl (squared pm)).svd q.F).hencky, 0, false⟩ = some st ∧
      st.exit = false by
    obtain ⟨st, h1, h2⟩ := this
    have h3 : plasticity (made musl (squared pm)).cabs (made musl (squared pm)).svd (made musl (squared pm)).m dt q false = _ :=
      plasticity_some.mpr ⟨st, h1, rfl⟩
    exact ⟨_, by rw [plasticUpdate, h3, Option.map_some, h2]⟩
  rcases hpm with rfl | rfl
  · have hp : (squared .dpVisc).plastic = .dpVisc := rfl
    have hn : ((squared .dpVisc).viscExponent = 1) = False := by simp [squared]
    have hmi : (squared .dpVisc).useMibf = false := rfl
    have hpr : (squared .dpVisc).usePradhana = false := rfl
    simp only [plastModel, hp, plastDPVisc, ite_muI, hn, hmi, hpr, decide_false, Bool.false_eq_true, if_false]
    split_ifs with c1 c2 c3
    all_goals first
      | exact ⟨_, rfl, rfl⟩
      | skip
    all_goals
      obtain ⟨g, hg⟩ := squared_increment (pm := .dpVisc) hdt (And.right ‹_ ∧ _›) (qy := fun _ => _) (qyd := fun _ => 0)
        (fun _ => rfl) (fun _ => rfl)
      simp only [hg, Option.bind_eq_bind, Option.bind_some]
      exact ⟨_, rfl, rfl⟩
  · have hp : (squared .vmVisc).plastic = .vmVisc := rfl
    have hn : ((squared .vmVisc).viscExponent = 1 ∧ (squared .vmVisc).xi = 0) = False := by simp [squared]
    simp only [plastModel, hp, plastVMVisc, hn, decide_false, Bool.false_eq_true, if_false]
    split_ifs with c1 c2
    · exact ⟨_, rfl, rfl⟩
    · obtain ⟨g, hg⟩ := squared_increment (pm := .vmVisc) hdt c2
        (qy := fun dg => (squared .vmVisc).qMin + ((squared .vmVisc).qMax - (squared .vmVisc).qMin) *
          Real.exp (-(squared .vmVisc).xi * (q.epsPlDev + 1 / (squared .vmVisc).dPre * dg)))
        (qyd := fun dg => -(squared .vmVisc).xi / (squared .vmVisc).dPre * ((squared .vmVisc).qMax - (squared .vmVisc).qMin) *
          Real.exp (-(squared .vmVisc).xi * (q.epsPlDev + 1 / (squared .vmVisc).dPre * dg)))
        (fun g => by simp [squared, Ex.mat]) (fun g => by simp [squared, Ex.mat])
      simp only [hg, Option.bind_eq_bind, Option.bind_some]
      exact ⟨_, rfl, rfl⟩
    · exact ⟨_, rfl, rfl⟩

lemma squared_run (musl : Bool) {pm : PlasticModel} (hpm : pm = .dpVisc ∨ pm = .vmVisc) :
    ∃ t w, .particles 1 t w ∈ filesOf (runProgram (made musl (squared pm)) true false 10 (start stretched ![0, -10])) := by
  obtain ⟨r, h, t, w, hw⟩ := one_step_run_upd (R := made musl (squared pm)) (musl := musl) rfl rfl
    (fun _ _ => by simp [made, setup]) (fun dt q hdt => squared_update musl hpm dt q hdt) rfl (ps := stretched)
    (by simp [stretched]) (by simp [stretched, Particle.init]) ![0, -10]
  exact ⟨t, w, by rw [h]; exact hw⟩

/-- `C71` for the stretched particle and exponent 2. -/
example (musl : Bool) : ∃ t w,
    .particles 1 t w ∈ filesOf (runProgram (made musl (squared .dpVisc)) true false 10 (start stretched ![0, -10])) ∧
    ∃ s1 dt g, StepOf (made musl (squared .dpVisc)) (start stretched ![0, -10]) s1 dt g w ∧ List.Forall₂ (fun p0 p =>
        -(1 / 8) / 1 ≤ savedP p.tau ∧
        (savedQ (1 / √2) p.tau ≤ 1 * savedP p.tau + 1 / 8 ∨ 0 ≤ p.deltaGamma ∧
          FlowsAt (squared .dpVisc) 1e-2 (1 * (savedP p.tau + 0) + 1 / 8) (savedQ (1 / √2) p.tau) p.deltaGamma ∨
          savedP p.tau + 0 = -(1 / 8) / 1)) s1.w.ps w.ps := by
  obtain ⟨t, w, hev⟩ := squared_run musl (.inl rfl)
  obtain ⟨s1, dt, g, h1, h2⟩ := (C71_viscousDruckerPrager_exponent_partial (R := made musl (squared .dpVisc))
    ⟨squared_ok _, rfl, by norm_num [made, squared], by norm_num [made, squared, Ex.mat], by norm_num [made, squared, Ex.mat],
      by norm_num [made, squared]⟩ someSvd_isSvd (by norm_num [made, setup, cfg, exConfig])
    (by simp [start, stretched, Particle.init]) hev (by simp [start])).resolve_left (by simp)
  exact ⟨t, w, hev, s1, dt, g, h1, h2.imp fun p0 p h => ⟨h.1, h.2.2.2⟩⟩

example (musl : Bool) : ∃ t w,
    .particles 1 t w ∈ filesOf (runProgram (made musl (squared .vmVisc)) true false 10 (start stretched ![0, -10])) ∧
    ∃ s1 dt g, StepOf (made musl (squared .vmVisc)) (start stretched ![0, -10]) s1 dt g w ∧ List.Forall₂ (fun p0 p =>
        ((squared .vmVisc).pMin * Real.exp (-(squared .vmVisc).xi * p0.epsPlVol) ≤ savedP p.tau →
          savedQ (1 / √2) p.tau ≤ vmYield (squared .vmVisc) p.epsPlDev ∨ 0 ≤ p.deltaGamma ∧
          FlowsAt (squared .vmVisc) 1e-2 (vmYield (squared .vmVisc) p.epsPlDev) (savedQ (1 / √2) p.tau) p.deltaGamma))
        s1.w.ps w.ps := by
  obtain ⟨t, w, hev⟩ := squared_run musl (.inr rfl)
  obtain ⟨s1, dt, g, h1, h2⟩ := (C71_viscousVonMises_exponent (R := made musl (squared .vmVisc))
    (squared_ok _) rfl (by norm_num [made, squared]) (by norm_num [made, squared, Ex.mat]) (by norm_num [made, squared, Ex.mat])
      (by norm_num [made, squared]) someSvd_isSvd (by norm_num [made, setup, cfg, exConfig])
    hev (by simp [start])).resolve_left (by simp)
  exact ⟨t, w, hev, s1, dt, g, h1, h2.imp fun p0 p h => h.2⟩

end
end Verif.Props.RunEx
