import Verif.Props.OwnFriction
import Verif.Props.StrengthExamples

set_option linter.unusedSectionVars false
set_option linter.unusedSimpArgs false
set_option linter.unusedVariables false

/-!
# C92: concrete cases, and the coefficient at low pressure
-/

namespace Verif.Props.InputEx
open Verif Matrix RunEx
noncomputable section

/-- A floor which uses the friction coefficient of the material, and a stretched particle on it. -/
def mibfSim (musl : Bool) : Sim 2 :=
  { exSim musl with useMibf := true, M := 1 / 2, plasticModel := .vm, qMax := 1 / 4,
                    plates := [{ floor with friction := 7 }] }

/-- `C92_constant`; the friction coefficient 7 given for the plate is not used. -/
example (musl : Bool) : SameResult ((mibfSim musl).simulate (d := 0) exBuild 10)
    ((wallsLikeMaterial (mibfSim musl)).simulate (d := 0) exBuild 10) :=
  C92_constant (d := 0) frictionFree2 (fun _ _ => by simp [exBuild]) rfl rfl (by norm_num [mibfSim, exSim])
    (by
      intro p hp
      change p ∈ stretched at hp
      simp [stretched] at hp
      subst hp
      simp [Particle.init]) (.inr (.inl rfl))

/-- Cam-Clay with explicit hardening on the same floor. -/
def camSim (musl : Bool) : Sim 2 :=
  { mibfSim musl with plasticModel := .mcc, hardeningLaw := .expoExpl, xi := 3, beta := 1 / 2, p0 := 1 / 10 }

/-- `C92_camClay` -/
example (musl : Bool) : SameResult ((camSim musl).simulate (d := 0) exBuild 10)
    ((wallsLikeMaterial (camSim musl)).simulate (d := 0) exBuild 10) :=
  C92_camClay (d := 0) frictionFree2 (fun _ _ => by simp [exBuild]) rfl rfl (by norm_num [camSim, mibfSim, exSim])
    (by
      intro p hp
      change p ∈ stretched at hp
      simp [stretched] at hp
      subst hp
      simp [Particle.init])
    (Solid.ok (d := 0) (s := camSim musl) (b := exBuild) ⟨.inl rfl, (exSim_solid musl).hE, (exSim_solid musl).nu1,
      (exSim_solid musl).nu2, (exSim_solid musl).hq, rfl, someSvd_isSvd, (exSim_solid musl).minDt⟩ 1 3 1)
    ⟨by norm_num [Sim.material, camSim], by norm_num [Sim.material, camSim], by norm_num [Sim.material, camSim, mibfSim, exSim]⟩
    (by norm_num [camSim, mibfSim]) (by norm_num [camSim, mibfSim, exSim]) (.inl rfl) (.inl rfl)

/-- Cohesive sand at rest, with the settings of the unit test. -/
def sandSim (musl : Bool) : Sim 2 :=
  { exSim musl with useMibf := true, M := 1 / 2, plasticModel := .dpVisc, viscTime := 0, qCohesion := 1 / 8, particles := pair,
                    gravity := 0, usePradhana := false }

lemma pair_muI : ∀ p ∈ pair, p.muI = 0 := by
  intro p hp
  simp only [pair, List.mem_cons, List.not_mem_nil, or_false] at hp
  rcases hp with rfl | rfl <;> simp [Particle.init]

/-- `C92_druckerPrager` -/
example (musl : Bool) : SameResult ((sandSim musl).simulate (d := 0) exBuild 10)
    ((wallsLikeMaterial (sandSim musl)).simulate (d := 0) exBuild 10) := by
  have ok : MatOk (sandSim musl).material 2 := Solid.ok (d := 0) (s := sandSim musl) (b := exBuild) ⟨.inl rfl, (exSim_solid musl).hE,
    (exSim_solid musl).nu1, (exSim_solid musl).nu2, (exSim_solid musl).hq, rfl, someSvd_isSvd, (exSim_solid musl).minDt⟩ 1 3 1
  have hM : 0 < (sandSim musl).material.M := by norm_num [sandSim, Sim.material]
  have hmin : 0 < (sandSim musl).minDt := by norm_num [sandSim, exSim]
  have hc : (sandSim musl).material.qCohesion = 1 / 8 := by norm_num [sandSim, Sim.material]
  refine C92_druckerPrager (d := 0) frictionFree2 (fun _ _ => by simp [exBuild]) someSvd_isSvd rfl rfl hmin
    pair_muI ok rfl rfl rfl ?_
  intro dx m vol hx hy hz
  obtain rfl : 1 = dx := Option.some.inj hx
  obtain rfl : 3 = m := Option.some.inj hy
  obtain rfl : 1 = vol := Option.some.inj hz
  set R := (sandSim musl).setup exBuild (Nat.succ_pos 1) 1 3 1 with hR
  have href : R.S.ref = none := by simp [hR, Sim.setup, sandSim, exSim]; norm_num
  obtain ⟨h0, hstep⟩ := fall_inv (d := 0) (R := R) (s := (sandSim musl).fresh) (deg := .two) (dx := 1)
    (fr := -19 / 20) (m := 3) (vol := 1) (mibf := true) rfl (by simp) one_pos (by norm_num) rfl rfl rfl rfl
    (fun _ _ => by simp [hR, Sim.setup, exBuild]) hmin.le
    (.inr ⟨ok, .inr (.inr (.inr (.inr (.inl ⟨rfl, hM, by show 0 ≤ (sandSim musl).material.qCohesion; rw [hc]; norm_num, rfl⟩))))⟩) someSvd_isSvd
    (c := 0) (rest_noTiny (d := 0) rfl one_pos rfl rfl (by simp [Sim.fresh, World.gridless, sandSim, pair]) rfl
      (fun m0 h => pair_noTiny m0 (by rwa [href] at h))) pair_rest
  intro s1 dt g w hst p' hp' h10
  obtain ⟨-, -, -, τ, u, -, -, -, -, hF⟩ := (run_inv (Inv := fun w t _ g => FallInv R (sandSim musl).fresh 0 w t g) h0 hstep hst).2
  have htau : p'.tau = 0 := by
    obtain ⟨k, hk, rfl⟩ := List.mem_iff_getElem.mp hp'
    exact ((List.forall₂_iff_get.mp hF).2 k (by rw [hF.length_eq]; exact hk) hk).2.2.2.1
  obtain ⟨p, q, out, x, v, -, ho, -, rfl⟩ : ∃ p, PlasticStep R dt p p' := by
    have := physStep_forall₂ hst.phys
    obtain ⟨k, hk, rfl⟩ := List.mem_iff_getElem.mp hp'
    exact ⟨_, plasticStep_of ((List.forall₂_iff_get.mp this).2 k (by rw [this.length_eq]; exact hk) hk)⟩
  have hdt : 0 < dt := hmin.trans_le hst.dt_ge.1
  have hs := someSvd_isSvd q.F
  change out.q.tau = 0 at htau
  change out.q.muI = 1e10 at h10
  have hP0 : newP out = 0 := by simp [newP, savedP, htau]
  have hQ0 : newQ (sandSim musl).material out = 0 := by simp [newQ, savedQ, savedP, htau, selfDoubleDot]
  rcases plastDPVisc_friction (m := (sandSim musl).material) ok rfl rfl hs ho rfl rfl rfl rfl with ⟨-, h1⟩ | ⟨h1, h2, -⟩
  · rw [h10] at h1; norm_num [sandSim, Sim.material] at h1
  · obtain ⟨out', ho', -, e1, -, e2, -⟩ := C38_viscousDruckerPrager (cabs := abs) (svd := someSvd) (m := (sandSim musl).material) ok rfl
      rfl hM (by rw [hc]; norm_num) le_rfl hdt q false hs rfl rfl rfl rfl
    obtain rfl := Option.some.inj (ho.symm.trans ho')
    have h3 := (e2 h1 h2).2.2.2.2 rfl
    have h4 := e1 h1.le
    have hsh : pressureShift (sandSim musl).material 2 q = 0 := by simp [pressureShift, sandSim, Sim.material]
    rw [hQ0] at h3
    change newP out = _ at h4
    rw [hP0] at h4
    change 0 = (sandSim musl).material.M * (trialP (sandSim musl).material (someSvd q.F) + pressureShift (sandSim musl).material 2 q) +
      (sandSim musl).material.qCohesion at h3
    rw [← h4, hsh, hc] at h3
    norm_num at h3

/-- Sand without cohesion and without viscosity. -/
def drySand : Material := { Ex.mat .dpVisc with useMibf := true, viscTime := 0, qCohesion := 0 }

/-- **C92** is false for viscous Drucker-Prager material at low pressure: with viscous time zero the ratio of shear stress
and pressure is `M` after flow, but at a pressure below `1e-10` (in whatever unit of stress is used) the code stores
`1e10`, and a plate holds the material which it should let slide. -/
theorem C92_tiny_false : ∃ q : Particle 2 ℝ, ∃ svd out, IsSvd q.F (svd q.F) ∧
    plasticity abs svd drySand 1 q false = some out ∧ out.exit = false ∧ 0 < newP out ∧ newQ drySand out = drySand.M * newP out ∧
    out.q.muI = 1e10 ∧ ∀ v : Fin 2 → ℝ, v 0 = 2 → v 1 = -1 →
      plateRel2 .bottom .slipStick drySand.M v 0 = 1 ∧ plateRel2 .bottom .slipStick out.q.muI v 0 = 0 := by
  have ok : MatOk drySand 2 := ⟨(Ex.mat_ok .dpVisc).hd, (Ex.mat_ok .dpVisc).hK, (Ex.mat_ok .dpVisc).hmu, (Ex.mat_ok .dpVisc).hq, rfl⟩
  obtain ⟨e1, e2⟩ := ex_trial .dpVisc (a := 1 / 4) (b := -(1 / 4 + 1 / 10 ^ 11)) (by norm_num) (by norm_num) _ (Ex.isSvd _ _)
  set a : ℝ := 1 / 4
  set b : ℝ := -(1 / 4 + 1 / 10 ^ 11)
  have e1' : trialP drySand (Ex.svd a b (Ex.part a b).F) = 1 / 10 ^ 11 := e1.trans (by norm_num [a, b])
  have e2' : trialQ drySand (Ex.svd a b (Ex.part a b).F) = 1 / 2 + 1 / 10 ^ 11 := e2.trans (by norm_num [a, b])
  have hsh : pressureShift drySand 2 (Ex.part a b) = 0 := by simp [pressureShift, drySand, Ex.mat]
  have hM : drySand.M = 1 := rfl
  have hc : drySand.qCohesion = 0 := rfl
  obtain ⟨out, h, -, c1, -, c2, -, -, -, -, -, -, he⟩ := C38_viscousDruckerPrager (cabs := abs) (m := drySand) ok rfl rfl
    (by norm_num [hM]) (by norm_num [hc]) le_rfl one_pos (Ex.part a b) false (Ex.isSvd _ _) e1'.symm e2'.symm hsh.symm rfl
  have hp := c1 (by rw [hc]; norm_num)
  have hq := (c2 (by rw [hc]; norm_num) (by rw [hM, hc]; norm_num)).2.2.2.2 rfl
  have hmu : out.q.muI = 1e10 := by
    rcases plastDPVisc_friction ok rfl rfl (Ex.isSvd _ _) h e1'.symm e2'.symm hsh.symm rfl with ⟨h1, -⟩ | ⟨-, -, r, -, -, h1⟩
    · exact absurd ⟨by rw [hc]; norm_num, by rw [hM, hc]; norm_num⟩ h1
    · rw [h1, if_pos (by rw [abs_of_pos] <;> norm_num)]
  refine ⟨_, _, out, Ex.isSvd a b, h, he, by rw [hp]; norm_num, by rw [hq, hp, hc]; ring, hmu, fun v h0 h1 => ?_⟩
  simp only [plateRel2, or_true, if_true, hmu, hM, slide2, h0, h1, cons_val_zero]
  norm_num

end
end Verif.Props.InputEx
