import Verif.Props.InputExamples
import Verif.Props.Readme
import Verif.Props.Cube

set_option linter.unusedSectionVars false
set_option linter.unusedSimpArgs false
set_option linter.unusedVariables false

/-!
# Concrete cases for C89 - C91
-/

namespace Verif.Props.InputEx
open Verif Matrix RunEx
noncomputable section

/-- The simulation `exSim` with another material. -/
structure Variant (musl : Bool) (s : Sim 2) : Prop where
  C : (s.setup exBuild (Nat.succ_pos 1) 1 3 1).C = ((exSim musl).setup exBuild (Nat.succ_pos 1) 1 3 1).C
  S : (s.setup exBuild (Nat.succ_pos 1) 1 3 1).S = ((exSim musl).setup exBuild (Nat.succ_pos 1) 1 3 1).S
  run : s.simulate exBuild 10 = runProgram (s.setup exBuild (Nat.succ_pos 1) 1 3 1) true false 10 (start stretched ![0, -10])
  solid : Solid (d := 0) s exBuild

lemma variant_file {musl : Bool} {s : Sim 2} (h : Variant musl s)
    (hrob : MatOk s.material 2 → Robust (d := 0) (s.setup exBuild (Nat.succ_pos 1) 1 3 1)) (hnf : NeverFails s.material) :
    ∃ t w, .particles 1 t w ∈ filesOf (Sim.simulate (d := 0) s exBuild 10) := by
  obtain ⟨r, h1, t, w, hw⟩ := one_step_run_of (R := s.setup exBuild (Nat.succ_pos 1) 1 3 1) (musl := musl)
    (h.C.trans rfl) (h.S.trans (by simp only [Sim.setup, exSim, exBuild, RunEx.setup]; norm_num))
    (fun _ _ => by simp [Sim.setup, exBuild]) (hrob (h.solid.ok 1 3 1)) hnf h.solid.hel (ps := stretched)
    (by simp [stretched]) (by simp [stretched, Particle.init]) ![0, -10]
  exact ⟨t, w, by rw [h.run, h1]; exact hw⟩

lemma exSim_solid (musl : Bool) : Solid (d := 0) (exSim musl) exBuild where
  dim := .inl rfl
  hE := by norm_num [exSim]
  nu1 := by norm_num [exSim]
  nu2 := by norm_num [exSim]
  hq := by simp [exSim]
  hel := rfl
  svd := someSvd_isSvd
  minDt := by simp [exSim]

def vmSim (musl : Bool) : Sim 2 := { exSim musl with plasticModel := .vm, qMax := 1 / 4 }

example (musl : Bool) : ∃ t w, .particles 1 t w ∈ filesOf (Sim.simulate (d := 0) (vmSim musl) exBuild 10) ∧
    ∀ p ∈ w.ps, savedQ (1 / √2) p.tau ≤ 1 / 4 := by
  have hv : Variant musl (vmSim musl) := ⟨rfl, rfl, rfl, ⟨.inl rfl, (exSim_solid musl).hE, (exSim_solid musl).nu1,
    (exSim_solid musl).nu2, (exSim_solid musl).hq, rfl, someSvd_isSvd, (exSim_solid musl).minDt⟩⟩
  obtain ⟨t, w, hev⟩ := variant_file hv (fun ok => .inl (.inr (.inl ⟨ok, rfl⟩))) (.inr (.inl rfl))
  exact ⟨t, w, hev, C89_vonMises (d := 0) hv.solid rfl (by norm_num [vmSim]) hev (by norm_num)⟩

def dpSim (musl : Bool) : Sim 2 := { exSim musl with plasticModel := .dp, M := 1 / 2, qCohesion := 1 / 8 }

example (musl : Bool) : ∃ t w, .particles 1 t w ∈ filesOf (Sim.simulate (d := 0) (dpSim musl) exBuild 10) ∧
    ∀ p ∈ w.ps, savedQ (1 / √2) p.tau ≤ 1 / 2 * savedP p.tau + 1 / 8 ∧ -(1 / 8) / (1 / 2) ≤ savedP p.tau := by
  have hv : Variant musl (dpSim musl) := ⟨rfl, rfl, rfl, ⟨.inl rfl, (exSim_solid musl).hE, (exSim_solid musl).nu1,
    (exSim_solid musl).nu2, (exSim_solid musl).hq, rfl, someSvd_isSvd, (exSim_solid musl).minDt⟩⟩
  have hM : 0 < (dpSim musl).M := by norm_num [dpSim]
  obtain ⟨t, w, hev⟩ := variant_file hv (fun ok => .inl (.inr (.inr (.inl ⟨ok, hM, .inl rfl⟩)))) (.inr (.inr (.inl rfl)))
  exact ⟨t, w, hev, C89_druckerPrager (d := 0) hv.solid rfl hM (by norm_num [dpSim]) hev (by norm_num)⟩

def softSim (musl : Bool) : Sim 2 := { dpSim musl with plasticModel := .dpSoft, xi := 2 }

example (musl : Bool) : ∃ t w, .particles 1 t w ∈ filesOf (Sim.simulate (d := 0) (softSim musl) exBuild 10) ∧
    ∀ p ∈ w.ps, ∃ e, 0 ≤ e ∧ e ≤ p.epsPlDev ∧
      savedQ (1 / √2) p.tau ≤ 1 / 2 * savedP p.tau + 1 / 8 * Real.exp (-2 * e) := by
  have hv : Variant musl (softSim musl) := ⟨rfl, rfl, rfl, ⟨.inl rfl, (exSim_solid musl).hE, (exSim_solid musl).nu1,
    (exSim_solid musl).nu2, (exSim_solid musl).hq, rfl, someSvd_isSvd, (exSim_solid musl).minDt⟩⟩
  have hM : 0 < (softSim musl).M := by norm_num [softSim, dpSim]
  obtain ⟨t, w, hev⟩ := variant_file hv (fun ok => .inl (.inr (.inr (.inl ⟨ok, hM, .inr rfl⟩))))
    (.inr (.inr (.inr (.inl rfl))))
  refine ⟨t, w, hev, fun p hp => ?_⟩
  obtain ⟨e, h1, h2, h3, -⟩ := C89_softening (d := 0) hv.solid rfl hM (by norm_num [softSim, dpSim])
    (by norm_num [softSim]) (e0 := 0) (by
      intro p hp
      change p ∈ stretched at hp
      simp [stretched] at hp
      subst hp
      simp [Particle.init]) hev (by norm_num) p hp
  exact ⟨e, h1, h2, h3⟩

def muiSim (musl : Bool) : Sim 2 :=
  { exSim musl with plasticModel := .dpMui, mu1 := 1 / 4, mu2 := 1 / 2, iRef := 1, grainDiameter := 1, rhoS := 1 }

example (musl : Bool) : ∃ t w, .particles 1 t w ∈ filesOf (Sim.simulate (d := 0) (muiSim musl) exBuild 10) ∧
    ∀ p ∈ w.ps, ObeysMuI (muiSim musl) p := by
  have hv : Variant musl (muiSim musl) := ⟨rfl, rfl, rfl, ⟨.inl rfl, (exSim_solid musl).hE, (exSim_solid musl).nu1,
    (exSim_solid musl).nu2, (exSim_solid musl).hq, rfl, someSvd_isSvd, (exSim_solid musl).minDt⟩⟩
  have h1 : 0 < (muiSim musl).mu1 := by norm_num [muiSim]
  have h2 : (muiSim musl).mu1 < (muiSim musl).mu2 := by norm_num [muiSim]
  have h3 : 0 < (muiSim musl).material.facQ := by simp [muiSim, Sim.material, Material.facQ]
  have h4 : 0 ≤ (muiSim musl).qCohesion := le_rfl
  have h5 : 0 ≤ (muiSim musl).stressTolerance := by norm_num [muiSim, exSim]
  obtain ⟨t, w, hev⟩ := variant_file hv (fun ok => .inl (.inr (.inr (.inr ⟨⟨ok, h1, h2, h3, h4, h5⟩, rfl⟩))))
    (.inr (.inr (.inr (.inr (.inl rfl)))))
  exact ⟨t, w, hev, C89_muI (d := 0) hv.solid rfl h1 h2 (by norm_num [muiSim]) (by norm_num [muiSim]) (by norm_num [muiSim])
    h4 h5 (by
      intro p hp
      change p ∈ stretched at hp
      simp [stretched] at hp
      subst hp
      simp [Particle.init]) hev (by norm_num)⟩

def dpViscSim (musl : Bool) : Sim 2 := { dpSim musl with plasticModel := .dpVisc, viscTime := 1, usePradhana := false }

example (musl : Bool) : ∃ t w, .particles 1 t w ∈ filesOf (Sim.simulate (d := 0) (dpViscSim musl) exBuild 10) ∧
    ∀ p ∈ w.ps, -(1 / 8) / (1 / 2) < savedP p.tau → savedQ (1 / √2) p.tau ≤ 1 / 2 * savedP p.tau + 1 / 8 ∨
      savedQ (1 / √2) p.tau = (1 / 2 * savedP p.tau + 1 / 8) * (1 + 1 * p.deltaGamma) := by
  have hv : Variant musl (dpViscSim musl) := ⟨rfl, rfl, rfl, ⟨.inl rfl, (exSim_solid musl).hE, (exSim_solid musl).nu1,
    (exSim_solid musl).nu2, (exSim_solid musl).hq, rfl, someSvd_isSvd, (exSim_solid musl).minDt⟩⟩
  have hM : 0 < (dpViscSim musl).M := by norm_num [dpViscSim, dpSim]
  have hτ : 0 ≤ (dpViscSim musl).viscTime := by norm_num [dpViscSim]
  obtain ⟨t, w, hev⟩ := variant_file hv (fun ok => .inr (.inl ⟨ok, .inr rfl, le_rfl, hτ⟩))
    (.inr (.inr (.inr (.inr (.inr (.inr ⟨(hv.solid.ok 1 3 1).hmu, (hv.solid.ok 1 3 1).hq, rfl, hτ, .inr ⟨rfl, hM⟩⟩))))))
  refine ⟨t, w, hev, fun p hp hlt => ?_⟩
  have := (C89_viscousDruckerPrager (d := 0) hv.solid rfl rfl hM (by norm_num [dpViscSim, dpSim]) hτ rfl (by
      intro p hp
      change p ∈ stretched at hp
      simp [stretched] at hp
      subst hp
      simp [Particle.init]) hev (by norm_num) p hp).2 hlt _ rfl
  rcases this with h | ⟨-, h⟩
  · exact .inl h
  · exact .inr (h.trans (if_neg (by simp [dpViscSim, dpSim, exSim])))

def mccSim (musl : Bool) : Sim 2 := { exSim musl with plasticModel := .mcc, hardeningLaw := .noHard, M := 1 / 2, p0 := 1 }

example (musl : Bool) : ∃ t w, .particles 1 t w ∈ filesOf (Sim.simulate (d := 0) (mccSim musl) exBuild 10) ∧
    ∀ p ∈ w.ps, savedQ (1 / √2) p.tau ^ 2 ≤ (1 / 2) ^ 2 * (1 - savedP p.tau) * (savedP p.tau + 0 * 1) := by
  have hv : Variant musl (mccSim musl) := ⟨rfl, rfl, rfl, ⟨.inl rfl, (exSim_solid musl).hE, (exSim_solid musl).nu1,
    (exSim_solid musl).nu2, (exSim_solid musl).hq, rfl, someSvd_isSvd, (exSim_solid musl).minDt⟩⟩
  have hM : 0 ≤ (mccSim musl).M := by norm_num [mccSim]
  have hp0 : 0 < (mccSim musl).p0 := by norm_num [mccSim]
  have htol : 0 < (mccSim musl).stressTolerance := by norm_num [mccSim, exSim]
  obtain ⟨t, w, hev⟩ := variant_file hv
    (fun ok => .inr (.inr ⟨⟨le_rfl, hp0, htol⟩, rfl, rfl, hM, .inl rfl, by simp [Sim.setup, exBuild]⟩))
    (.inr (.inr (.inr (.inr (.inr (.inl ⟨rfl, rfl⟩))))))
  exact ⟨t, w, hev, fun p hp => C89_camClay (d := 0) hv.solid rfl hM le_rfl hp0 htol (.inl rfl) hev (by norm_num) p hp _ _ rfl
    rfl (.inr rfl)⟩

def vmViscSim (musl : Bool) : Sim 2 :=
  { exSim musl with plasticModel := .vmVisc, qMin := 1 / 4, qMax := 1 / 4, viscTime := 1 }

example (musl : Bool) : ∃ t w, .particles 1 t w ∈ filesOf (Sim.simulate (d := 0) (vmViscSim musl) exBuild 10) ∧
    ∀ p ∈ w.ps, -1.0e20 ≤ savedP p.tau → savedQ (1 / √2) p.tau ≤ 1 / 4 ∨
      |savedQ (1 / √2) p.tau / (1 + p.deltaGamma) - 1 / 4| < 1e-2 := by
  have hv : Variant musl (vmViscSim musl) := ⟨rfl, rfl, rfl, ⟨.inl rfl, (exSim_solid musl).hE, (exSim_solid musl).nu1,
    (exSim_solid musl).nu2, (exSim_solid musl).hq, rfl, someSvd_isSvd, (exSim_solid musl).minDt⟩⟩
  have hτ : 0 ≤ (vmViscSim musl).viscTime := by norm_num [vmViscSim]
  obtain ⟨t, w, hev⟩ := variant_file hv (fun ok => .inr (.inl ⟨ok, .inl rfl, le_rfl, hτ⟩))
    (.inr (.inr (.inr (.inr (.inr (.inr ⟨(hv.solid.ok 1 3 1).hmu, (hv.solid.ok 1 3 1).hq, rfl, hτ,
      .inl ⟨rfl, rfl, by norm_num [vmViscSim, Sim.material, Sim.setup]⟩⟩))))))
  refine ⟨t, w, hev, fun p hp hp1 => ?_⟩
  have hY : (1 : ℝ) / 4 = (vmViscSim musl).qMin + ((vmViscSim musl).qMax - (vmViscSim musl).qMin) *
      Real.exp (-(vmViscSim musl).xi * p.epsPlDev) := by simp [vmViscSim]
  have := C89_viscousVonMises (d := 0) hv.solid rfl (by norm_num [vmViscSim, exSim]) hτ (by norm_num [vmViscSim])
    (by norm_num [vmViscSim]) (by norm_num [vmViscSim, exSim]) (by norm_num [vmViscSim, exSim]) hev (by norm_num) p hp
    (1 / 4) hY (by
      have : (vmViscSim musl).pMin * Real.exp (-(vmViscSim musl).xi * p.epsPlVol) = -1.0e20 := by
        simp [vmViscSim, exSim]; norm_num
      rw [this]; exact hp1)
  rcases this with h | ⟨h0, q, h1, h2, h3⟩
  · exact .inl h
  · right
    rw [if_neg (by simp [vmViscSim, exSim])] at h3
    have e1 : (vmViscSim musl).viscExponent = 1 := rfl
    have e2 : (vmViscSim musl).viscTime = 1 := rfl
    rw [e1, e2, Real.rpow_one] at h3
    change savedQ (1 / √2) p.tau = |q| at h1
    rw [h1, ← h2 (by norm_num)]
    simpa [div_eq_mul_inv] using h3

/-- `C90` for three points. -/
example : ∃ s, readme2 true points2 = some s ∧ ReadmeClaims (d := 0) s exBuild 3 :=
  C90_readme2 (by simp [points2]) (by simp [points2]; norm_num) rfl rfl someSvd_isSvd (fun _ _ => by simp [exBuild])

example : ∃ s, readme3 true [![1 / 2, 1 / 2, 1], ![1 / 2, 1 / 3, 1 / 4]] = some s ∧
    ReadmeClaims (d := 1) s ⟨.two, plateOps3, abs, someSvd, fun _ ps => [ps]⟩ 2 :=
  C90_readme3 (by simp) (by simp) rfl rfl someSvd_isSvd (fun _ _ => by simp)

example : |({} : Sim 2).mu1 - 0.382| < 0.0005 ∧ |({} : Sim 2).mu2 - 0.644| < 0.0005 := by
  have := C90_defaults (d := 2) rfl
  exact ⟨this.2.2.2.2.2.2.2.2.2.2.2.2.2.2.2.2.2.2.2.2.2.2.2.2.2.2.2.2.2.2.2.2.2.1,
    this.2.2.2.2.2.2.2.2.2.2.2.2.2.2.2.2.2.2.2.2.2.2.2.2.2.2.2.2.2.2.2.2.2.2⟩

/-- `C91` for three points. -/
example : ∃ s, cube2 true points2 = some s ∧ CubeClaims (d := 0) s exBuild 3 1000 :=
  C91_cube2 (by simp [points2]) (by
    intro x hx a
    simp only [points2, List.mem_cons, List.not_mem_nil, or_false] at hx
    rcases hx with rfl | rfl | rfl <;> fin_cases a <;> norm_num) (by simp [exBuild]) rfl (fun _ _ => by simp [exBuild])

example : ∃ s, cube3 true [![1 / 2, 1 / 2, 0.01], ![1 / 2, 1 / 3, 0.03]] = some s ∧
    CubeClaims (d := 1) s ⟨.three, plateOps3, abs, someSvd, fun _ ps => [ps]⟩ 2 50 :=
  C91_cube3 (by simp) (by
    intro x hx a
    simp only [List.mem_cons, List.not_mem_nil, or_false] at hx
    rcases hx with rfl | rfl <;> fin_cases a <;> norm_num) (by simp) rfl (fun _ _ => by simp)

end
end Verif.Props.InputEx
