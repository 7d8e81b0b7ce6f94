import Verif.Props.Input
import Verif.Props.RunExamples

set_option linter.unusedSectionVars false
set_option linter.unusedSimpArgs false
set_option linter.unusedVariables false

/-!
# Concrete cases for C74 - C76
-/

namespace Verif.Props.InputEx
open Verif Matrix RunEx
noncomputable section

/-- Principal stresses always exist where the stress is that of the elastic law. -/
lemma principal_exists {d : ℕ} {F tau : Matrix (Fin d) (Fin d) ℝ} {lam mu : ℝ} (h : IsHenckyStress lam mu F tau) :
    ∃ e t, PrincipalStress F tau e t := by
  have hs := someSvd_isSvd F
  refine ⟨fun i => Real.log ((someSvd F).sig i), _, (someSvd F).U, (someSvd F).V, hs.orthU, hs.orthV, ?_, h.2 _ hs⟩
  refine hs.eq.trans ?_
  congr 3
  funext i
  exact (Real.exp_log (sig_pos h.1 hs i)).symm

/-- An elastic simulation of one frame with a stretched particle, one thread. -/
def exSim (musl : Bool) : Sim 2 where
  isInitialized := true
  saveGrid := true
  useMusl := musl
  gravity := ![0, -10]
  minDt := 1 / 10
  cfl := 1 / 2
  cflElastic := 1
  flipRatio := -19 / 20
  rho := 1
  gravityTime := 10
  L := 1
  particles := stretched
  particleMass := some 3
  particleVolume := some 1
  dx := some 1
  E := 1
  nu := 1 / 4

def exBuild : Build 2 := ⟨.two, plateOps2, abs, someSvd, fun _ ps => [ps]⟩

lemma exSim_file (musl : Bool) : ∃ t w, .particles 1 t w ∈ filesOf (Sim.simulate (d := 0) (exSim musl) exBuild 10) := by
  obtain ⟨r, h, t, w, hw⟩ := one_step_run_of (R := (exSim musl).setup exBuild (Nat.succ_pos 1) 1 3 1) (musl := musl)
    rfl (by simp only [Sim.setup, exSim, exBuild, RunEx.setup]; norm_num)
    (fun _ _ => by simp [Sim.setup, exBuild]) (.inl (.inl ⟨rfl, rfl⟩)) (.inl rfl) rfl (ps := stretched)
    (by simp [stretched]) (by simp [stretched, Particle.init]) ![0, -10]
  have : Sim.simulate (d := 0) (exSim musl) exBuild 10 = .finished r := h
  exact ⟨t, w, by rw [this]; exact hw⟩

/-- `C74` for the file of frame 1. -/
example (musl : Bool) : ∃ t w, .particles 1 t w ∈ filesOf (Sim.simulate (d := 0) (exSim musl) exBuild 10) ∧
    ∀ p ∈ w.ps, (∀ σ, IsSvd p.F σ → ∀ a, 1e-4 ≤ σ.sig a) → (∃ e τ, PrincipalStress p.F p.tau e τ) ∧
      ∀ e τ, PrincipalStress p.F p.tau e τ → e 0 = 5 / 4 * (τ 0 - 1 / 4 * (τ 0 + τ 1)) := by
  obtain ⟨t, w, hev⟩ := exSim_file musl
  have a1 : 0 < (exSim musl).E := by norm_num [exSim]
  have a2 : -1 < (exSim musl).nu := by norm_num [exSim]
  have a3 : (exSim musl).nu < 1 / 2 := by norm_num [exSim]
  have a4 : 0 < (exSim musl).qPrefac := by simp [exSim]
  refine ⟨t, w, hev, fun p hp hb => ⟨?_, fun e τ h => ?_⟩⟩
  · exact principal_exists (sim_hencky (d := 0) (.inl rfl) a1 a2 a3 a4 rfl (by simp [exSim]) someSvd_isSvd hev (by norm_num) p hp hb)
  · have := (C74_hooke2 a1 a2 a3 a4 rfl (by simp [exSim]) someSvd_isSvd hev (by norm_num) p hp hb e τ h).1 0
    simp only [exSim, Fin.sum_univ_two] at this
    linarith

/-- A strained cube of unit size under uniaxial stress: the data of `C74_hooke3` are consistent. -/
example : PrincipalStress (diagonal ![Real.exp 1, Real.exp (-0.3), Real.exp (-0.3)]) (diagonal ![1e6, 0, 0]) ![1, -0.3, -0.3]
    ![1e6, 0, 0] :=
  ⟨1, 1, by simp, by simp, by
    rw [Matrix.one_mul, Matrix.transpose_one, Matrix.mul_one]
    congr 1
    funext i; fin_cases i <;> simp, by simp⟩

/-- `C74_courant` for the default values: the pressure wave travels about 0.58 cells per step. -/
example : 0.58 < pWaveSpeed 1e6 0.3 1000 * (({} : Sim 2).timeConfig 0.1).dtMax / 0.1 := by
  have := (C74_courant ({} : Sim 2) (dx := 0.1) (by norm_num) (by norm_num) (by norm_num) (by norm_num) (by norm_num)
    (by norm_num)).1
  refine lt_of_lt_of_eq ?_ this.symm
  show (0.58 : ℝ) < 0.5 * √((1 - 0.3) / ((1 + 0.3) * (1 - 2 * 0.3)))
  have : (1.16 : ℝ) < √((1 - 0.3) / ((1 + 0.3) * (1 - 2 * 0.3))) := by
    rw [Real.lt_sqrt (by norm_num)]; norm_num
  linarith

/-- `C75`: the shipped input file with three points. -/
def points2 : List (Fin 2 → ℝ) := [![1 / 4, 1 / 4], ![3 / 4, 1 / 4], ![1 / 2, 3 / 4]]

example : ∃ s, mpm2 true points2 = some s ∧ MpmClaims (d := 0) s exBuild 3 1000 :=
  C75_mpm2 (by simp [points2]) (by simp [points2]; norm_num) rfl rfl someSvd_isSvd (fun _ _ => by simp [exBuild])

example : ∃ s, mpm3 true [![1 / 2, 1 / 2, 1], ![1 / 2, 1 / 3, 2]] = some s ∧
    MpmClaims (d := 1) s ⟨.two, plateOps3, abs, someSvd, fun _ ps => [ps]⟩ 2 5000 :=
  C75_mpm3 (by simp) (by simp) rfl rfl someSvd_isSvd (fun _ _ => by simp)

example : ∃ s, mpm2 false points2 = some s ∧ filesOf (Sim.simulate (d := 0) s exBuild 10) = [] := by
  have : ∃ s, mpm2 false points2 = some s := by
    obtain ⟨s, h, -⟩ := C75_mpm2 (xs := points2) (b := exBuild) (by simp [points2]) (by simp [points2]; norm_num) rfl rfl
      someSvd_isSvd (fun _ _ => by simp [exBuild])
    simp only [mpm2, Option.bind_eq_bind, Option.bind_eq_some_iff, Option.some.injEq] at h ⊢
    obtain ⟨s1, h1, dx, hdx, rfl⟩ := h
    obtain ⟨r, hr, rfl⟩ := Option.map_eq_some_iff.mp h1
    exact ⟨_, (mpmBefore (d := 0) false ![1, 1]).takeSampled r, Option.map_eq_some_iff.mpr ⟨r, hr, rfl⟩, dx, hdx, rfl⟩
  obtain ⟨s, h⟩ := this
  exact ⟨s, h, C75_not_copied h _ _⟩

/-- `C76` for three points in the default box and the default density. -/
example : ∃ s', ({} : Sim 2).sample2 points2 = some s' ∧ ∃ m, (mpmAfter (d := 0) s' 1).particleMass = some m ∧
    (mpmAfter (d := 0) s' 1).particles.length * m = 1000 := by
  obtain ⟨s', h⟩ : ∃ s', ({} : Sim 2).sample2 points2 = some s' := by
    simp only [Sim.sample2, Verif.sample2, fdiv, fsqrt, points2]
    norm_num
  refine ⟨s', h, ?_⟩
  have hr : s'.rho = 1000 := by
    obtain ⟨r, -, rfl⟩ := Option.map_eq_some_iff.mp h
    rfl
  obtain ⟨m, h1, h2⟩ := C76_density2 h (fun s => mpmAfter (d := 0) s 1) rfl (by simp [mpmAfter]) hr
  refine ⟨m, h1, h2.trans ?_⟩
  show s'.rho * (1 * 1) = 1000
  rw [hr]; norm_num

example : ∃ s', ({} : Sim 3).sample3 [![1 / 2, 1 / 2, 1 / 2]] = some s' ∧ ∃ m, s'.particleMass = some m ∧
    s'.particles.length * m = s'.rho * (1 * 1 * 1) := by
  obtain ⟨s', h⟩ : ∃ s', ({} : Sim 3).sample3 [![1 / 2, 1 / 2, 1 / 2]] = some s' := by
    simp only [Sim.sample3, Verif.sample3, fdiv]
    norm_num
  refine ⟨s', h, C76_density3 (fun _ => zero_le_one) h id rfl rfl ?_⟩
  obtain ⟨r, -, rfl⟩ := Option.map_eq_some_iff.mp h
  rfl

example : ∃ s dx m, cube2 true points2 = some s ∧ s.dx = some dx ∧ s.particleMass = some m ∧ s.rho = 1550 ∧
    s.particles.length * m = 1000 * (s.L 0 * s.L 1) ∧ s.particles.length * m ≠ s.rho * (s.L 0 * s.L 1) ∧
    s.cflElastic * dx / √(s.E / 1000) < (s.timeConfig dx).dtMax :=
  C76_order_false (by simp [points2]) true

end
/-- A simulation whose flag was raised before a successful `initialize`. -/
example (b : Build 2) (fuel : ℕ) := (C75_initialize (d := 0)
  { exit := true, dx := some 1, particleMass := some 1, particleVolume := some 1 } true true b fuel
  ⟨⟨_, rfl⟩, ⟨_, rfl⟩, ⟨_, rfl⟩⟩).1.mpr (.inl rfl)

end Verif.Props.InputEx
