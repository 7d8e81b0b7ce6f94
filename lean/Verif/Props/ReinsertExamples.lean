import Verif.Props.Memory
import Verif.Props.Reinsert
import Verif.Props.BulkModulusExamples

set_option linter.unusedSectionVars false
set_option linter.unusedSimpArgs false
set_option linter.unusedVariables false

/-!
# C94: concrete cases
-/

namespace Verif.Props.InputEx
open Verif Matrix RunEx
noncomputable section

/-- `one_step_run_of` for other options. -/
lemma one_step_run_with {R : Setup 2} (hC : R.C = cfg 1) (hP : R.S.P = mkTransferParams .two 1 (-19 / 20) false 3 1)
    (hpbc : R.S.pbc = false)
    (hsched : ∀ k ps, (R.sched k ps).flatten.Perm ps) (hrob : Robust (d := 0) R) (hnf : NeverFails R.m)
    (hel : R.m.elastic = .hencky)
    {ps : List (Particle 2 ℝ)} (hne : ps ≠ []) (hv : ∀ p ∈ ps, p.v = 0) (g : Fin 2 → ℝ) (pl : List (Plate 2) := []) :
    ∃ r, runProgram (d := 0) R true false 10 (start ps g pl) = .finished r ∧ ∃ t w, .particles 1 t w ∈ r.out := by
  have hcrit := only_begin_of (R := R) hC hne hv g (pl := pl)
  obtain ⟨r, h1, -, t, w, h2, -⟩ := C61_completes (d := 0) (R := R) (s := start ps g pl) (deg := .two) (dx := 1)
    (fr := -19 / 20) (m := 3) (vol := 1) (i := true) (e := false) (fuel := 10)
    hP one_pos hpbc rfl hne hsched hrob hnf
    (by rw [hel]; rfl)
    (by rw [hC]; norm_num [cfg, exConfig]) (by norm_num) (by rw [hC]; norm_num [cfg, exConfig])
    (by rw [hC]; norm_num [cfg, exConfig]) (by rw [hC]; rfl) (by rw [hC]; norm_num [cfg, exConfig])
    (fun k s1 hr hk => absurd (hcrit k s1 hr) hk.ne')
  refine ⟨r, h1, t 1, w 1, ?_⟩
  rw [h2, hC]
  simp [frameFiles, cfg, exConfig]

/-- A particle at `x = 1`. -/
def conveyor : Sim 2 :=
  { exSim false with changeParticlePositions := true, particles := [{ Particle.init with x := ![1, 0] }] }

/-- `C94_file`: the particle that starts at `x = 1` has been put back in the file of frame 1. -/
example : ∃ t w, .particles 1 t w ∈ filesOf (Sim.simulate (d := 0) conveyor exBuild 10) ∧
    w.ps.length = 1 ∧ ∀ p ∈ w.ps, p.x 0 ≤ 0.8 := by
  obtain ⟨r, h, t, w, hw⟩ := one_step_run_with (R := conveyor.setup exBuild (Nat.succ_pos 1) 1 3 1)
    rfl rfl rfl (fun _ _ => by simp [Sim.setup, exBuild]) (.inl (.inl ⟨rfl, rfl⟩)) (.inl rfl) rfl
    (ps := [{ Particle.init with x := ![1, 0] }]) (by simp) (by simp [Particle.init]) ![0, -10]
  have hrun : Sim.simulate (d := 0) conveyor exBuild 10 = .finished r := h
  have hev : .particles 1 t w ∈ filesOf (Sim.simulate (d := 0) conveyor exBuild 10) := by rw [hrun]; exact hw
  refine ⟨t, w, hev, ?_, C94_file (d := 0) rfl hev (by norm_num)⟩
  have hev' : .particles 1 t w ∈ filesOf (runProgram (d := 0) (conveyor.setup exBuild (Nat.succ_pos 1) 1 3 1) true false 10
      (start [{ Particle.init with x := ![1, 0] }] ![0, -10])) := by rw [h]; exact hw
  rcases run_particles (d := 0) hev' (by simp [start]) with ⟨hh, -, -⟩ | ⟨s1, dt, g, hst, -⟩
  · cases hh
  refine (run_inv (d := 0) (Inv := fun w _ _ _ => w.ps.length = 1) ?_ (fun s1 dt g w hst hI => ?_) hst).2
  · rw [begin_w]
    have : (conveyor.setup exBuild (Nat.succ_pos 1) 1 3 1).S.P.useMibf = false := rfl
    simp [fillMuI, start, this]
  · rw [← hI]; exact (physStep_forall₂ hst.phys).length_eq.symm

/-- `C94_unused` for the clamped body, whose particles stay at `x = 1/3` and `x = 2/3`. -/
example : runProgram (d := 0) (withPutBack true (clampSim.setup exBuild (Nat.succ_pos 1) 1 3 1)) true false 10
      (start squeezed ![0, -10]) =
    runProgram (d := 0) (withPutBack false (clampSim.setup exBuild (Nat.succ_pos 1) 1 3 1)) true false 10
      (start squeezed ![0, -10]) := by
  apply C94_unused
  set R := withPutBack (d := 0) false (clampSim.setup exBuild (Nat.succ_pos 1) 1 3 1)
  have hkeep : ∀ (w w' : World (0 + 2)) dt g t n ex, w.plates = [] → physStep R w dt g t n = some (w', ex) →
      w'.plates = [] ∧ w'.ps.map (·.x) = w.ps.map (·.x) := by
    intro w w' dt g t n ex hpl h
    refine ⟨no_plates rfl hpl h, ?_⟩
    have hdx : R.S.P.dx = 1 := rfl
    have h1 : R.S.P.oneOverDx = 1 / 1 := rfl
    have hm : R.S.P.particleMass = 3 := rfl
    refine (clamped_step (d := 0) rfl rfl (by rw [hdx]; norm_num) (by rw [hdx, h1]) (by rw [hm]; norm_num) (fun ps => ?_) rfl
      (fun l X v => ?_) h).2 rfl
    · simp [R, withPutBack, Sim.setup, exBuild]
    · have ho : R.objs = holdAll := rfl
      simp only [stepWalls, boundaryCollision, ho, hpl, holdAll, collideObjects, collidePlates, List.foldl_cons,
        List.foldl_nil, if_true, objectRel]
  intro k s1 hr dt g w ex hu hst p hp
  have hI : s1.w.plates = [] ∧ s1.w.ps.map (·.x) = [![1 / 3, 0], ![2 / 3, 0]] := by
    refine reach_inv (Inv := fun w _ _ _ => w.plates = [] ∧ w.ps.map (·.x) = [![1 / 3, 0], ![2 / 3, 0]]) ?_
      (fun k s dt g w hs hI => ?_) hr
    · rw [begin_w]
      have : R.S.P.useMibf = false := rfl
      simp [fillMuI, start, squeezed, this]
    · have := hkeep _ _ _ _ _ _ _ hI.1 hs.2.2.2
      exact ⟨this.1, this.2.trans hI.2⟩
  have := (hkeep _ _ _ _ _ _ _ hI.1 hst).2.trans hI.2
  have hx : p.x ∈ w.ps.map (·.x) := List.mem_map.mpr ⟨p, hp, rfl⟩
  rw [this] at hx
  simp only [List.mem_cons, List.not_mem_nil, or_false] at hx
  rcases hx with h | h <;> rw [h] <;> norm_num

/-- C19 for the run of the conveyor: it ends normally and its last file holds the particles in memory. -/
example : ∃ r, Sim.simulate (d := 0) conveyor exBuild 10 = .finished r ∧
    .particles r.frame r.time r.w ∈ filesOf (Sim.simulate (d := 0) conveyor exBuild 10) := by
  obtain ⟨r, h, -⟩ := one_step_run_with (R := conveyor.setup exBuild (Nat.succ_pos 1) 1 3 1)
    rfl rfl rfl (fun _ _ => by simp [Sim.setup, exBuild]) (.inl (.inl ⟨rfl, rfl⟩)) (.inl rfl) rfl
    (ps := [{ Particle.init with x := ![1, 0] }]) (by simp) (by simp [Particle.init]) ![0, -10]
  exact ⟨r, h, C19_memory (d := 0) rfl h⟩

end
end Verif.Props.InputEx
