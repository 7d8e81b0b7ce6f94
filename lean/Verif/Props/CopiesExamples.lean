import Verif.Props.Copies
import Verif.Props.RunExamples

/-!
# C126: examples
-/

namespace Verif.Props.RunEx
open Verif Matrix
noncomputable section

/-- Two particles, the second one stretched. -/
def pairOf : List (Particle 2 ℝ) := [Particle.init, { Particle.init with x := ![1 / 2, 0], F := diagonal ![2, 1], tau := diagonal ![1, 0] }]

lemma pairOf_rest : ∀ p ∈ pairOf, p.v = 0 := fun p hp => by
  rcases List.mem_cons.mp hp with rfl | hp
  · rfl
  · obtain rfl := List.mem_singleton.mp hp; rfl

/-- `C126_run`: the same run with six particles of a third of the mass and the volume; in the file after the step every particle is there
three times. -/
example (musl : Bool) : ∃ t w, .particles 1 t w ∈ filesOf (runProgram (setup musl 1 .vm) true false 10 (start pairOf ![0, -1])) ∧
    .particles 1 t { w with ps := copies 3 w.ps, mass := fun l => 1 * w.mass l } ∈ filesOf (runProgram (finer 3 1 (setup musl 1 .vm)) true false 10
      ((start pairOf ![0, -1]).map (multiply 3 1) id)) ∧
    (finer 3 1 (setup musl 1 .vm)).S.P.particleMass = 1 ∧ (copies 3 w.ps).length = 6 := by
  obtain ⟨r, h, t, w, hw⟩ := one_step_run musl (.inl rfl) (ps := pairOf) (by simp [pairOf])
    pairOf_rest ![0, -1]
  have hev : .particles 1 t w ∈ filesOf (runProgram (setup musl 1 .vm) true false 10 (start pairOf ![0, -1])) := by
    rw [h]; exact hw
  refine ⟨t, w, hev, ?_, by show 1 * (3 : ℝ) / (3 : ℕ) = 1; norm_num, ?_⟩
  · rw [C126_run (fun _ _ => by simp [setup]) (by norm_num) one_pos, h]
    exact List.mem_map.mpr ⟨_, hw, rfl⟩
  · have hl : w.ps.length = 2 := by
      rcases run_particles (d := 0) hev (by simp [start]) with ⟨h0, -⟩ | ⟨s1, dt, g, hst, -⟩
      · exact absurd h0 (by norm_num)
      · rw [← (physStep_forall₂ hst.phys).length_eq]
        obtain ⟨k, hr, -⟩ := hst
        have hk := only_begin_of (R := setup musl 1 .vm) rfl (by simp [pairOf]) pairOf_rest ![0, -1] k s1 hr
        subst hk
        cases hr
        rw [begin_w]
        simp [fillMuI, setup, start, mkTransferParams, pairOf]
    simp [copies, hl]

/-- `C126_twice`: with every particle listed twice, of the same mass and volume, the particles are where they are without that. -/
example (musl : Bool) (w : World 2) (t : ℝ)
    (h : .particles 1 t w ∈ filesOf (runProgram (setup musl 1 .vm) true false 10 (start pairOf ![0, -1]))) :
    .particles 1 t (multiply 2 (2 : ℕ) w) ∈ filesOf (runProgram (setup musl 1 .vm) true false 10
      ((start pairOf ![0, -1]).map (multiply 2 (2 : ℕ)) id)) := by
  obtain ⟨r, hr, -⟩ := one_step_run musl (.inl rfl) (ps := pairOf) (by simp [pairOf]) pairOf_rest ![0, -1]
  rw [hr] at h
  rw [C126_twice (fun _ _ => by simp [setup]) (by norm_num), hr]
  exact List.mem_map.mpr ⟨_, h, rfl⟩

end

end Verif.Props.RunEx
