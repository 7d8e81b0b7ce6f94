import Verif.Props.Yield
import Verif.Props.Strength
import Verif.Props.RunExamples
import Verif.Props.Stress

/-!
# C42 in the files of a run: the neo-Hookean material

`simulate` runs the neo-Hookean material without plasticity only (simulation.cpp:80-85). The stress of a particle in
a file is the documented function of the deformation gradient in the same file, and no particle whose numbers are
real numbers is inverted or flat.
-/

set_option linter.unusedSectionVars false

namespace Verif.Props

open Matrix

variable {d : ℕ} {R : Setup (d + 2)} {i e : Bool} {fuel : ℕ} {s : LoopState (d + 2) (World (d + 2))}

/-- **C42** The neo-Hookean material in files: the stress in every file after the first is the documented function of
the deformation gradient in the same file, whose determinant is positive. -/
theorem C42_neoHookean_run (hel : R.m.elastic = .neoHookean) (hmin : 0 < R.C.minDt)
    {n : ℕ} {t : ℝ} {w : World (d + 2)}
    (hev : .particles n t w ∈ filesOf (runProgram R i e fuel s)) (hnew : .particles n t w ∉ s.out) :
    (n = 0 ∧ t = 0 ∧ w = (begin R s).w) ∨
      ∀ p ∈ w.ps, 0 < p.F.det ∧ IsNeoHookeanStress R.m.lam R.m.mu p.F p.tau := by
  have hp : R.m.plastic = .noPlasticity := by
    by_contra hp
    rw [runProgram, if_neg (by simp [accepted, hel, hp])] at hev
    exact hnew hev
  have hstep : ∀ dt p p', 0 < dt → True → PlasticStep R dt p p' →
      True ∧ 0 < p'.F.det ∧ IsNeoHookeanStress R.m.lam R.m.mu p'.F p'.tau := by
    rintro dt p p' - - ⟨q, out, x, v, -, ho, -, rfl⟩
    obtain ⟨h1, h2⟩ := C42_neoHookean hel hp ho
    refine ⟨trivial, ?_, ?_⟩
    · show 0 < out.q.F.det
      rw [h1]; exact (C42_neoHookean_defined hel hp dt q false).mp (by rw [ho]; rfl)
    · show IsNeoHookeanStress _ _ out.q.F out.q.tau
      rw [h1]; exact h2
  rcases saved_history (P := fun _ => True)
    (Rel := fun _ p => 0 < p.F.det ∧ IsNeoHookeanStress R.m.lam R.m.mu p.F p.tau) hmin
    (fun _ _ => trivial) hstep hev hnew with h | ⟨s1, dt, g, -, h⟩
  · exact .inl h
  · exact .inr fun p hp => (forall₂_right h p hp).elim fun _ h => h.2

namespace RunEx

/-- The example run with the neo-Hookean material. -/
noncomputable def rubber : Setup 2 :=
  { setup false 3 .noPlasticity with m := { Ex.mat .noPlasticity with elastic := .neoHookean } }

/-- `C42` for a neo-Hookean pair of particles at rest, one of them turned: the file of frame 2 exists. -/
example : ∃ t w, .particles 2 t w ∈ filesOf (runProgram rubber true false 30 (start pair 0)) ∧
    w.ps.length = 2 ∧ ∀ p ∈ w.ps, 0 < p.F.det ∧ IsNeoHookeanStress rubber.m.lam rubber.m.mu p.F p.tau := by
  obtain ⟨r, h, h1, h2⟩ := C61_rest (R := rubber) (s := start pair 0) (deg := .two) (dx := 1) (fr := -19 / 20) (m := 3)
    (vol := 1) (i := true) (e := false) (fuel := 30)
    rfl (by simp) one_pos (by norm_num) rfl rfl rfl rfl rfl (by simp [start, pair]) rfl
    (fun _ _ => by simp [rubber, setup]) (.inl rfl) (fun _ => by simp [rubber, Ex.mat]) rfl
    (fun m0 h => by simpa [start] using pair_noTiny m0 h)
    (by norm_num [rubber, setup, cfg, exConfig]) (by norm_num) (by norm_num [rubber, setup, cfg, exConfig])
    (by norm_num [rubber, setup, cfg, exConfig]) rfl (by norm_num [rubber, setup, cfg, exConfig])
    someSvd_isSvd rfl pair_rest
  obtain ⟨t, w, hw⟩ := h1 2 (by simp [rubber, setup, cfg, exConfig])
  have hev : .particles 2 t w ∈ filesOf (runProgram rubber true false 30 (start pair 0)) := by rw [h]; exact hw
  refine ⟨t, w, hev, ?_, ?_⟩
  · rw [← (h2 2 t w hw).length_eq]; rfl
  · exact (C42_neoHookean_run (R := rubber) rfl (by norm_num [rubber, setup, cfg, exConfig]) hev
      (by simp [start])).resolve_left (by simp)

/-- `C42`: a neo-Hookean particle stretched to twice its length gets a stress, an inverted one does not. -/
example : (plasticity (fun x => |x|) (someSvd (d := 2)) rubber.m 1
      { Particle.init with F := !![2, 0; 0, 1] } false).isSome ∧
    ¬ (plasticity (fun x => |x|) (someSvd (d := 2)) rubber.m 1
      { Particle.init with F := !![-1, 0; 0, 1] } false).isSome := by
  constructor
  · rw [C42_neoHookean_defined (m := rubber.m) rfl rfl]; simp [Matrix.det_fin_two]
  · rw [C42_neoHookean_defined (m := rubber.m) rfl rfl]; simp [Matrix.det_fin_two]

end RunEx

end Verif.Props
