import Verif.Props.Directory
import Verif.Props.RunExamples

/-!
# C84, C85: examples
-/

set_option linter.unusedSectionVars false
set_option linter.unusedSimpArgs false
set_option linter.unusedVariables false

namespace Verif.Props.RunEx
open Verif Verif.Props Matrix

/-- Output of the resting pair to `output/pair/`. -/
noncomputable def pairOut : Output := ⟨"output/", "pair", 2, [0, 0, 0, 0, 0]⟩

example : outPath pairOut.directory pairOut.simName (particleFile 12) = "output/pair/particles_f12.ply" := by
  decide +kernel

/-- `C84_directory`, `C84_leftover`: the run over three frames writes `particles_f3.ply`, with two particles still
at `x = 0` and `x = 1`, says `3` in `last_written.txt`, and does not touch a `particles_f4.ply` that was there
before. -/
example (musl : Bool) : ∃ r, runProgram (setup musl 3 .vm) true false 30 (start pair 0) = .finished r ∧
    ∀ D : Disk, D "output/pair/particles_f4.ply" = some (.foreign "old") →
      ∃ D', D' = diskAfter (setup musl 3 .vm) pairOut r.out D ∧
      (∃ f, D' "output/pair/particles_f3.ply" = some (.ply f) ∧ Column f "x" [0, 1]) ∧
      D' "output/pair/last_written.txt" = some (.lines [3]) ∧
      D' "output/pair/particles_f4.ply" = some (.foreign "old") := by
  obtain ⟨r, hr, -, hall⟩ := rest_run musl .vm
  have hm : 0 < (setup musl 3 .vm).C.minDt := by norm_num [setup, cfg, exConfig]
  have hfd : (setup musl 3 .vm).C.minDt * (11 / 10) ≤ 1 / (setup musl 3 .vm).C.fps := by
    norm_num [setup, cfg, exConfig]
  have hend : (setup musl 3 .vm).C.endFrame = 3 := rfl
  refine ⟨r, hr, fun D hD => ⟨_, rfl, ?_⟩⟩
  obtain ⟨new, hn, h⟩ := C84_directory (d := 0) (by omega) hm hfd rfl (by rw [hend]; omega) hr pairOut
  obtain ⟨new', hn', h'⟩ := C84_leftover (d := 0) (by omega) hm hfd rfl (by rw [hend]; omega) hr pairOut
  have e0 : (start pair 0).out = [] := rfl
  rw [e0, List.nil_append] at hn hn'
  obtain ⟨t, w, -, -, -, h3, -, h5, -⟩ := h D
  obtain ⟨h6, -⟩ := h' D
  rw [← hn] at h3 h5
  rw [← hn'] at h6
  rw [hend] at h3 h5 h6
  obtain ⟨hmem, f, hf, hshow⟩ := h3 3 le_rfl
  have hx := hall 3 (t 3) (w 3) hmem
  refine ⟨⟨f, ?_, ?_⟩, ?_, ?_⟩
  · convert hf using 2
    decide +kernel
  · have := hshow.pos 0
    have e : (w 3).ps.map (fun p => p.x 0) = [0, 1] := by
      generalize (w 3).ps = l at hx
      simp only [pair] at hx
      obtain ⟨_, _, h1, hx1, rfl⟩ := List.forall₂_cons_left_iff.mp hx
      obtain ⟨_, _, h2, hx2, rfl⟩ := List.forall₂_cons_left_iff.mp hx1
      rw [List.forall₂_nil_left_iff] at hx2
      subst hx2
      simp [h1.1, h2.1, Particle.init]
    rw [e] at this
    exact this
  · convert h5 using 2
    · decide +kernel
    · norm_num
  · have := (h6 4 (by norm_num)).1
    have e : outPath pairOut.directory pairOut.simName (particleFile 4) = "output/pair/particles_f4.ply" := by
      decide +kernel
    rw [e] at this
    rw [this, hD]

/-- `C84_anytime`, `C84_aborted`: the hypotheses hold for the same run, stopped after any number of steps. -/
example (musl : Bool) : (setup musl 3 .vm).C.saveSim = true ∧
    accepted true (setup musl 3 .vm).m.elastic (setup musl 3 .vm).m.plastic false = true ∧
    ∃ r, runProgram (setup musl 3 .vm) true false 30 (start pair 0) = .finished r ∨
      runProgram (setup musl 3 .vm) true false 30 (start pair 0) = .failed r ∨
      runProgram (setup musl 3 .vm) true false 30 (start pair 0) = .outOfFuel r := by
  obtain ⟨r, hr, -⟩ := rest_run musl .vm
  exact ⟨rfl, rfl, r, .inl hr⟩

/-- `C84_separate`: a run called `pair` does not touch `output/other/info.txt`. -/
example (musl : Bool) (evs : List (Event (World 2))) (D : Disk) :
    diskAfter (setup musl 3 .vm) pairOut evs D "output/other/info.txt" = D "output/other/info.txt" := by
  have := C84_separate (d := 0) (R := setup musl 3 .vm) (o := pairOut) (evs := evs) (D := D) (name := "other")
    (f := infoFile) (by decide +kernel) (by decide +kernel) (by decide +kernel)
  exact this

/-- With a slash in the name two runs can use the same path: the run `a/b` writes into what is a subdirectory of
the run `a`. -/
example : outPath "output/" "a/b" infoFile = outPath "output/" "a" "b/info.txt" := by decide +kernel

/-- `C85_particles`: in the file of the pair with a mu(I) material there are 12 columns of two values. -/
example : (writePly (particleGroups (Ex.mat .dpMui) false pair)).count = 2 ∧
    (writePly (particleGroups (Ex.mat .dpMui) false pair)).props =
      ["x", "y", "vx", "vy", "p", "q", "Je", "eps_pl_vol", "eps_pl_dev", "delta_gamma", "muI", "viscosity"] ∧
    Column (writePly (particleGroups (Ex.mat .dpMui) false pair)) "x" [0, 1] := by
  have h := C85_particles (.inl rfl) (Ex.mat .dpMui) false pair
  refine ⟨h.count, by simp [particleGroups, writePly, Ex.mat], ?_⟩
  have := h.pos 0
  simpa [pair, Particle.init] using this

/-- A world with a grid of 2 x 2 nodes. -/
def fourNodes : World 2 := ⟨[], none, ![[0, 1], [5, 6]], [], fun l => l, fun _ => 0, fun _ => 0⟩

/-- `C85_grid`: the grid file of a 2 x 2 grid has four rows. -/
example : (writePly (gridGroups true fourNodes)).count = 4 ∧
    Column (writePly (gridGroups true fourNodes)) "mass" [0, 1, 2, 3] := by
  have h := C85_grid (.inl rfl) true fourNodes
  refine ⟨by rw [h.count]; simp [fourNodes], ?_⟩
  have h2 := h.mass
  have e : (allNodes fourNodes.g.size).map (fun i => fourNodes.mass (flatIndex fourNodes.g.size i)) =
      ((allNodes fourNodes.g.size).map (flatIndex fourNodes.g.size)).map fun l : ℕ => (l : ℝ) := by
    rw [List.map_map]; rfl
  have e2 : gridNodes fourNodes.g.size = 4 := rfl
  rw [e, map_flatIndex_allNodes, e2] at h2
  simpa [List.range, List.range.loop] using h2

end Verif.Props.RunEx
