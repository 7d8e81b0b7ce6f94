import Verif.Model.Run
import Verif.Model.Remesh
import Mathlib.Data.Int.Log
import Mathlib.Algebra.Order.Round

/-!
# The output directory: names, columns and contents of the files (save_data.cpp)

A directory is a map from paths to contents. Failures of the file system (missing directory, full disk,
no permission) are not modelled; the code does not check for them. The byte encoding of the ply files is
left to the library tinyply, of which only the order of the values is modelled (`writePly`).
-/

namespace Verif
open Matrix

/-- One call of `add_properties_to_element`: the names of the properties and, per vertex, their values
(save_data.cpp:47-160, 199-254). -/
structure Group where
  names : List String
  rows : List (List ℝ)

/-- A ply file with one element `vertex`: names of the properties, number of vertices, and the values in
the order in which they are in the file. -/
structure Ply where
  props : List String
  count : ℕ
  data : List ℝ

/-- `file.write(out, true)` (save_data.cpp:164, 256), a function of the library tinyply, which is not part
of the repository: the element has the size given by the first call of `add_properties_to_element`, the
values follow vertex by vertex, and for every vertex group by group. -/
def writePly (gs : List Group) : Ply where
  props := gs.flatMap fun g => g.names
  count := ((gs.head?).map fun g => g.rows.length).getD 0
  data := (List.range (((gs.head?).map fun g => g.rows.length).getD 0)).flatMap fun i =>
    gs.flatMap fun g => g.rows.getD i []

variable {d : ℕ}

/-- The property groups of a particle file (save_data.cpp:9-37, 46-162); `d = 2, 3` is the dimension. -/
noncomputable def particleGroups (m : Material) (useMibf : Bool) (ps : List (Particle d ℝ)) : List Group :=
  [⟨["x", "y", "z"].take d, ps.map fun p => List.ofFn p.x⟩,
   ⟨["vx", "vy", "vz"].take d, ps.map fun p => List.ofFn p.v⟩,
   ⟨["p"], ps.map fun p => [savedP p.tau]⟩,
   ⟨["q"], ps.map fun p => [savedQ m.qPrefac p.tau]⟩,
   ⟨["Je"], ps.map fun p => [p.F.det]⟩] ++
  if m.plastic ≠ .noPlasticity then
    [⟨["eps_pl_vol"], ps.map fun p => [p.epsPlVol]⟩,
     ⟨["eps_pl_dev"], ps.map fun p => [p.epsPlDev]⟩,
     ⟨["delta_gamma"], ps.map fun p => [p.deltaGamma]⟩] ++
    (if (m.plastic = .dpVisc ∧ useMibf) ∨ (m.plastic = .mccVisc ∧ useMibf) ∨ m.plastic = .dpMui ∨
        m.plastic = .mccMui then [⟨["muI"], ps.map fun p => [p.muI]⟩] else []) ++
    (if m.plastic = .dpMui ∨ m.plastic = .mccMui then
      [⟨["viscosity"], ps.map fun p => [p.viscosity]⟩] else [])
  else []

/-- The property groups of a grid file (save_data.cpp:180-254). -/
noncomputable def gridGroups (useMibf : Bool) (w : World d) : List Group :=
  let nodes := List.range (gridNodes w.g.size)
  [⟨["x", "y", "z"].take d, nodes.map fun l => List.ofFn ((savedPositions w.g).2 l)⟩,
   ⟨["vx", "vy", "vz"].take d, nodes.map fun l => List.ofFn (w.vel l)⟩,
   ⟨["mass"], nodes.map fun l => [w.mass l]⟩] ++
  if useMibf then [⟨["friction"], nodes.map fun l => [w.friction l]⟩] else []

/-- What `std::ostream << double` prints without further settings: six significant digits (`%g` with
precision 6), as a number. Halves are rounded up; C++ looks at the binary value, which the model does not
have. -/
noncomputable def printed (x : ℝ) : ℝ :=
  if x = 0 then 0
  else round (x / (10 : ℝ) ^ (Int.log 10 |x| - 5)) * (10 : ℝ) ^ (Int.log 10 |x| - 5)

/-- Contents of a file. -/
inductive Content where
  /-- opened for writing (and thereby emptied), not everything written yet -/
  | unfinished
  | ply (f : Ply)
  /-- text: one number per line -/
  | lines (xs : List ℝ)
  /-- anything written by somebody else -/
  | foreign (s : String)

/-- The files of the file system. -/
abbrev Disk := String → Option Content

/-- Name of the particle file of a frame; `extra` is empty in all calls of the program
(save_data.cpp:40, simulation.cpp:155, 177, 187). -/
def particleFile (frame : ℕ) : String := "particles_f" ++ toString frame ++ ".ply"
/-- Name of the grid file of a frame (save_data.cpp:174). -/
def gridFile (frame : ℕ) : String := "grid_f" ++ toString frame ++ ".ply"
/-- save_data.cpp:166 -/
def lastWrittenFile : String := "last_written.txt"
/-- save_data.cpp:357 -/
def infoFile : String := "info.txt"
/-- save_data.cpp:368 -/
def timingFile : String := "info_timing.txt"

/-- `directory + sim_name + "/" + ...` (save_data.cpp:40, 166, 174, 357, 368). -/
def outPath (directory simName file : String) : String := directory ++ simName ++ "/" ++ file

/-- What the writing functions need to know besides the world: `directory`, `sim_name`, `Np`, and the
measured run times in `info_timing.txt`. -/
structure Output where
  directory : String
  simName : String
  np : ℕ
  runtimes : List ℝ

/-- The changes of the file system made when something is saved, in the order in which they become
visible: `saveInfo` (save_data.cpp:355-364), `saveParticleData` (40-42, 164-168), `saveGridData` (174-176,
256), `saveTiming` (366-376). The stream `out` of a ply file is only closed when the function is left
(save_data.cpp:170, 258), so the file is only known to be complete then, i.e. after `last_written.txt` has
been written. -/
noncomputable def fileWrites (R : Setup d) (o : Output) : Event (World d) → List (String × Content)
  | .info => [
      (outPath o.directory o.simName infoFile, .unfinished),
      (outPath o.directory o.simName infoFile, .lines
        [R.C.endFrame, printed R.C.fps, printed R.C.dx, o.np, printed R.S.P.particleVolume])]
  | .particles n _ w => [
      (outPath o.directory o.simName (particleFile n), .unfinished),
      (outPath o.directory o.simName lastWrittenFile, .unfinished),
      (outPath o.directory o.simName lastWrittenFile, .lines [n]),
      (outPath o.directory o.simName (particleFile n),
        .ply (writePly (particleGroups R.m R.S.P.useMibf w.ps)))]
  | .grid n _ w => [
      (outPath o.directory o.simName (gridFile n), .unfinished),
      (outPath o.directory o.simName (gridFile n), .ply (writePly (gridGroups R.S.P.useMibf w)))]
  | .timing n => [
      (outPath o.directory o.simName timingFile, .unfinished),
      (outPath o.directory o.simName timingFile, .lines ((n : ℝ) :: o.runtimes.map printed))]

/-- Later contents replace earlier ones. -/
def applyWrites (ws : List (String × Content)) (D : Disk) : Disk :=
  ws.foldl (fun D w => Function.update D w.1 (some w.2)) D

/-- The file system after the events of a run. -/
noncomputable def diskAfter (R : Setup d) (o : Output) (evs : List (Event (World d))) (D : Disk) : Disk :=
  applyWrites (evs.flatMap (fileWrites R o)) D

end Verif
