import Verif.Model.Step
import Verif.Model.Time
import Verif.Model.Boundary
import Verif.Model.Plasticity

/-!
# The whole program: `simulate` (simulation.cpp:73-207) with the physics of `advanceStep`
(simulation.cpp:213-268) put together from the other files

`none` = undefined behaviour. The counter `plastic_count`, which is only used for console output, is
left out here.
-/

namespace Verif
open Matrix

/-- The parts of the treatment of plates that differ between 2D and 3D (`#ifdef THREEDIM`). -/
structure PlateOps (d : ℕ) where
  inside : Plate d → (Fin d → ℝ) → Prop
  rel : PlateType → BC → ℝ → (Fin d → ℝ) → (Fin d → ℝ)
  move : Plate d → ℝ → ℝ → ℝ → Plate d

/-- 2D: object_plate.hpp:98-162, boundary_collision.cpp:267-390. -/
noncomputable def plateOps2 : PlateOps 2 := ⟨Plate.inside2, plateRel2, Plate.move2⟩

/-- 3D: object_plate.hpp:30-78, 136-162, boundary_collision.cpp:84-261. -/
noncomputable def plateOps3 : PlateOps 3 := ⟨Plate.inside3, plateRel3, Plate.move3⟩

/-- `boundaryCollision` (boundary_collision.cpp:6-398); `boundaryCollision2`, `boundaryCollision3` for
`plateOps2`, `plateOps3`. -/
noncomputable def boundaryCollision {d : ℕ} (ops : PlateOps d) (useMibf : Bool) (gridFriction : ℕ → ℝ)
    (dt : ℝ) (objs : List (GenObject d)) (plates : List (Plate d)) (index : ℕ) (X v : Fin d → ℝ) :
    Fin d → ℝ :=
  let X := X + dt • v
  let fr := wallFriction useMibf gridFriction index
  collidePlates ops.inside ops.rel fr X plates (collideObjects fr X objs v)

/-- Everything that is fixed before `simulate` is called, and the choices made by the environment:
`cabs`, `svd` (see `plasticity`) and `sched`, the distribution of the particles to threads in the
particle-to-grid transfer of step `n`. -/
structure Setup (d : ℕ) where
  C : TimeConfig d
  S : StepParams d ℝ
  m : Material
  objs : List (GenObject d)
  ops : PlateOps d
  cabs : ℝ → ℝ
  svd : Matrix (Fin d) (Fin d) ℝ → Svd d
  sched : ℕ → List (Particle d ℝ) → List (List (Particle d ℝ))

/-- What changes during a run: particles, box of the first grid, grid coordinates, plates, and `grid.mass`, `grid.v`,
`grid.friction` as `saveGridData` finds them (save_data.cpp:162-250). The other grid arrays do not outlive a step. -/
structure World (d : ℕ) where
  ps : List (Particle d ℝ)
  box : Option (Fin d → AxisInit ℝ)
  g : Axes d ℝ
  plates : List (Plate d)
  mass : ℕ → ℝ
  vel : ℕ → Fin d → ℝ
  friction : ℕ → ℝ

/-- Before the first step there is no grid (simulation.cpp:19-20, data_structures.hpp: empty vectors). -/
def World.gridless {d : ℕ} (ps : List (Particle d ℝ)) (plates : List (Plate d)) : World d where
  ps := ps
  box := none
  g := fun _ => []
  plates := plates
  mass := fun _ => 0
  vel := fun _ => 0
  friction := fun _ => 0

variable {d : ℕ}

/-- The update of one particle by `plasticity`, and `exit` (g2p.cpp:97-103, deformation_update.cpp:57-63).
`exit` is shared by all particles and only ever set to one, so each particle starts from zero here. -/
noncomputable def plasticUpdate (R : Setup d) (dt : ℝ) (q : Particle d ℝ) :
    Option (Particle d ℝ × Bool) :=
  (plasticity R.cabs R.svd R.m dt q false).map fun st => (st.q, st.exit)

/-- One iteration of `G2P` (g2p.cpp:23-104). -/
noncomputable def g2pFullParticle (R : Setup d) (dt : ℝ) (n : Fin d → ℕ) (e : EulerArr d ℝ)
    (ps : Particle d ℝ × Stencil d ℝ) : Option (Particle d ℝ × Bool) :=
  let q := g2pTransfer R.S.P n e ps.1 ps.2
  if R.S.useMusl then some (q, false)
  else plasticUpdate R dt { q with F := trialF dt (interpGrad n e.v ps.2) q.F }

/-- `G2P` (g2p.cpp:7-111). -/
noncomputable def g2pFull (R : Setup d) (dt : ℝ) (g : Axes d ℝ) (e : EulerArr d ℝ)
    (ps : List (Particle d ℝ)) : Option (List (Particle d ℝ × Bool)) := do
  let qs ← withStencils (stencilG2P R.S.P.deg R.S.P.oneOverDx g) ps
  qs.mapM (g2pFullParticle R dt g.size e)

/-- One iteration of `deformationUpdate` (deformation_update.cpp:13, 17-63). -/
noncomputable def deformFullParticle (R : Setup d) (dt : ℝ) (n : Fin d → ℕ) (v : ℕ → Fin d → ℝ)
    (ps : Particle d ℝ × Stencil d ℝ) : Option (Particle d ℝ × Bool) :=
  plasticUpdate R dt { ps.1 with deltaGamma := 0, F := trialF dt (interpGrad n v ps.2) ps.1.F }

/-- `deformationUpdate` (deformation_update.cpp:7-68). -/
noncomputable def deformFull (R : Setup d) (dt : ℝ) (g : Axes d ℝ) (v : ℕ → Fin d → ℝ)
    (ps : List (Particle d ℝ)) : Option (List (Particle d ℝ × Bool)) := do
  let qs ← withStencils (stencilG2P R.S.P.deg R.S.P.oneOverDx g) ps
  qs.mapM (deformFullParticle R dt g.size v)

/-- `advanceStep` after `updateDt` (simulation.cpp:216-266): the new world and `exit`. `stepNo` is
`current_time_step`, `time` the time at the beginning of the step (used by `moveObjects`,
simulation.cpp:272-276). -/
noncomputable def physStep (R : Setup (d + 2)) (w : World (d + 2)) (dt : ℝ) (gravity : Fin (d + 2) → ℝ)
    (time : ℝ) (stepNo : ℕ) : Option (World (d + 2) × Bool) := do
  let bg ← chooseGrid R.S ⟨w.ps, w.box, w.g, stepNo⟩
  let ghs := if R.S.pbc then ghosts R.S.P.dx (R.S.L 0) 4 w.ps else []
  if R.S.P.useMibf ∧ ghs ≠ [] then none
  let arr ← P2G R.S.P bg.2 (R.sched stepNo (w.ps ++ ghs))
  let bc := boundaryCollision R.ops R.S.P.useMibf (fun l => (arr l).friction) dt R.objs w.plates
  let e := eulerUpdate R.S.P dt gravity bc bg.2 arr
  let qs ← g2pFull R dt bg.2 e w.ps
  let qv ← if R.S.useMusl then do
      let r ← MUSL R.S.P bg.2 (fun l => (arr l).mass) [qs.map (·.1)]
      (deformFull R dt bg.2 r.2 r.1.flatten).map fun qs => (qs, r.2)
    else some (qs, e.v)
  some
    ({ ps := qv.1.map fun q => positionParticle R.S.P R.S.useMusl R.S.pbc R.S.changePos (R.S.L 0) dt q.1
       box := bg.1
       g := bg.2
       plates := w.plates.map fun p => R.ops.move p dt R.C.frameDt time
       mass := fun l => (arr l).mass
       vel := qv.2
       friction := fun l => (arr l).friction },
     qv.1.any (·.2))

/-- The physics handed to the main loop. -/
noncomputable def physics (R : Setup (d + 2)) : Physics (d + 2) (World (d + 2)) where
  velocities w := w.ps.map fun p => p.v
  step := physStep R

/-- `simulate` sets `muI` of all particles with `use_mibf` (simulation.cpp:133-140). -/
def fillMuI (m : Material) (useMibf : Bool) (w : World d) : World d :=
  if useMibf then
    { w with ps := w.ps.map fun p =>
        { p with muI := if m.plastic = .dpMui ∨ m.plastic = .mccMui then m.mu1 else m.M } }
  else w

/-- `simulate` (simulation.cpp:73-207) on a given set-up; `fuel` bounds the number of iterations of
the main loop. -/
noncomputable def runProgram (R : Setup (d + 2)) (isInitialized exit : Bool) (fuel : ℕ)
    (s : LoopState (d + 2) (World (d + 2))) : Result (d + 2) (World (d + 2)) :=
  if accepted isInitialized R.m.elastic R.m.plastic exit then
    simulate R.C (physics R) isInitialized R.m.elastic R.m.plastic exit fuel
      { s with w := fillMuI R.m R.S.P.useMibf s.w }
  else .refused s

end Verif
