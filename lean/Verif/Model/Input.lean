import Verif.Model.Run
import Verif.Model.Sampling
import Mathlib.Analysis.SpecialFunctions.Trigonometric.Basic

/-!
# The class `Simulation` as the input file sees it, and the input files shipped with the code

src/simulation/simulation.hpp:24-113, src/simulation/simulation.cpp:73-131, src/mpm.cpp, examples/cube_rotating.cpp.
-/

namespace Verif
open Matrix
noncomputable section

/-- The public members of `Simulation` with their initial values (simulation.hpp:28-113, simulation.cpp:5-21).
`dx`, `particle_mass`, `particle_volume` have no initial value: `none`. `exit` is 0 or 1. Left out: `dim` (the
parameter `d`), `reduce_verbose` (console output only), `Np` (the length of `particles`; it has no initial value
either) and `num_add_pbc_particles`. Decimal literals stand for their exact values. -/
structure Sim (d : ℕ) where
  exit : Bool := false
  nThreads : ℕ := 1
  endFrame : ℕ := 1
  isInitialized : Bool := false
  saveSim : Bool := true
  pbc : Bool := false
  changeParticlePositions : Bool := false
  gravitySpecial : Bool := false
  saveGrid : Bool := false
  useMibf : Bool := false
  useMusl : Bool := false
  gridReferencePoint : Fin d → ℝ := fun _ => 2e10
  gravity : Fin d → ℝ := 0
  minDt : ℝ := 1e-14
  fps : ℝ := 1
  cfl : ℝ := 0.5
  cflElastic : ℝ := 0.5
  flipRatio : ℝ := -0.95
  rho : ℝ := 1000
  gravityTime : ℝ := 0
  L : Fin d → ℝ := fun _ => 1
  particles : List (Particle d ℝ) := [Particle.init]
  particleMass : Option ℝ := none
  particleVolume : Option ℝ := none
  dx : Option ℝ := none
  elasticModel : ElasticModel := .hencky
  plasticModel : PlasticModel := .noPlasticity
  hardeningLaw : HardeningLaw := .expoImpl
  usePradhana : Bool := true
  E : ℝ := 1e6
  nu : ℝ := 0.3
  stressTolerance : ℝ := 1e-5
  xi : ℝ := 0
  qMax : ℝ := 100
  qMin : ℝ := 100
  pMin : ℝ := -1e20
  M : ℝ := 1
  qCohesion : ℝ := 0
  viscExponent : ℝ := 1
  viscTime : ℝ := 0
  useDuvautLions : Bool := false
  beta : ℝ := 0
  p0 : ℝ := 1000
  rhoS : ℝ := 2500
  grainDiameter : ℝ := 1e-3
  iRef : ℝ := 0.279
  mu1 : ℝ := Real.tan (20.9 * Real.pi / 180)
  mu2 : ℝ := Real.tan (32.8 * Real.pi / 180)
  qPrefac : ℝ := 1 / Real.sqrt 2
  plates : List (Plate d) := []
  objects : List (GenObject d) := []

/-- What is fixed when the code is compiled (`SPLINEDEG`, `THREEDIM`) and the choices made by the environment, see
`Setup`. -/
structure Build (d : ℕ) where
  deg : Deg
  ops : PlateOps d
  cabs : ℝ → ℝ
  svd : Matrix (Fin d) (Fin d) ℝ → Svd d
  sched : ℕ → List (Particle d ℝ) → List (List (Particle d ℝ))

namespace Sim
variable {d : ℕ} (s : Sim d)

/-- The members read by `plasticity`. -/
def material : Material where
  elastic := s.elasticModel
  plastic := s.plasticModel
  hardening := s.hardeningLaw
  usePradhana := s.usePradhana
  useMibf := s.useMibf
  E := s.E
  nu := s.nu
  stressTol := s.stressTolerance
  xi := s.xi
  qMax := s.qMax
  qMin := s.qMin
  pMin := s.pMin
  M := s.M
  qCohesion := s.qCohesion
  viscExponent := s.viscExponent
  viscTime := s.viscTime
  useDuvautLions := s.useDuvautLions
  beta := s.beta
  p0 := s.p0
  rhoS := s.rhoS
  grainDiameter := s.grainDiameter
  iRef := s.iRef
  mu1 := s.mu1
  mu2 := s.mu2
  qPrefac := s.qPrefac

/-- The members read by the main loop. -/
def timeConfig (dx : ℝ) : TimeConfig d where
  endFrame := s.endFrame
  saveSim := s.saveSim
  saveGrid := s.saveGrid
  gravitySpecial := s.gravitySpecial
  gravityTime := s.gravityTime
  minDt := s.minDt
  fps := s.fps
  cfl := s.cfl
  cflElastic := s.cflElastic
  rho := s.rho
  E := s.E
  dx := dx

/-- The set-up `simulate` works with (simulation.cpp:97-140). The reference point counts if its first component is
below 1e10 (remesh.cpp:84). -/
def setup (b : Build d) (h : 0 < d) (dx mass vol : ℝ) : Setup d where
  C := s.timeConfig dx
  S := {
    P := mkTransferParams b.deg dx s.flipRatio s.useMibf mass vol
    useMusl := s.useMusl
    pbc := s.pbc
    changePos := s.changeParticlePositions
    L := s.L
    ref := if s.gridReferencePoint ⟨0, h⟩ < 1e10 then some s.gridReferencePoint else none }
  m := s.material
  objs := s.objects
  ops := b.ops
  cabs := b.cabs
  svd := b.svd
  sched := b.sched

/-- The object before its first call of `simulate`: `current_time_step`, `time`, `frame` are zero and there is no grid
(simulation.cpp:5-21). -/
def fresh : LoopState d (World d) := ⟨.gridless s.particles s.plates, 0, 0, 0, s.gravity, []⟩

/-- The first call of `simulate`. A rejected simulation returns before `dx` is used (simulation.cpp:75-111); after
that, members without value are undefined behaviour. -/
def simulate {d : ℕ} (s : Sim (d + 2)) (b : Build (d + 2)) (fuel : ℕ) : Result (d + 2) (World (d + 2)) :=
  if accepted s.isInitialized s.elasticModel s.plasticModel s.exit then
    match s.dx, s.particleMass, s.particleVolume with
    | some dx, some mass, some vol => runProgram (s.setup b (Nat.succ_pos _) dx mass vol) s.isInitialized s.exit fuel s.fresh
    | _, _, _ => .ub
  else .refused s.fresh

/-- `initialize` (simulation.cpp:24-71); `copied`: the input file could be copied to the output directory. The names
of the directories are not modelled. -/
def initialized (save copied : Bool) : Sim d :=
  { s with saveSim := save, isInitialized := true, exit := s.exit || (save && !copied) }

/-- What the sampling functions store (see `Sampled`). -/
def takeSampled (r : Sampled d) : Sim d :=
  { s with dx := some r.dx, particleVolume := some r.volume, particleMass := some r.mass, particles := r.ps, L := r.L }

/-- `sampleParticles`, 2D, with its default arguments (sampling_particles.hpp:76-121). -/
def sample2 (s : Sim 2) (xs : List (Fin 2 → ℝ)) : Option (Sim 2) :=
  (Verif.sample2 s.rho 6 (s.L 0) (s.L 1) 0 xs).map s.takeSampled

/-- `sampleParticles`, 3D, with its default arguments (sampling_particles.hpp:13-71). -/
def sample3 (s : Sim 3) (xs : List (Fin 3 → ℝ)) : Option (Sim 3) :=
  (Verif.sample3 s.rho 8 (s.L 0) (s.L 1) (s.L 2) 0 xs).map s.takeSampled

end Sim

/-- The constructor of `ObjectPlate` with default arguments (object_plate.hpp:14-28, 82-95). -/
def mkPlate {d : ℕ} (pos : ℝ) (type : PlateType) (bc : BC := .noSlip) : Plate d where
  pos := pos
  type := type
  bc := bc
  friction := 0
  lower := -1e15
  upper := 1e15
  vel := 0
  velOrig := 0
  vminFactor := 1
  loadFactor := 0

/-! ### src/mpm.cpp

examples/collapse.cpp is the same file. -/

/-- mpm.cpp:22-51, up to the sampling of the particles. `len` is `(Lx, Ly(, Lz))`. -/
def mpmBefore {d : ℕ} (copied : Bool) (len : Fin (d + 2) → ℝ) : Sim (d + 2) :=
  let s : Sim (d + 2) := {}
  let s := s.initialized true copied
  let theta : ℝ := 0 * Real.pi / 180
  { s with
    saveGrid := true
    endFrame := 20
    fps := 10
    nThreads := 8
    cfl := 0.5
    flipRatio := -0.95
    elasticModel := .hencky
    E := 1e6
    nu := 0.3
    rho := 1000
    gravity := Function.update (Function.update 0 0 (9.81 * Real.sin theta)) 1 (-9.81 * Real.cos theta)
    L := len }

/-- mpm.cpp:53-86: particles moved, reference point, floor, material. -/
def mpmAfter {d : ℕ} (s : Sim (d + 2)) (dx : ℝ) : Sim (d + 2) :=
  { s with
    particles := s.particles.map fun p =>
      { p with x := Function.update (Function.update p.x 0 (p.x 0 - 0.5 * s.L 0)) 1 (p.x 1 + 0.5 * dx) }
    gridReferencePoint := 0
    plates := s.plates ++ [mkPlate 0 .bottom .noSlip]
    plasticModel := .dpVisc
    usePradhana := true
    qPrefac := 1 / Real.sqrt 2
    M := Real.tan (30 * Real.pi / 180)
    qCohesion := 0
    viscExponent := 1
    viscTime := 0 }

/-- src/mpm.cpp compiled for 2D, up to the call of `simulate` (mpm.cpp:17-86); `xs` are the points found by the Poisson
disk sampler. -/
def mpm2 (copied : Bool) (xs : List (Fin 2 → ℝ)) : Option (Sim 2) := do
  let s ← (mpmBefore (d := 0) copied ![1, 1]).sample2 xs
  let dx ← s.dx
  some (mpmAfter (d := 0) s dx)

/-- The same in 3D, with `Lz = 5`. -/
def mpm3 (copied : Bool) (xs : List (Fin 3 → ℝ)) : Option (Sim 3) := do
  let s ← (mpmBefore (d := 1) copied ![1, 1, 5]).sample3 xs
  let dx ← s.dx
  some (mpmAfter (d := 1) s dx)

/-! ### The set-up file printed in README.md -/

/-- README.md:131-141, up to the sampling. -/
def readmeBefore {d : ℕ} (copied : Bool) (len : Fin (d + 2) → ℝ) : Sim (d + 2) :=
  let s : Sim (d + 2) := {}
  { s.initialized true copied with endFrame := 20, fps := 10, nThreads := 8, L := len }

/-- README.md:145-160: floor (no slip, with a friction coefficient), density, gravity, material. -/
def readmeAfter {d : ℕ} (s : Sim (d + 2)) : Sim (d + 2) :=
  { s with
    plates := s.plates ++ [{ mkPlate 0 .bottom .noSlip with friction := 0.5 }]
    rho := 1000
    gravity := Function.update s.gravity 1 (-9.81)
    E := 1e6
    nu := 0.3
    plasticModel := .dp
    M := 0.5
    qCohesion := 0 }

/-- The set-up file of the README in 2D, up to the call of `simulate`. -/
def readme2 (copied : Bool) (xs : List (Fin 2 → ℝ)) : Option (Sim 2) :=
  ((readmeBefore (d := 0) copied ![1, 1]).sample2 xs).map (readmeAfter (d := 0))

/-- The same in 3D, with the line for `Lz = 1` (README.md:141). -/
def readme3 (copied : Bool) (xs : List (Fin 3 → ℝ)) : Option (Sim 3) :=
  ((readmeBefore (d := 1) copied ![1, 1, 1]).sample3 xs).map (readmeAfter (d := 1))

/-! ### examples/cube_rotating.cpp -/

/-- cube_rotating.cpp:10-29, up to the sampling. -/
def cubeBefore {d : ℕ} (copied : Bool) (len : Fin (d + 2) → ℝ) : Sim (d + 2) :=
  let s : Sim (d + 2) := {}
  let s := s.initialized true copied
  { s with saveGrid := true, endFrame := 20, fps := 1, gravity := 0, cfl := 0.5, flipRatio := -1, nThreads := 8, L := len }

/-- cube_rotating.cpp:31-51: particles centred and given a rotation and a translation, material. -/
def cubeAfter {d : ℕ} (s : Sim (d + 2)) : Sim (d + 2) :=
  { s with
    particles := s.particles.map fun p =>
      let x := Function.update (Function.update p.x 0 (p.x 0 - 0.5 * s.L 0)) 1 (p.x 1 - 0.5 * s.L 1)
      { p with x := x, v := Function.update (Function.update p.v 0 (-1 * x 1 + 0.5)) 1 (1 * x 0 + 0.5) }
    elasticModel := .hencky
    plasticModel := .noPlasticity
    E := 1e6
    nu := 0.3
    rho := 1550 }

/-- examples/cube_rotating.cpp compiled for 2D. -/
def cube2 (copied : Bool) (xs : List (Fin 2 → ℝ)) : Option (Sim 2) :=
  ((cubeBefore (d := 0) copied ![1, 1]).sample2 xs).map (cubeAfter (d := 0))

/-- examples/cube_rotating.cpp compiled for 3D, with `Lz = 0.05`. -/
def cube3 (copied : Bool) (xs : List (Fin 3 → ℝ)) : Option (Sim 3) :=
  ((cubeBefore (d := 1) copied ![1, 1, 0.05]).sample3 xs).map (cubeAfter (d := 1))

end
end Verif
