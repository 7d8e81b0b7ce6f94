import Verif.Model.Pbc

/-!
# Model of `advanceStep` (simulation.cpp:213-268)

The time step, gravity, the boundary treatment `bc` (boundary_collision.cpp) and the constitutive
update `plast` (plasticity.cpp) are parameters here; they are modelled in `Time.lean`,
`Boundary.lean`, `Plasticity.lean`.
-/

namespace Verif
variable {K : Type*} [Field K] [LinearOrder K] {d : ℕ}

/-- Settings that do not change during a run (simulation.hpp:36-110). -/
structure StepParams (d : ℕ) (K : Type*) where
  P : TransferParams K
  useMusl : Bool
  pbc : Bool
  changePos : Bool
  /-- `Lx, Ly(, Lz)` -/
  L : Fin d → K
  ref : Option (Fin d → K)

/-- From P2G to positionUpdate on a given grid (simulation.cpp:232-264). `ghs` are the periodic
ghosts (empty without pbc), `threads` the distribution of real and ghost particles to threads in
P2G. MUSL is run with one thread; other distributions give the same (`C03_musl`). The velocities of
the grid before P2G are irrelevant: `resizeGrid` zeroes them (remesh.cpp:5-12). With `use_mibf` the
vector `muI` is read for ghosts, which do not have an entry (p2g.cpp:75, 95): undefined. -/
def stepOnGrid [FloorRing K] (S : StepParams (d + 2) K) (dt : K) (gravity : Fin (d + 2) → K)
    (bc : ℕ → (Fin (d + 2) → K) → (Fin (d + 2) → K) → (Fin (d + 2) → K))
    (plast : Particle (d + 2) K → Particle (d + 2) K) (g : Axes (d + 2) K)
    (ghs : List (Particle (d + 2) K)) (threads : List (List (Particle (d + 2) K)))
    (ps : List (Particle (d + 2) K)) : Option (List (Particle (d + 2) K)) := do
  if S.P.useMibf ∧ ghs ≠ [] then none
  let arr ← P2G S.P g threads
  let e := eulerUpdate S.P dt gravity bc g arr
  let qs ← G2P S.P S.useMusl dt plast g e ps
  let qs ← if S.useMusl then do
      let r ← MUSL S.P g (fun l => (arr l).mass) [qs]
      deformationUpdate S.P dt plast g r.2 r.1.flatten
    else some qs
  some (qs.map (positionParticle S.P S.useMusl S.pbc S.changePos (S.L 0) dt))

/-- State kept between steps: particles, remembered box of the first grid, grid coordinates,
`current_time_step`. -/
structure SimState (d : ℕ) (K : Type*) where
  ps : List (Particle d K)
  box : Option (Fin d → AxisInit K)
  g : Axes d K
  step : ℕ

/-- Choice of the grid (simulation.cpp:216-226). Using the remembered box before it was set is
undefined. -/
def chooseGrid [FloorRing K] (S : StepParams (d + 2) K) (σ : SimState (d + 2) K) :
    Option (Option (Fin (d + 2) → AxisInit K) × Axes (d + 2) K) :=
  if S.pbc then
    if σ.step = 0 then (remeshPeriodic S.P.dx S.L 4).map fun g => (σ.box, g) else some (σ.box, σ.g)
  else if σ.step = 0 then
    (remeshInit S.P.dx S.ref (σ.ps.map fun p => p.x)).map fun r => (some r.1, r.2)
  else
    σ.box.bind fun b => (remeshCont S.P.dx b (σ.ps.map fun p => p.x)).map fun g => (some b, g)

/-- `advanceStep` (simulation.cpp:213-268) and the increment of `current_time_step`
(simulation.cpp:172). `sched` distributes the particles (real ones and ghosts) to threads. -/
def advanceStep [FloorRing K] (S : StepParams (d + 2) K) (dt : K) (gravity : Fin (d + 2) → K)
    (bc : ℕ → (Fin (d + 2) → K) → (Fin (d + 2) → K) → (Fin (d + 2) → K))
    (plast : Particle (d + 2) K → Particle (d + 2) K)
    (sched : List (Particle (d + 2) K) → List (List (Particle (d + 2) K)))
    (σ : SimState (d + 2) K) : Option (SimState (d + 2) K) := do
  let bg ← chooseGrid S σ
  let ghs := if S.pbc then ghosts S.P.dx (S.L 0) 4 σ.ps else []
  let ps ← stepOnGrid S dt gravity bc plast bg.2 ghs (sched (σ.ps ++ ghs)) σ.ps
  some { ps := ps, box := bg.1, g := bg.2, step := σ.step + 1 }

end Verif
