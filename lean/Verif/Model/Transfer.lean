import Verif.Model.Grid
import Mathlib.Data.Matrix.Mul
import Mathlib.Algebra.Order.Floor.Ring

/-!
# Model of `p2g.cpp`, `explicit_euler_update.cpp`, `g2p.cpp`, `musl.cpp`,
`deformation_update.cpp`, `position_update.cpp`

`d` is the dimension (2, or 3 with `THREEDIM`). `none` = undefined behaviour.
-/

namespace Verif
open Matrix

/-- The per-particle vectors of `Particles` (data_structures.hpp:8-45), as one record. -/
structure Particle (d : ℕ) (K : Type*) where
  x : Fin d → K
  v : Fin d → K
  pic : Fin d → K
  flip : Fin d → K
  F : Matrix (Fin d) (Fin d) K
  Bmat : Matrix (Fin d) (Fin d) K
  tau : Matrix (Fin d) (Fin d) K
  epsPlDev : K
  epsPlVol : K
  epsPlVolPradhana : K
  deltaGamma : K
  viscosity : K
  muI : K

/-- `Particles(Np)` (data_structures.hpp:10-26), one particle. -/
def Particle.init {d : ℕ} {K : Type*} [Field K] : Particle d K where
  x := 0
  v := 0
  pic := 0
  flip := 0
  F := 1
  Bmat := 0
  tau := 0
  epsPlDev := 0
  epsPlVol := 0
  epsPlVolPradhana := 0
  deltaGamma := 0
  viscosity := 0
  muI := 0

section
variable {K : Type*} [Field K] [LinearOrder K] {d : ℕ}

/-- The coordinates `grid.x, grid.y(, grid.z)` (data_structures.hpp:50-54). -/
abbrev Axes (d : ℕ) (K : Type*) := Fin d → List K

/-- `Nx, Ny(, Nz)` (remesh.cpp:146-155, 289-296). -/
def Axes.size (g : Axes d K) : Fin d → ℕ := fun a => (g a).length

/-- What the loops of P2G/G2P read and compute for one particle, one direction at a time
(p2g.cpp:45-57): for the four nodes `base .. base+3` of a direction the coordinate `xi`,
the weight `N((xp-xi)/dx)` and the weight derivative `dNdu((xp-xi)/dx)/dx`. -/
structure Stencil (d : ℕ) (K : Type*) where
  base : Fin d → ℕ
  xi : Fin d → Fin 4 → K
  W : Fin d → Fin 4 → K
  G : Fin d → Fin 4 → K

/-- The stencil starting at node `base` (p2g.cpp:45-57; g2p.cpp:35-47); reading `grid.x[i]` with
`i >= Nx` in any direction is undefined. -/
def mkStencil (deg : Deg) (oneOverDx : K) (g : Axes d K) (base : Fin d → ℕ) (xp : Fin d → K) :
    Option (Stencil d K) :=
  if h : ∀ a, base a + 3 < (g a).length then
    let xi : Fin d → Fin 4 → K := fun a i => (g a)[base a + i.val]'(by have := h a; omega)
    some { base := base
           xi := xi
           W := fun a i => N deg ((xp a - xi a i) * oneOverDx)
           G := fun a i => dNdu deg ((xp a - xi a i) * oneOverDx) * oneOverDx }
  else none

/-- `floor((xp-grid.xc)*one_over_dx) - 1` (p2g.cpp:22, g2p.cpp:29); `grid.xc = grid.x[0]`
(remesh.cpp:140, 298) is undefined for an empty grid. -/
def baseInt [FloorRing K] (oneOverDx : K) (nodes : List K) (x : K) : Option ℤ :=
  nodes.head?.map fun xc => ⌊(x - xc) * oneOverDx⌋ - 1

/-- `unsigned int i_base = std::max(0, int(std::floor(..)) - 1)` (p2g.cpp:22-25, musl.cpp:37-40):
clamped at zero. Overflow of `int` is not modelled. -/
def baseP2G [FloorRing K] (oneOverDx : K) (g : Axes d K) (xp : Fin d → K) (a : Fin d) : Option ℕ :=
  (baseInt oneOverDx (g a) (xp a)).map Int.toNat

/-- `unsigned int i_base = std::floor(..) - 1` (g2p.cpp:29-32, deformation_update.cpp:21-24):
converting a negative floating-point value to `unsigned` is undefined. -/
def baseG2P [FloorRing K] (oneOverDx : K) (g : Axes d K) (xp : Fin d → K) (a : Fin d) : Option ℕ :=
  (baseInt oneOverDx (g a) (xp a)).bind fun b => if b < 0 then none else some b.toNat

/-- Evaluate an optional value in every direction; undefined if one is. -/
def sequenceFin {α : Type*} : {d : ℕ} → (Fin d → Option α) → Option (Fin d → α)
  | 0, _ => some Fin.elim0
  | _ + 1, f => do
    let a ← f 0
    let r ← sequenceFin (Fin.tail f)
    some (Fin.cons a r)

/-- Stencil used by the particle-to-grid loops (p2g.cpp:20-57; musl.cpp:35-53). -/
def stencilP2G [FloorRing K] (deg : Deg) (oneOverDx : K) (g : Axes d K) (xp : Fin d → K) :
    Option (Stencil d K) :=
  (sequenceFin (baseP2G oneOverDx g xp)).bind fun b => mkStencil deg oneOverDx g b xp

/-- Stencil used by the grid-to-particle loops (g2p.cpp:23-47; deformation_update.cpp:17-39). -/
def stencilG2P [FloorRing K] (deg : Deg) (oneOverDx : K) (g : Axes d K) (xp : Fin d → K) :
    Option (Stencil d K) :=
  (sequenceFin (baseG2P oneOverDx g xp)).bind fun b => mkStencil deg oneOverDx g b xp

/-- The iterations of the nested loops `for i, for j(, for k)` over the stencil, in loop order. -/
def allIdx : (d : ℕ) → List (Fin d → Fin 4)
  | 0 => [Fin.elim0]
  | d + 1 => (List.finRange 4).flatMap fun i => (allIdx d).map (Fin.cons i)

namespace Stencil

/-- `weight = wi * wj (* wk)` (p2g.cpp:59, 81). -/
def weight (s : Stencil d K) (c : Fin d → Fin 4) : K := ∏ a, s.W a (c a)

/-- `weight_grad` (p2g.cpp:60-63, 82-84): component `b` has the derivative in direction `b`. -/
def weightGrad (s : Stencil d K) (c : Fin d → Fin 4) : Fin d → K :=
  fun b => ∏ a, if a = b then s.G a (c a) else s.W a (c a)

/-- The node position `(xi, yi(, zi))`. -/
def nodePos (s : Stencil d K) (c : Fin d → Fin 4) : Fin d → K := fun a => s.xi a (c a)

/-- The node's index tuple `(i, j(, k))`. -/
def node (s : Stencil d K) (c : Fin d → Fin 4) : Fin d → ℕ := fun a => s.base a + (c a).val

end Stencil

/-- Parameters of the run used by the transfers (simulation.hpp:52-72, 185-189). -/
structure TransferParams (K : Type*) where
  deg : Deg
  dx : K
  oneOverDx : K
  apicDinverse : K
  flipRatio : K
  useMibf : Bool
  particleMass : K
  particleVolume : K

/-- `simulate` sets `one_over_dx` and `apicDinverse` (simulation.cpp:97-108, 124). -/
def mkTransferParams (deg : Deg) (dx flipRatio : K) (useMibf : Bool) (mass vol : K) :
    TransferParams K where
  deg := deg
  dx := dx
  oneOverDx := 1 / dx
  apicDinverse := match deg with
    | .three => 3 / (dx * dx)
    | .two => 4 / (dx * dx)
    | .one => 0
  flipRatio := flipRatio
  useMibf := useMibf
  particleMass := mass
  particleVolume := vol

/-- The values accumulated per node by P2G: mass, velocity, force, friction (p2g.cpp:14-17). -/
structure Cell (d : ℕ) (K : Type*) where
  mass : K
  v : Fin d → K
  force : Fin d → K
  friction : K

namespace Cell
/-- all zero (p2g.cpp:14-17; remesh.cpp:5-12) -/
def zero : Cell d K := ⟨0, 0, 0, 0⟩
/-- componentwise `+=` (p2g.cpp:66-77, 107-111) -/
def add (a b : Cell d K) : Cell d K :=
  ⟨a.mass + b.mass, a.v + b.v, a.force + b.force, a.friction + b.friction⟩
end Cell

/-- The grid vectors, indexed by the flat node index; `resizeGrid` zeroes them (remesh.cpp:5-12). -/
abbrev GridArr (d : ℕ) (K : Type*) := ℕ → Cell d K

/-- What one particle adds at one stencil node whose weight passed the cut-off
(p2g.cpp:66-77, 87-97). -/
def contribution (P : TransferParams K) (p : Particle d K) (s : Stencil d K) (c : Fin d → Fin 4) :
    Cell d K where
  mass := s.weight c
  v := s.weight c • p.v +
    if P.flipRatio < 0 then
      (P.apicDinverse * s.weight c) • (p.Bmat *ᵥ (s.nodePos c - p.x))
    else 0
  force := p.tau *ᵥ s.weightGrad c
  friction := if P.useMibf then p.muI * s.weight c else 0

/-- `if (weight > 1e-25)` (p2g.cpp:65, 86; musl.cpp:54, 67). -/
def cutoff : K := 1 / 10 ^ 25

/-- One iteration of the innermost P2G loop: `grid_*_local[ind(i,j,k)] += ...` (p2g.cpp:65-78, 86-98). -/
def depositAt (P : TransferParams K) (n : Fin d → ℕ) (p : Particle d K) (s : Stencil d K)
    (g : GridArr d K) (c : Fin d → Fin 4) : GridArr d K :=
  if s.weight c > cutoff then
    Function.update g (flatIndex n (s.node c))
      ((g (flatIndex n (s.node c))).add (contribution P p s c))
  else g

/-- The loop over one particle's stencil (p2g.cpp:45-101). -/
def depositParticle (P : TransferParams K) (n : Fin d → ℕ) (g : GridArr d K)
    (ps : Particle d K × Stencil d K) : GridArr d K :=
  (allIdx d).foldl (depositAt P n ps.1 ps.2) g

/-- One thread: thread-local arrays start at zero (p2g.cpp:14-17) and receive the thread's particles
(p2g.cpp:19-102). -/
def threadLocal (P : TransferParams K) (n : Fin d → ℕ) (ps : List (Particle d K × Stencil d K)) :
    GridArr d K :=
  ps.foldl (depositParticle P n) (fun _ => Cell.zero)

/-- The critical section (p2g.cpp:104-113): a thread adds its local arrays to the grid arrays. -/
def mergeThread (g loc : GridArr d K) : GridArr d K := fun l => (g l).add (loc l)

/-- The parallel region of P2G (p2g.cpp:12-115): `threads` lists, in the order in which the threads
enter the critical section, the particles each thread processed. -/
def p2gAccumulate (P : TransferParams K) (n : Fin d → ℕ)
    (threads : List (List (Particle d K × Stencil d K))) : GridArr d K :=
  threads.foldl (fun g t => mergeThread g (threadLocal P n t)) (fun _ => Cell.zero)

/-- The normalisation loop and the mass scaling (p2g.cpp:121-135). Division by zero of the friction
of an empty node gives NaN in C++; here it gives 0; such nodes are never read
(explicit_euler_update.cpp:30). -/
def p2gFinish (P : TransferParams K) (g : GridArr d K) : GridArr d K := fun l =>
  let mi := (g l).mass
  { mass := mi * P.particleMass
    v := if mi > 0 then mi⁻¹ • (g l).v else 0
    force := (g l).force
    friction := if P.useMibf then (g l).friction / mi else (g l).friction }

/-- Pair every particle with its P2G stencil; undefined if one is. -/
def withStencils (st : (Fin d → K) → Option (Stencil d K)) (ps : List (Particle d K)) :
    Option (List (Particle d K × Stencil d K)) :=
  ps.mapM fun p => (st p.x).map fun s => (p, s)

/-- `P2G` (p2g.cpp:6-137) with a given distribution of the particles to threads. -/
def P2G [FloorRing K] (P : TransferParams K) (g : Axes d K) (threads : List (List (Particle d K))) :
    Option (GridArr d K) := do
  let ts ← threads.mapM (withStencils (stencilP2G P.deg P.oneOverDx g))
  some (p2gFinish P (p2gAccumulate P g.size ts))

/-- Grid data after `explicitEulerUpdate`: `grid.v` and `grid.flip`. -/
structure EulerArr (d : ℕ) (K : Type*) where
  v : ℕ → Fin d → K
  flip : ℕ → Fin d → K

/-- The body of the loop of `explicitEulerUpdate` for a node with position `X`
(explicit_euler_update.cpp:29-61); `bc` is `boundaryCollision` (index, position, velocity). -/
def eulerNode (P : TransferParams K) (dt : K) (gravity : Fin d → K)
    (bc : ℕ → (Fin d → K) → (Fin d → K) → (Fin d → K)) (g : GridArr d K) (l : ℕ) (X : Fin d → K)
    (e : EulerArr d K) : EulerArr d K :=
  let mi := (g l).mass
  if mi > 0 then
    let incr : Fin d → K := (-(dt * P.particleVolume) / mi) • (g l).force + dt • gravity
    let old := e.v l
    let new := bc l X (old + incr)
    { v := Function.update e.v l new, flip := Function.update e.flip l (new - old) }
  else e

/-- Node position `(grid.x[i], grid.y[j](, grid.z[k]))`; indices are in range. -/
def nodePosOf (g : Axes d K) (i : Fin d → ℕ) : Fin d → K := fun a => (g a).getD (i a) 0

/-- `explicitEulerUpdate` (explicit_euler_update.cpp:7-68); `grid.flip` was zeroed by `resizeGrid`.
Iterations touch different nodes, so the OpenMP schedule is irrelevant; they are run in order. -/
def eulerUpdate (P : TransferParams K) (dt : K) (gravity : Fin d → K)
    (bc : ℕ → (Fin d → K) → (Fin d → K) → (Fin d → K)) (g : Axes d K) (arr : GridArr d K) :
    EulerArr d K :=
  (allNodes g.size).foldl
    (fun e i => eulerNode P dt gravity bc arr (flatIndex g.size i) (nodePosOf g i) e)
    { v := fun l => (arr l).v, flip := fun _ => 0 }

/-- Sum of a quantity over the stencil loop. -/
def loopSum {M : Type*} [AddMonoid M] (f : (Fin d → Fin 4) → M) : M := ((allIdx d).map f).sum

/-- `vp` (g2p.cpp:55, 74). -/
def interpV (n : Fin d → ℕ) (v : ℕ → Fin d → K) (s : Stencil d K) : Fin d → K :=
  loopSum fun c => s.weight c • v (flatIndex n (s.node c))

/-- `v_grad` (g2p.cpp:56, 75; deformation_update.cpp:45, 52). -/
def interpGrad (n : Fin d → ℕ) (v : ℕ → Fin d → K) (s : Stencil d K) : Matrix (Fin d) (Fin d) K :=
  loopSum fun c => vecMulVec (v (flatIndex n (s.node c))) (s.weightGrad c)

/-- `Bp` (g2p.cpp:57-63, 76-81). -/
def interpB (n : Fin d → ℕ) (v : ℕ → Fin d → K) (s : Stencil d K) (xp : Fin d → K) :
    Matrix (Fin d) (Fin d) K :=
  loopSum fun c => s.weight c • vecMulVec (v (flatIndex n (s.node c))) (s.nodePos c - xp)

/-- The transfer part of one iteration of `G2P` (g2p.cpp:24-94). The vectors were zeroed before
(g2p.cpp:15-17). -/
def g2pTransfer (P : TransferParams K) (n : Fin d → ℕ) (e : EulerArr d K) (p : Particle d K)
    (s : Stencil d K) : Particle d K :=
  { p with
    pic := interpV n e.v s
    Bmat := if P.flipRatio < 0 then interpB n e.v s p.x else 0
    flip := if P.flipRatio ≥ -1 then interpV n e.flip s else 0 }

/-- `Fe_trial = Fe_trial + dt * v_grad * Fe_trial` (g2p.cpp:97-99; deformation_update.cpp:57-59). -/
def trialF (dt : K) (grad F : Matrix (Fin d) (Fin d) K) : Matrix (Fin d) (Fin d) K :=
  F + dt • (grad * F)

/-- One iteration of `G2P` (g2p.cpp:23-104); `plast` is the update done by `plasticity` on the
particle whose `F` holds the trial deformation gradient. -/
def g2pParticle (P : TransferParams K) (useMusl : Bool) (dt : K)
    (plast : Particle d K → Particle d K) (n : Fin d → ℕ) (e : EulerArr d K)
    (ps : Particle d K × Stencil d K) : Particle d K :=
  let q := g2pTransfer P n e ps.1 ps.2
  if useMusl then q else plast { q with F := trialF dt (interpGrad n e.v ps.2) q.F }

/-- `G2P` (g2p.cpp:7-111). Iterations touch different particles (the shared counter
`plastic_count`, which is incremented without synchronisation, is not modelled). -/
def G2P [FloorRing K] (P : TransferParams K) (useMusl : Bool) (dt : K)
    (plast : Particle d K → Particle d K) (g : Axes d K) (e : EulerArr d K)
    (ps : List (Particle d K)) : Option (List (Particle d K)) := do
  let qs ← withStencils (stencilG2P P.deg P.oneOverDx g) ps
  some (qs.map (g2pParticle P useMusl dt plast g.size e))

/-- The velocity update (position_update.cpp:15-22; musl.cpp:16-23). -/
def blendVelocity (P : TransferParams K) (p : Particle d K) : Fin d → K :=
  if P.flipRatio < -1 then p.pic
  else if P.flipRatio < 0 then
    (-P.flipRatio) • (p.v + p.flip) + (1 - -P.flipRatio) • p.pic
  else P.flipRatio • (p.v + p.flip) + (1 - P.flipRatio) • p.pic

/-- One iteration of the innermost loop of `MUSL` (musl.cpp:53-63, 66-75). -/
def muslDepositAt (P : TransferParams K) (n : Fin d → ℕ) (p : Particle d K) (s : Stencil d K)
    (g : ℕ → Fin d → K) (c : Fin d → Fin 4) : ℕ → Fin d → K :=
  if s.weight c > cutoff then
    Function.update g (flatIndex n (s.node c))
      (g (flatIndex n (s.node c)) + (s.weight c • p.v +
        if P.flipRatio < 0 then
          (P.apicDinverse * s.weight c) • (p.Bmat *ᵥ (s.nodePos c - p.x))
        else 0))
  else g

/-- The parallel region of `MUSL` (musl.cpp:28-88), same conventions as `p2gAccumulate`. -/
def muslAccumulate (P : TransferParams K) (n : Fin d → ℕ)
    (threads : List (List (Particle d K × Stencil d K))) : ℕ → Fin d → K :=
  threads.foldl (fun g t => g + t.foldl
    (fun g ps => (allIdx d).foldl (muslDepositAt P n ps.1 ps.2) g) 0) 0

/-- The normalisation of `MUSL` (musl.cpp:91-97), `mass` is `grid.mass` as left by P2G. -/
def muslFinish (P : TransferParams K) (mass : ℕ → K) (g : ℕ → Fin d → K) : ℕ → Fin d → K := fun l =>
  if mass l > 0 then (mass l / P.particleMass)⁻¹ • g l else 0

/-- `MUSL` (musl.cpp:6-99): update the particle velocities, then re-project them. -/
def MUSL [FloorRing K] (P : TransferParams K) (g : Axes d K) (mass : ℕ → K)
    (threads : List (List (Particle d K))) : Option (List (List (Particle d K)) × (ℕ → Fin d → K)) := do
  let ts := threads.map fun t => t.map fun p => { p with v := blendVelocity P p }
  let ss ← ts.mapM (withStencils (stencilP2G P.deg P.oneOverDx g))
  some (ts, muslFinish P mass (muslAccumulate P g.size ss))

/-- One iteration of `deformationUpdate` (deformation_update.cpp:13, 17-63). -/
def deformParticle (dt : K) (plast : Particle d K → Particle d K) (n : Fin d → ℕ)
    (v : ℕ → Fin d → K) (ps : Particle d K × Stencil d K) : Particle d K :=
  plast { ps.1 with deltaGamma := 0, F := trialF dt (interpGrad n v ps.2) ps.1.F }

/-- `deformationUpdate` (deformation_update.cpp:7-68). -/
def deformationUpdate [FloorRing K] (P : TransferParams K) (dt : K)
    (plast : Particle d K → Particle d K) (g : Axes d K) (v : ℕ → Fin d → K)
    (ps : List (Particle d K)) : Option (List (Particle d K)) := do
  let qs ← withStencils (stencilG2P P.deg P.oneOverDx g) ps
  some (qs.map (deformParticle dt plast g.size v))

/-- Periodic wrap of the first coordinate (position_update.cpp:26-33). -/
def wrapX (Lx x : K) : K := if x > Lx then x - Lx else if x < 0 then Lx + x else x

/-- The hard-coded re-insertion (position_update.cpp:38-43), 2 or more dimensions. -/
def reinsert (x : Fin (d + 2) → K) : Fin (d + 2) → K :=
  if x 0 > 8 / 10 then Function.update (Function.update x 0 (-(1 / 10))) 1 (x 1 + 27 / 100) else x

/-- One iteration of `positionUpdate` (position_update.cpp:9-45). -/
def positionParticle (P : TransferParams K) (useMusl pbc changePos : Bool) (Lx dt : K)
    (p : Particle (d + 2) K) : Particle (d + 2) K :=
  let x := p.x + dt • p.pic
  let v := if useMusl then p.v else blendVelocity P p
  let x := if pbc then Function.update x 0 (wrapX Lx (x 0)) else x
  let x := if changePos then reinsert x else x
  { p with x := x, v := v }

end

end Verif
