import Verif.Spec
import Mathlib.Algebra.BigOperators.Finprod
import Mathlib.Data.Real.Basic

/-!
# The material point method as in a textbook

Fields over all of space (evaluated at the nodes of an infinite lattice) and sums over all particles or over all
nodes of the lattice: no grid arrays, no indices, no stencils, no threads. The boundary treatment and the constitutive
law are parameters.
-/

namespace Verif.Mpm
open Matrix

variable {d : ℕ}

/-- What one needs to know to do one step. -/
structure Scheme (d : ℕ) where
  deg : Deg
  /-- spacing of the nodes -/
  dx : ℝ
  /-- position of one node -/
  origin : Fin d → ℝ
  /-- mass and initial volume of a particle -/
  mass : ℝ
  volume : ℝ
  /-- `[0,1]`: FLIP ratio; `[-1,0)`: minus the ratio of APIC/FLIP; below: APIC -/
  ratio : ℝ
  musl : Bool
  mibf : Bool
  dt : ℝ
  gravity : Fin d → ℝ
  /-- friction coefficient (material-induced), position, velocity ↦ velocity at a wall -/
  wall : ℝ → (Fin d → ℝ) → (Fin d → ℝ) → (Fin d → ℝ)
  /-- particle with trial deformation gradient ↦ updated particle and whether the run must end -/
  law : Particle d ℝ → Option (Particle d ℝ × Bool)
  /-- what is done to the new positions (nothing, or re-insertion) -/
  place : (Fin d → ℝ) → (Fin d → ℝ)

variable (S : Scheme d)

/-- The node with number `k`. -/
def Scheme.node (k : Fin d → ℤ) : Fin d → ℝ := fun a => S.origin a + k a * S.dx

/-- A sum over all nodes. -/
noncomputable def Scheme.overNodes {M : Type*} [AddCommMonoid M] (f : (Fin d → ℝ) → M) : M := ∑ᶠ k, f (S.node k)

/-- Affine velocities are used. -/
def Scheme.apic : Prop := S.ratio < 0

/-- The inertia tensor of the APIC method is `D` times the unit tensor. -/
noncomputable def Scheme.inertia : ℝ :=
  match S.deg with
  | .three => S.dx ^ 2 / 3
  | _ => S.dx ^ 2 / 4

open Classical in
/-- The particles that act on the node at `X`: those with a weight above `1e-25`. -/
noncomputable def Scheme.near (ps : List (Particle d ℝ)) (X : Fin d → ℝ) : List (Particle d ℝ) :=
  ps.filter fun p => 1 / 10 ^ 25 < shape S.deg S.dx X p.x

/-- Mass of the node at `X`. -/
noncomputable def Scheme.nodeMass (ps : List (Particle d ℝ)) (X : Fin d → ℝ) : ℝ :=
  ((S.near ps X).map fun p => S.mass * shape S.deg S.dx X p.x).sum

open Classical in
/-- Velocity of the material of particle `p` at `X`. -/
noncomputable def Scheme.affine (p : Particle d ℝ) (X : Fin d → ℝ) : Fin d → ℝ :=
  if S.apic then p.v + (1 / S.inertia) • (p.Bmat *ᵥ (X - p.x)) else p.v

/-- Momentum of the node at `X`. -/
noncomputable def Scheme.nodeMomentum (ps : List (Particle d ℝ)) (X : Fin d → ℝ) : Fin d → ℝ :=
  ((S.near ps X).map fun p => (S.mass * shape S.deg S.dx X p.x) • S.affine p X).sum

/-- Force of the stresses on the node at `X`. -/
noncomputable def Scheme.nodeForce (ps : List (Particle d ℝ)) (X : Fin d → ℝ) : Fin d → ℝ :=
  -((S.near ps X).map fun p => S.volume • (p.tau *ᵥ shapeGrad S.deg S.dx X p.x)).sum

/-- Mean friction coefficient of the material at `X` (zero if not used). -/
noncomputable def Scheme.nodeFriction (ps : List (Particle d ℝ)) (X : Fin d → ℝ) : ℝ :=
  if S.mibf then ((S.near ps X).map fun p => S.mass * shape S.deg S.dx X p.x * p.muI).sum / S.nodeMass ps X else 0

open Classical in
/-- Velocity of the node at `X` before the step. -/
noncomputable def Scheme.before (ps : List (Particle d ℝ)) (X : Fin d → ℝ) : Fin d → ℝ :=
  if 0 < S.nodeMass ps X then (1 / S.nodeMass ps X) • S.nodeMomentum ps X else 0

open Classical in
/-- Velocity of the node at `X` after the step: accelerated by the stresses and gravity, then treated at walls. -/
noncomputable def Scheme.after (ps : List (Particle d ℝ)) (X : Fin d → ℝ) : Fin d → ℝ :=
  if 0 < S.nodeMass ps X then
    S.wall (S.nodeFriction ps X) X
      (S.before ps X + S.dt • ((1 / S.nodeMass ps X) • S.nodeForce ps X + S.gravity))
  else 0

/-- The velocity the node velocities give at `x`. -/
noncomputable def Scheme.interp (V : (Fin d → ℝ) → Fin d → ℝ) (x : Fin d → ℝ) : Fin d → ℝ :=
  S.overNodes fun X => shape S.deg S.dx X x • V X

/-- The velocity gradient the node velocities give at `x`. -/
noncomputable def Scheme.grad (V : (Fin d → ℝ) → Fin d → ℝ) (x : Fin d → ℝ) : Matrix (Fin d) (Fin d) ℝ :=
  S.overNodes fun X => vecMulVec (V X) (shapeGrad S.deg S.dx X x)

/-- The affine matrix at `x`. -/
noncomputable def Scheme.moments (V : (Fin d → ℝ) → Fin d → ℝ) (x : Fin d → ℝ) : Matrix (Fin d) (Fin d) ℝ :=
  S.overNodes fun X => shape S.deg S.dx X x • vecMulVec (V X) (X - x)

open Classical in
/-- The new velocity of a particle: a blend of the interpolated velocity (PIC) and the old one plus the interpolated
change (FLIP). -/
noncomputable def Scheme.newVelocity (ps : List (Particle d ℝ)) (p : Particle d ℝ) : Fin d → ℝ :=
  let pic := S.interp (S.after ps) p.x
  let flip := p.v + S.interp (fun X => S.after ps X - S.before ps X) p.x
  if S.ratio < -1 then pic else |S.ratio| • flip + (1 - |S.ratio|) • pic

open Classical in
/-- The new affine matrix of a particle. -/
noncomputable def Scheme.newAffine (ps : List (Particle d ℝ)) (p : Particle d ℝ) : Matrix (Fin d) (Fin d) ℝ :=
  if S.apic then S.moments (S.after ps) p.x else 0

/-- The particles with their new velocities at their old positions. -/
noncomputable def Scheme.pushed (ps : List (Particle d ℝ)) : List (Particle d ℝ) :=
  ps.map fun p => { p with v := S.newVelocity ps p, Bmat := S.newAffine ps p }

open Classical in
/-- Node velocities for the deformation: those after the step, or (MUSL) those of the new particle velocities. -/
noncomputable def Scheme.deforming (ps : List (Particle d ℝ)) (X : Fin d → ℝ) : Fin d → ℝ :=
  if S.musl then S.before (S.pushed ps) X else S.after ps X

open Classical in
/-- The particle handed to the constitutive law. The last two entries are records of the step. -/
noncomputable def Scheme.trial (ps : List (Particle d ℝ)) (p : Particle d ℝ) : Particle d ℝ :=
  { p with
    F := (1 + S.dt • S.grad (S.deforming ps) p.x) * p.F
    v := if S.musl then S.newVelocity ps p else p.v
    deltaGamma := if S.musl then 0 else p.deltaGamma
    Bmat := S.newAffine ps p
    pic := S.interp (S.after ps) p.x
    flip := if -1 ≤ S.ratio then S.interp (fun X => S.after ps X - S.before ps X) p.x else 0 }

/-- One particle after the step. -/
noncomputable def Scheme.particle (ps : List (Particle d ℝ)) (p : Particle d ℝ) : Option (Particle d ℝ × Bool) :=
  (S.law (S.trial ps p)).map fun r =>
    ({ r.1 with x := S.place (p.x + S.dt • S.interp (S.after ps) p.x), v := S.newVelocity ps p }, r.2)

/-- One step: the particles, and whether the constitutive law demands the end of the run. -/
noncomputable def Scheme.step (ps : List (Particle d ℝ)) : Option (List (Particle d ℝ) × Bool) :=
  (ps.mapM (S.particle ps)).map fun r => (r.map (·.1), r.any (·.2))

/-- Repeated steps. The scheme of a step depends on the length of the step, on gravity and on the walls; gravity depends on
time; the walls (of any kind) are moved after each step. `Evolves … dts ps walls t` says: steps of lengths `dts` lead from the
initial state to the particles `ps` and the walls `walls` at time `t`. -/
inductive Evolves {α : Type*} (scheme : ℝ → (Fin d → ℝ) → List α → Scheme d) (gravity : ℝ → Fin d → ℝ)
    (move : ℝ → ℝ → α → α) (ps0 : List (Particle d ℝ)) (walls0 : List α) :
    List ℝ → List (Particle d ℝ) → List α → ℝ → Prop
  | start : Evolves scheme gravity move ps0 walls0 [] ps0 walls0 0
  | step {dts : List ℝ} {ps ps' : List (Particle d ℝ)} {walls : List α} {t dt : ℝ}
      (h : Evolves scheme gravity move ps0 walls0 dts ps walls t)
      (hs : (scheme dt (gravity t) walls).step ps = some (ps', false)) :
      Evolves scheme gravity move ps0 walls0 (dts ++ [dt]) ps' (walls.map (move dt t)) (t + dt)

end Verif.Mpm
