import Verif.Model.Transfer
import Mathlib.Data.Fintype.BigOperators

/-!
# Small specification vocabulary used in the property theorems

Independent of how the code visits nodes and particles: only the shape functions `N`, `dNdu`
(characterised in `Props/Spline.lean`), node coordinates and sums.
-/

namespace Verif
open Matrix
variable {K : Type*} [Field K] [LinearOrder K] {d : ℕ}

/-- Equally spaced nodes. -/
def UniformAxis (dx : K) (nodes : List K) : Prop :=
  ∃ x0, nodes = (List.range nodes.length).map fun k : ℕ => x0 + k * dx

/-- The coordinate `x` is at least one cell away from both ends of the axis. -/
def InsideAxis (dx : K) (nodes : List K) (x : K) : Prop :=
  ∃ first last, nodes.head? = some first ∧ nodes.getLast? = some last ∧
    first + dx ≤ x ∧ x < last - dx

/-- A regular grid with all given particles at least one cell inside. -/
structure GoodGrid (dx : K) (g : Axes d K) (ps : List (Particle d K)) : Prop where
  dx_pos : 0 < dx
  uniform : ∀ a, UniformAxis dx (g a)
  inside : ∀ p ∈ ps, ∀ a, InsideAxis dx (g a) (p.x a)

/-- Index tuples of the nodes of the grid. -/
def IsNode (g : Axes d K) (i : Fin d → ℕ) : Prop := ∀ a, i a < (g a).length

/-- The position of node `i`. -/
def nodeAt (g : Axes d K) (i : Fin d → ℕ) : Fin d → K := fun a => (g a).getD (i a) 0

/-- Tensor-product shape function of the node at `X` evaluated at `x`. -/
def shape (deg : Deg) (dx : K) (X x : Fin d → K) : K := ∏ a, N deg ((x a - X a) / dx)

/-- Its gradient. -/
def shapeGrad (deg : Deg) (dx : K) (X x : Fin d → K) : Fin d → K := fun b =>
  ∏ a, if a = b then dNdu deg ((x a - X a) / dx) / dx else N deg ((x a - X a) / dx)

/-- No shape function of a grid node takes a tiny positive value (at most `1e-25`) at a particle;
the code drops such contributions. -/
def NoTinyWeights (deg : Deg) (dx : K) (g : Axes d K) (ps : List (Particle d K)) : Prop :=
  ∀ p ∈ ps, ∀ i, IsNode g i →
    shape deg dx (nodeAt g i) p.x = 0 ∨ 1 / 10 ^ 25 < shape deg dx (nodeAt g i) p.x

/-- The constitutive update changes neither positions, velocities nor affine matrices. -/
structure KeepsMotion (plast : Particle d K → Particle d K) : Prop where
  x : ∀ p, (plast p).x = p.x
  v : ∀ p, (plast p).v = p.v
  pic : ∀ p, (plast p).pic = p.pic
  flip : ∀ p, (plast p).flip = p.flip
  Bmat : ∀ p, (plast p).Bmat = p.Bmat

/-- The boundary treatment changes the velocity of no node: no wall touches the grid. -/
def Untouched (g : Axes d K) (bc : ℕ → (Fin d → K) → (Fin d → K) → (Fin d → K)) : Prop :=
  ∀ i, IsNode g i → ∀ v, bc (flatIndex g.size i) (nodeAt g i) v = v

/-- All index tuples of the grid. -/
def gridIndices (g : Axes d K) : Finset (Fin d → ℕ) :=
  Fintype.piFinset fun a => Finset.range (g a).length

/-- Total momentum of particles of mass `m`. -/
def momentum (m : K) (ps : List (Particle d K)) : Fin d → K := (ps.map fun p => m • p.v).sum

/-- Total angular momentum of APIC particles: the antisymmetric part of
`Σ m (v ⊗ x + B)`; entry `(1,0)` is `Σ m (v_y x - v_x y + B_yx - B_xy)`. -/
def angularMomentum (m : K) (ps : List (Particle d K)) : Matrix (Fin d) (Fin d) K :=
  let J := (ps.map fun p => m • (vecMulVec p.v p.x + p.Bmat)).sum
  J - Jᵀ

/-- Kinetic energy of particles of mass `m`. -/
def kineticEnergy (m : K) (ps : List (Particle d K)) : K := (ps.map fun p => m / 2 * (p.v ⬝ᵥ p.v)).sum

end Verif
