import Verif.Model.Boundary
import Verif.Model.Sampling
import Mathlib.Algebra.BigOperators.Ring.Finset

/-!
# Model of `object_vdb.hpp`: terrain and bodies given by a level set file

OpenVDB is an external library; what is used of it is modelled here by its documented meaning: a grid holds a value for
every voxel (the background value where nothing is stored), `BoxSampler` interpolates trilinearly between the eight voxels
around a point, `Gradient` takes central differences at the active voxels and is zero elsewhere. The transform is a uniform
scaling and a translation (other linear transforms are not modelled). The values are of type `float`; rounding is not
modelled, as everywhere.
-/

namespace Verif

/-- A scalar grid of OpenVDB (object_vdb.hpp:19, 24): voxel size, position of voxel 0, values, active voxels. -/
structure VdbGrid where
  h : ℝ
  origin : Fin 3 → ℝ
  value : (Fin 3 → ℤ) → ℝ
  active : (Fin 3 → ℤ) → Prop

/-- `indexToWorld`. -/
noncomputable def VdbGrid.world (G : VdbGrid) (k : Fin 3 → ℤ) : Fin 3 → ℝ := fun a => G.origin a + G.h * k a

/-- Position in units of voxels. -/
noncomputable def VdbGrid.index (G : VdbGrid) (X : Fin 3 → ℝ) : Fin 3 → ℝ := fun a => (X a - G.origin a) / G.h

/-- Corner `b` of the cell of voxels around `c`. -/
noncomputable def cellCorner (c : Fin 3 → ℝ) (b : Fin 3 → Fin 2) : Fin 3 → ℤ := fun a => ⌊c a⌋ + (b a).val

/-- Weight of corner `b` in the trilinear interpolation at `c`. -/
noncomputable def cellWeight (c : Fin 3 → ℝ) (b : Fin 3 → Fin 2) : ℝ :=
  ∏ a, if b a = 0 then 1 - Int.fract (c a) else Int.fract (c a)

/-- `BoxSampler`: trilinear interpolation (object_vdb.hpp:53, 67). -/
noncomputable def boxSample {V : Type*} [AddCommMonoid V] [Module ℝ V] (f : (Fin 3 → ℤ) → V) (c : Fin 3 → ℝ) : V :=
  ∑ b, cellWeight c b • f (cellCorner c b)

open Classical in
/-- `Gradient` (object_vdb.hpp:42-43): central differences at active voxels. -/
noncomputable def VdbGrid.grad (G : VdbGrid) (k : Fin 3 → ℤ) : Fin 3 → ℝ :=
  if G.active k then fun a =>
    (G.value (Function.update k a (k a + 1)) - G.value (Function.update k a (k a - 1))) / (2 * G.h)
  else 0

/-- The point `X` with zeros for missing components (object_vdb.hpp:47-51, 61-65). -/
def embed3 {d : ℕ} (X : Fin d → ℝ) : Fin 3 → ℝ := fun a => if h : a.val < d then X ⟨a.val, h⟩ else 0

/-- `ObjectVdb` with its `inside` and `normal` (object_vdb.hpp:46-80); `d` is 2 or 3. -/
noncomputable def objectVdb {d : ℕ} (hd : d ≤ 3) (G : VdbGrid) (bc : BC) (friction : ℝ) : GenObject d where
  bc := bc
  friction := friction
  inside X := boxSample G.value (G.index (embed3 X)) ≤ 0
  normal X :=
    let g := boxSample G.grad (G.index (embed3 X))
    let result : Fin d → ℝ := fun a => g (Fin.castLE hd a)
    if vnorm result ≠ 0 then (1 / vnorm result) • result else 0

/-- `bounds` (object_vdb.hpp:82-94), `lo` and `hi` being the corners of the box of active voxels. -/
noncomputable def VdbGrid.bounds {d : ℕ} (hd : d ≤ 3) (G : VdbGrid) (lo hi : Fin 3 → ℤ) : (Fin d → ℝ) × (Fin d → ℝ) :=
  (fun a => G.world lo (Fin.castLE hd a), fun a => G.world hi (Fin.castLE hd a))

/-- The constructor (object_vdb.hpp:30-44): the grid of the object is the last grid of the file. An entry is `none` if it is
not a grid of scalars of type `float`; `gridPtrCast` gives a null pointer then, as does a file without grids. `none` is
undefined behaviour. -/
def vdbLoad (file : List (Option VdbGrid)) : Option VdbGrid := file.foldl (fun _ g => g) none

end Verif
