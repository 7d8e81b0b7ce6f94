import Verif.Model.Tools
import Mathlib.Algebra.BigOperators.Fin
import Mathlib.Data.Fintype.Pi

/-!
# Model of `src/simulation/remesh.cpp` and of the node numbering (`simulation.hpp`)

One direction at a time: the code repeats the same text for `x`, `y`, `z`.
`none` = undefined behaviour (empty particle vector, access past the end).
-/

namespace Verif
variable {K : Type*} [Field K] [LinearOrder K]

/-- `*std::max_element(...)` of one coordinate (remesh.cpp:42-60, 187-218);
dereferencing `end()` of an empty vector is undefined. -/
def maxElem : List K → Option K
  | [] => none
  | x :: xs => some (xs.foldl max x)

/-- `*std::min_element(...)` of one coordinate (remesh.cpp:62-80, 193-224). -/
def minElem : List K → Option K
  | [] => none
  | x :: xs => some (xs.foldl min x)

/-- The values remembered per direction by `remeshFixedInit` for `remeshFixedCont`
(remesh.cpp:107-132; simulation.hpp:209-226). -/
structure AxisInit (K : Type*) where
  minInit : K
  maxInit : K
  lowInit : K
  highInit : K

/-- The optional reference point of one direction (remesh.cpp:83-105): `ref = none` when
`grid_reference_point[0] >= 1e10`. -/
def withRef (ref : Option K) (mn mx : K) : K × K :=
  match ref with
  | none => (mn, mx)
  | some r => if r < mn then (r, mx) else if r > mx then (mn, r) else (mn, mx)

/-- `remeshFixedInit` for one direction, bookkeeping part (remesh.cpp:39-132); `sf` is the
safety factor of that direction, `xs` the particle coordinates. -/
def axisInit (dx : K) (sf : ℕ) (ref : Option K) (xs : List K) : Option (AxisInit K) := do
  let mx ← maxElem xs
  let mn ← minElem xs
  let r := withRef ref mn mx
  some { minInit := r.1, maxInit := r.2, lowInit := r.1 - dx * sf, highInit := r.2 + dx * sf }

/-- `remeshFixedInit` for one direction, the node coordinates (remesh.cpp:134-138). -/
def axisInitNodes [FloorSemiring K] (dx : K) (a : AxisInit K) : Option (List K) :=
  arange a.lowInit (a.highInit + dx) dx

/-- `std::floor( std::max(0.0, diff/dx - 1e-8*dx) )` converted to `unsigned int`
(remesh.cpp:230-280). The value is non-negative, so the conversion is defined as long as it fits
in 32 bits (not modelled). -/
def cellCount [FloorSemiring K] (dx diff : K) : ℕ := ⌊max 0 (diff / dx - 1 / 10 ^ 8 * dx)⌋₊

/-- Upper end of the grid in `remeshFixedCont` (remesh.cpp:228-235, 246-253, 264-271). -/
def contHigh [FloorSemiring K] (dx : K) (a : AxisInit K) (mx : K) : K :=
  if mx < a.maxInit then a.highInit - cellCount dx (a.maxInit - mx) * dx
  else a.highInit + cellCount dx (mx - a.maxInit) * dx

/-- Lower end of the grid in `remeshFixedCont` (remesh.cpp:237-244, 255-262, 273-280). -/
def contLow [FloorSemiring K] (dx : K) (a : AxisInit K) (mn : K) : K :=
  if mn > a.minInit then a.lowInit + cellCount dx (mn - a.minInit) * dx
  else a.lowInit - cellCount dx (a.minInit - mn) * dx

/-- `remeshFixedCont` for one direction (remesh.cpp:185-287). -/
def axisContNodes [FloorSemiring K] (dx : K) (a : AxisInit K) (xs : List K) : Option (List K) := do
  let mx ← maxElem xs
  let mn ← minElem xs
  arange (contLow dx a mn) (contHigh dx a mx + dx) dx

/-- `remeshFixed` in the periodic (x, z) directions (remesh.cpp:17, 20). -/
def fixedNodesPeriodic [FloorSemiring K] (dx L : K) (extra : ℕ) : Option (List K) :=
  arange (-dx * (1 + extra)) (L + (2 + extra) * dx) dx

/-- `remeshFixed` in the y direction (remesh.cpp:18). -/
def fixedNodesY [FloorSemiring K] (dx Ly : K) (extra : ℕ) : Option (List K) :=
  arange (-dx) (Ly + (2 + extra) * dx) dx

/-! ### Node numbering -/

/-- `ind` (simulation.hpp:199-207) without 32-bit wrap-around, for any number of directions:
2D `i*Ny + j`, 3D `(i*Ny + j)*Nz + k` (see `flatIndex_two`, `flatIndex_three`). -/
def flatIndex {d : ℕ} (n i : Fin d → ℕ) : ℕ :=
  (List.finRange d).foldl (fun acc a => acc * n a + i a) 0

/-- `ind` as computed in `unsigned int` arithmetic (simulation.hpp:199-207). -/
def flatIndex32 {d : ℕ} (n i : Fin d → ℕ) : BitVec 32 :=
  (List.finRange d).foldl (fun acc a => acc * BitVec.ofNat 32 (n a) + BitVec.ofNat 32 (i a)) 0

/-- `grid_nodes` (remesh.cpp:153-155, 293-295) without 32-bit wrap-around. -/
def gridNodes {d : ℕ} (n : Fin d → ℕ) : ℕ := ((List.finRange d).map n).prod

/-- All index tuples in the order of the nested loops `for i, for j(, for k)`
(explicit_euler_update.cpp:21-24; save_data.cpp grid loop). -/
def allNodes : {d : ℕ} → (Fin d → ℕ) → List (Fin d → ℕ)
  | 0, _ => [Fin.elim0]
  | _ + 1, n => (List.range (n 0)).flatMap fun i => (allNodes (Fin.tail n)).map (Fin.cons i)

end Verif
