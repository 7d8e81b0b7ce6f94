import Verif.Model.Grid
import Mathlib.Data.Real.Basic
import Mathlib.Algebra.Order.Floor.Ring
import Mathlib.Data.Real.Archimedean

/-!
# Grid construction and stencils in rounded arithmetic

The functions of `Model/Grid` and the base index of `Model/Transfer`, for one direction, with every arithmetic operation
followed by a rounding `fl`. Comparisons, `floor`, `min_element`, `max_element` and conversions of small integers are
exact. Fused multiply-add is not modelled.
-/

namespace Verif
noncomputable section

/-- The loop of `arange` (tools.hpp:221-226), at most `fuel` iterations, see `arangeLoop`. -/
def arangeLoopFl (fl : ℝ → ℝ) : ℕ → ℝ → ℝ → ℝ → Option (List ℝ)
  | 0, value, stop, _ => if value < stop then none else some []
  | fuel + 1, value, stop, step =>
    if value < stop then (arangeLoopFl fl fuel (fl (value + step)) stop step).map (value :: ·) else some []

/-- `remeshFixedInit` for one direction, bookkeeping part (remesh.cpp:39-132), see `axisInit`. -/
def axisInitFl (fl : ℝ → ℝ) (dx : ℝ) (sf : ℕ) (ref : Option ℝ) (xs : List ℝ) : Option (AxisInit ℝ) := do
  let mx ← maxElem xs
  let mn ← minElem xs
  let r := withRef ref mn mx
  some { minInit := r.1, maxInit := r.2, lowInit := fl (r.1 - fl (dx * sf)), highInit := fl (r.2 + fl (dx * sf)) }

/-- `remeshFixedInit` for one direction, the node coordinates (remesh.cpp:134-138). -/
def axisInitNodesFl (fl : ℝ → ℝ) (fuel : ℕ) (dx : ℝ) (a : AxisInit ℝ) : Option (List ℝ) :=
  arangeLoopFl fl fuel a.lowInit (fl (a.highInit + dx)) dx

/-- `std::floor( std::max(0.0, (a-b)/dx - 1e-8*dx) )` (remesh.cpp:230-280), see `cellCount`. -/
def cellCountFl (fl : ℝ → ℝ) (dx a b : ℝ) : ℕ := ⌊max 0 (fl (fl (fl (a - b) / dx) - fl (fl (1 / 10 ^ 8) * dx)))⌋₊

/-- Upper end of the grid in `remeshFixedCont` (remesh.cpp:228-235), see `contHigh`. -/
def contHighFl (fl : ℝ → ℝ) (dx : ℝ) (a : AxisInit ℝ) (mx : ℝ) : ℝ :=
  if mx < a.maxInit then fl (a.highInit - fl (cellCountFl fl dx a.maxInit mx * dx))
  else fl (a.highInit + fl (cellCountFl fl dx mx a.maxInit * dx))

/-- Lower end of the grid in `remeshFixedCont` (remesh.cpp:237-244), see `contLow`. -/
def contLowFl (fl : ℝ → ℝ) (dx : ℝ) (a : AxisInit ℝ) (mn : ℝ) : ℝ :=
  if mn > a.minInit then fl (a.lowInit + fl (cellCountFl fl dx mn a.minInit * dx))
  else fl (a.lowInit - fl (cellCountFl fl dx a.minInit mn * dx))

/-- `remeshFixedCont` for one direction (remesh.cpp:185-287). -/
def axisContNodesFl (fl : ℝ → ℝ) (fuel : ℕ) (dx : ℝ) (a : AxisInit ℝ) (xs : List ℝ) : Option (List ℝ) := do
  let mx ← maxElem xs
  let mn ← minElem xs
  arangeLoopFl fl fuel (contLowFl fl dx a mn) (fl (contHighFl fl dx a mx + dx)) dx

/-- `one_over_dx` (simulation.cpp:124). -/
def oneOverFl (fl : ℝ → ℝ) (dx : ℝ) : ℝ := fl (1 / dx)

/-- `std::floor((xp(0)-grid.xc)*one_over_dx) - 1` (p2g.cpp:22, musl.cpp:37, g2p.cpp:29, deformation_update.cpp:21). -/
def baseFl (fl : ℝ → ℝ) (dx : ℝ) (nodes : List ℝ) (x : ℝ) : Option ℤ :=
  nodes.head?.map fun xc => ⌊fl (fl (x - xc) * oneOverFl fl dx)⌋ - 1

/-- The argument `(xp(0)-xi)*one_over_dx` of the shape function (p2g.cpp:47). -/
def argFl (fl : ℝ → ℝ) (dx x xi : ℝ) : ℝ := fl (fl (x - xi) * oneOverFl fl dx)

end
end Verif
