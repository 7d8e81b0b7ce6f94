import Verif.Model.Transfer

/-!
# Model of the re-meshing functions for all directions, and of `saveGridData`
-/

namespace Verif
variable {K : Type*} [Field K] [LinearOrder K] {d : ℕ}

/-- `remeshFixedInit(2,2,2)` (remesh.cpp:39-156, call at simulation.cpp:222): the remembered values
and the grid. `ref` is `grid_reference_point` if its first component is below `1e10`
(remesh.cpp:84). -/
def remeshInit [FloorSemiring K] (dx : K) (ref : Option (Fin d → K)) (xs : List (Fin d → K)) :
    Option ((Fin d → AxisInit K) × Axes d K) := do
  let ai ← sequenceFin fun a => axisInit dx 2 (ref.map fun r => r a) (xs.map fun x => x a)
  let g ← sequenceFin fun a => axisInitNodes dx (ai a)
  some (ai, g)

/-- `remeshFixedCont` (remesh.cpp:185-302). -/
def remeshCont [FloorSemiring K] (dx : K) (ai : Fin d → AxisInit K) (xs : List (Fin d → K)) :
    Option (Axes d K) :=
  sequenceFin fun a => axisContNodes dx (ai a) (xs.map fun x => x a)

/-- `remeshFixed(extra)` (remesh.cpp:15-37): direction 1 is not periodic. `L` holds
`Lx, Ly(, Lz)`. -/
def remeshPeriodic [FloorSemiring K] (dx : K) (L : Fin d → K) (extra : ℕ) : Option (Axes d K) :=
  sequenceFin fun a => if a.val = 1 then fixedNodesY dx (L a) extra
    else fixedNodesPeriodic dx (L a) extra

/-- The loop of `saveGridData` filling `grid_x_save` (save_data.cpp:180-197): state is the counter
and the vector (as a function of the index). -/
def savedPositions (g : Axes d K) : ℕ × (ℕ → Fin d → K) :=
  (allNodes g.size).foldl
    (fun st i => (st.1 + 1, Function.update st.2 st.1 (nodePosOf g i))) (0, fun _ => 0)

/-- Row `r` of a saved grid file: position, velocity, mass (save_data.cpp:199-243). -/
def savedRow (g : Axes d K) (v : ℕ → Fin d → K) (mass : ℕ → K) (r : ℕ) :
    (Fin d → K) × (Fin d → K) × K :=
  ((savedPositions g).2 r, v r, mass r)

end Verif
