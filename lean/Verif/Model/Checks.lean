import Verif.Model.Boundary
import Verif.Model.Transfer

/-!
# Model of the built-in checks and of the velocity override (simulation.cpp:287-341)

The three functions are compiled into the program; the calls of the two checks stand, commented out,
right after P2G (simulation.cpp:238-239), and the comment above the override says where to call it.
The messages printed are returned as pairs of label and number.
-/

namespace Verif
open Matrix

variable {d : ℕ}

/-- What a check prints and the value of `exit` after it. -/
structure Checked where
  printed : List (String × ℝ)
  exit : Bool

/-- `checkMassConservation` (simulation.cpp:314-329): `for(auto&& m: grid.mass)` runs over the array
of `n` nodal masses; `exit0` is the flag before. -/
noncomputable def checkMassConservation (n : ℕ) (arr : GridArr d ℝ) (mp : ℝ) (ps : List (Particle d ℝ))
    (exit0 : Bool) : Checked :=
  let partTotal := mp * ps.length
  let gridTotal := (List.range n).foldl (fun acc l => acc + (arr l).mass) 0
  { printed := [("Total grid mass", gridTotal), ("Total part mass", partTotal)]
    exit := if |gridTotal - partTotal| > 1 / 10 ^ 10 * partTotal then true else exit0 }

/-- `checkMomentumConservation` (simulation.cpp:287-312): nested loops over the nodes, loop over the
particles; the two printed labels are the wrong way round (simulation.cpp:304-305). -/
noncomputable def checkMomentumConservation (n : Fin d → ℕ) (arr : GridArr d ℝ) (mp : ℝ)
    (ps : List (Particle d ℝ)) (exit0 : Bool) : Checked :=
  let onGrid := (allNodes n).foldl (fun acc i => acc + (arr (flatIndex n i)).mass • (arr (flatIndex n i)).v) 0
  let onParts := ps.foldl (fun acc p => acc + mp • p.v) 0
  { printed := [("Total part momentum", vnorm onGrid), ("Total grid momentum", vnorm onParts)]
    exit := if vnorm (onGrid - onParts) > 1 / 10 ^ 10 * vnorm onParts then true else exit0 }

/-- `overwriteGridVelocity` (simulation.cpp:333-341): two assignments to the vertical component, the
second one after the first. `Ly`, `dx`, `time` are members of the simulation. -/
noncomputable def overwriteGridVelocity (Ly dx time : ℝ) (X v : Fin (d + 2) → ℝ) : Fin (d + 2) → ℝ :=
  let yStart := Ly - 0.25 * dx
  let width := 2 * dx
  let vImp := 0.1
  let v1 := if X 1 > yStart - width + vImp * time then Function.update v 1 vImp else v
  if X 1 < 0 + width - vImp * time then Function.update v1 1 (-vImp) else v1

end Verif
