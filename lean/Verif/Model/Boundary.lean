import Verif.Model.Tools
import Mathlib.Analysis.Real.Sqrt
import Mathlib.Analysis.SpecialFunctions.Trigonometric.Basic
import Mathlib.Analysis.Complex.Trigonometric
import Mathlib.Analysis.SpecialFunctions.Complex.Arg
import Mathlib.Data.Matrix.Mul
import Mathlib.Data.Fin.VecNotation

/-!
# Model of `boundary_collision.cpp`, `object_plate.hpp` and the terrain objects

Over `ℝ` (square roots). An invalid value of the `enum class BC` (boundary_collision.cpp:68-72) is
not modelled.
-/

namespace Verif
open Matrix

/-- `enum class BC` (tools.hpp:57). -/
inductive BC | noSlip | slipStick | slipFree
  deriving DecidableEq

/-- `enum class PlateType` (tools.hpp:53). -/
inductive PlateType | top | bottom | left | right | front | back
  deriving DecidableEq

/-- Eigen's `norm()`. -/
noncomputable def vnorm {d : ℕ} (v : Fin d → ℝ) : ℝ := Real.sqrt (v ⬝ᵥ v)

/-- Eigen's `normalized()`: the vector itself if its squared norm is not positive. -/
noncomputable def normalized {d : ℕ} (v : Fin d → ℝ) : Fin d → ℝ :=
  if v ⬝ᵥ v > 0 then (1 / Real.sqrt (v ⬝ᵥ v)) • v else v

/-- `ObjectGeneral` (object_general.hpp:8-24). -/
structure GenObject (d : ℕ) where
  bc : BC
  friction : ℝ
  inside : (Fin d → ℝ) → Prop
  normal : (Fin d → ℝ) → (Fin d → ℝ)

/-- The treatment of the velocity `vi_orig` by one colliding object (boundary_collision.cpp:16-72);
`fric` is the friction coefficient used, `X` the displaced node position. -/
noncomputable def objectRel {d : ℕ} (bc : BC) (fric : ℝ) (n v : Fin d → ℝ) : Fin d → ℝ :=
  match bc with
  | .noSlip => 0
  | .slipFree =>
    let dot := v ⬝ᵥ n
    if dot < 0 then
      let vt := v - dot • n
      if fric > 0 then
        if -dot * fric < vnorm vt then vt + (dot * fric) • normalized vt else 0
      else vt
    else v
  | .slipStick =>
    let dot := v ⬝ᵥ n
    let vt := v - dot • n
    if dot < 0 then
      if fric > 0 then
        if -dot * fric < vnorm vt then vt + (dot * fric) • normalized vt else 0
      else vt
    else vt

/-- `ObjectPlate` (object_plate.hpp:165-199; `name` omitted). `vel` is `(vx_object, vy_object(,
vz_object))`, `velOrig` the `*_original` members. -/
structure Plate (d : ℕ) where
  pos : ℝ
  type : PlateType
  bc : BC
  friction : ℝ
  lower : ℝ
  upper : ℝ
  vel : Fin d → ℝ
  velOrig : Fin d → ℝ
  vminFactor : ℝ
  loadFactor : ℝ

/-- `ObjectPlate::inside`, 2D (object_plate.hpp:98-131). -/
def Plate.inside2 (p : Plate 2) (X : Fin 2 → ℝ) : Prop :=
  match p.type with
  | .left => X 1 < p.upper ∧ X 1 > p.lower ∧ X 0 - p.pos ≤ 0
  | .right => X 1 < p.upper ∧ X 1 > p.lower ∧ p.pos - X 0 ≤ 0
  | .bottom => X 0 < p.upper ∧ X 0 > p.lower ∧ X 1 - p.pos ≤ 0
  | .top => X 0 < p.upper ∧ X 0 > p.lower ∧ p.pos - X 1 ≤ 0
  | _ => False

/-- `ObjectPlate::inside`, 3D (object_plate.hpp:30-78). -/
def Plate.inside3 (p : Plate 3) (X : Fin 3 → ℝ) : Prop :=
  match p.type with
  | .left => X 1 < p.upper ∧ X 1 > p.lower ∧ X 0 - p.pos ≤ 0
  | .right => X 1 < p.upper ∧ X 1 > p.lower ∧ p.pos - X 0 ≤ 0
  | .bottom => X 0 < p.upper ∧ X 0 > p.lower ∧ X 1 - p.pos ≤ 0
  | .top => X 0 < p.upper ∧ X 0 > p.lower ∧ p.pos - X 1 ≤ 0
  | .back => X 2 - p.pos ≤ 0
  | .front => p.pos - X 2 ≤ 0

/-- Reduction of the tangential component `t` by friction, 2D; `n` is the normal component
(boundary_collision.cpp:286-296, repeated at 305-316, 334-344, 352-363). -/
noncomputable def slide2 (fric t n : ℝ) : ℝ :=
  if fric = 0 then t
  else if |t| < fric * |n| then 0
  else if t > 0 then t - fric * |n| else t + fric * |n|

/-- Treatment of the relative velocity by one colliding plate, 2D (boundary_collision.cpp:273-376). -/
noncomputable def plateRel2 (type : PlateType) (bc : BC) (fric : ℝ) (r : Fin 2 → ℝ) : Fin 2 → ℝ :=
  match bc with
  | .noSlip => ![0, 0]
  | .slipStick =>
    if type = .top ∨ type = .bottom then ![slide2 fric (r 0) (r 1), 0]
    else if type = .left ∨ type = .right then ![0, slide2 fric (r 1) (r 0)]
    else r
  | .slipFree =>
    if (type = .top ∧ r 1 > 0) ∨ (type = .bottom ∧ r 1 < 0) then ![slide2 fric (r 0) (r 1), 0]
    else if (type = .left ∧ r 0 < 0) ∨ (type = .right ∧ r 0 > 0) then ![0, slide2 fric (r 1) (r 0)]
    else r

/-- Reduction of the tangential components `t₁`, `t₂` by friction, 3D; the first component is
overwritten before the second is computed (boundary_collision.cpp:106-119, repeated at 128-141,
150-163, 181-194, 202-215, 223-236). For `t₁ = 0` or `t₂ = 0` the code divides by zero and multiplies
the (infinite or finite) quotient's effect by `sgn 0 = 0`; Lean's `x / 0 = 0` gives the same result. Only for
`t₁ = t₂ = 0` and a negative coefficient the code computes 0/0 = NaN where this gives 0. -/
noncomputable def slide3 (fric t₁ t₂ n : ℝ) : ℝ × ℝ :=
  let velT := Real.sqrt (t₁ * t₁ + t₂ * t₂)
  let fricVelN := fric * |n|
  if fric = 0 then (t₁, t₂)
  else if velT ≤ fricVelN then (0, 0)
  else
    let t₁' := sgn t₁ * (velT - fricVelN) / Real.sqrt (1 + t₂ * t₂ / (t₁ * t₁))
    let t₂' := sgn t₂ * (velT - fricVelN) / Real.sqrt (1 + t₁' * t₁' / (t₂ * t₂))
    (t₁', t₂')

/-- Treatment of the relative velocity by one colliding plate, 3D (boundary_collision.cpp:87-247). -/
noncomputable def plateRel3 (type : PlateType) (bc : BC) (fric : ℝ) (r : Fin 3 → ℝ) : Fin 3 → ℝ :=
  let xz := let s := slide3 fric (r 0) (r 2) (r 1); ![s.1, 0, s.2]
  let yz := let s := slide3 fric (r 1) (r 2) (r 0); ![0, s.1, s.2]
  let xy := let s := slide3 fric (r 0) (r 1) (r 2); ![s.1, s.2, 0]
  match bc with
  | .noSlip => ![0, 0, 0]
  | .slipStick =>
    if type = .top ∨ type = .bottom then xz
    else if type = .left ∨ type = .right then yz
    else if type = .front ∨ type = .back then xy
    else r
  | .slipFree =>
    if (type = .top ∧ r 1 > 0) ∨ (type = .bottom ∧ r 1 < 0) then xz
    else if (type = .left ∧ r 0 < 0) ∨ (type = .right ∧ r 0 > 0) then yz
    else if (type = .front ∧ r 2 > 0) ∨ (type = .back ∧ r 2 < 0) then xy
    else r

/-- Friction coefficient used for a wall at grid node `index` (boundary_collision.cpp:28-30 etc.). -/
def wallFriction (useMibf : Bool) (gridFriction : ℕ → ℝ) (index : ℕ) (own : ℝ) : ℝ :=
  if useMibf then gridFriction index else own

open Classical in
/-- Loop over the general objects (boundary_collision.cpp:13-79); `vi_orig = vi` throughout. -/
noncomputable def collideObjects {d : ℕ} (fr : ℝ → ℝ) (X : Fin d → ℝ) (objs : List (GenObject d))
    (v : Fin d → ℝ) : Fin d → ℝ :=
  objs.foldl (fun v o => if o.inside X then objectRel o.bc (fr o.friction) (o.normal X) v else v) v

open Classical in
/-- Loop over the plates (boundary_collision.cpp:84-261 and 267-390): `inside` and `rel` are those
of the dimension. -/
noncomputable def collidePlates {d : ℕ} (inside : Plate d → (Fin d → ℝ) → Prop)
    (rel : PlateType → BC → ℝ → (Fin d → ℝ) → (Fin d → ℝ)) (fr : ℝ → ℝ) (X : Fin d → ℝ)
    (plates : List (Plate d)) (v : Fin d → ℝ) : Fin d → ℝ :=
  plates.foldl (fun v p =>
    if inside p X then rel p.type p.bc (fr p.friction) (v - p.vel) + p.vel else v) v

/-- `boundaryCollision`, 2D. -/
noncomputable def boundaryCollision2 (useMibf : Bool) (gridFriction : ℕ → ℝ) (dt : ℝ)
    (objs : List (GenObject 2)) (plates : List (Plate 2)) (index : ℕ) (X v : Fin 2 → ℝ) :
    Fin 2 → ℝ :=
  let X := X + dt • v
  let fr := wallFriction useMibf gridFriction index
  collidePlates Plate.inside2 plateRel2 fr X plates (collideObjects fr X objs v)

/-- `boundaryCollision`, 3D. -/
noncomputable def boundaryCollision3 (useMibf : Bool) (gridFriction : ℕ → ℝ) (dt : ℝ)
    (objs : List (GenObject 3)) (plates : List (Plate 3)) (index : ℕ) (X v : Fin 3 → ℝ) :
    Fin 3 → ℝ :=
  let X := X + dt • v
  let fr := wallFriction useMibf gridFriction index
  collidePlates Plate.inside3 plateRel3 fr X plates (collideObjects fr X objs v)

/-- The velocity factor in `ObjectPlate::move` (object_plate.hpp:138). -/
noncomputable def Plate.factor {d : ℕ} (p : Plate d) (frameDt time : ℝ) : ℝ :=
  if time < p.loadFactor * frameDt then 1 / p.vminFactor else 1

/-- `ObjectPlate::move`, 2D (object_plate.hpp:136-162). -/
noncomputable def Plate.move2 (p : Plate 2) (dt frameDt time : ℝ) : Plate 2 :=
  let v : Fin 2 → ℝ := ![p.velOrig 0 * p.factor frameDt time, p.velOrig 1 * p.factor frameDt time]
  match p.type with
  | .left | .right =>
    { p with vel := v, pos := p.pos + dt * v 0, upper := p.upper + dt * v 1, lower := p.lower + dt * v 1 }
  | .bottom | .top =>
    { p with vel := v, pos := p.pos + dt * v 1, upper := p.upper + dt * v 0, lower := p.lower + dt * v 0 }
  | _ => { p with vel := v }

/-- `ObjectPlate::move`, 3D (object_plate.hpp:136-162). -/
noncomputable def Plate.move3 (p : Plate 3) (dt frameDt time : ℝ) : Plate 3 :=
  let v : Fin 3 → ℝ := ![p.velOrig 0 * p.factor frameDt time, p.velOrig 1 * p.factor frameDt time,
    p.velOrig 2 * p.factor frameDt time]
  match p.type with
  | .left | .right =>
    { p with vel := v, pos := p.pos + dt * v 0, upper := p.upper + dt * v 1, lower := p.lower + dt * v 1 }
  | .bottom | .top =>
    { p with vel := v, pos := p.pos + dt * v 1, upper := p.upper + dt * v 0, lower := p.lower + dt * v 0 }
  | .back | .front => { p with vel := v, pos := p.pos + dt * v 2 }

/-! ### terrain objects -/

/-- A vector with the first two components given and zero otherwise (`TV n = TV::Zero(); n(0) = a;
n(1) = b`). -/
def xy {d : ℕ} (a b : ℝ) : Fin (d + 2) → ℝ := fun i => if i = 0 then a else if i = 1 then b else 0

/-- `ObjectBump` (object_bump.hpp:15-44). -/
noncomputable def objectBump {d : ℕ} (bc : BC) (friction : ℝ) : GenObject (d + 2) where
  bc := bc
  friction := friction
  inside X := X 1 < 0.0475 / Real.cosh (25 * (X 0 - 0.43))
  normal X :=
    let arg := 25 * (X 0 - 0.43)
    let bDer := -25 * 0.0475 * Real.tanh arg / Real.cosh arg
    normalized (xy (-bDer) 1)

/-- `ObjectCurve` (object_curve.hpp:15-43). -/
noncomputable def objectCurve {d : ℕ} (bc : BC) (friction : ℝ) : GenObject (d + 2) where
  bc := bc
  friction := friction
  inside X := ¬ (X 1 > X 0 * X 0)
  normal X := normalized (xy (-2 * X 0) 1)

/-- `ObjectGate` (object_gate.hpp:16-46). -/
noncomputable def objectGate {d : ℕ} (height : ℝ) (bc : BC) (friction : ℝ) : GenObject (d + 2) where
  bc := bc
  friction := friction
  inside X := X 1 > height + 100 * X 0 * X 0
  normal X :=
    let bDer := 2 * 100 * X 0
    normalized ((-1 : ℝ) • xy (-bDer) 1)

/-- `ObjectGround` (object_ground.hpp:16-42). The normal is declared without initialisation; its
components other than the first two (3D) are the indeterminate values `junk`. -/
noncomputable def objectGround {d : ℕ} (yGround : ℝ) (junk : Fin (d + 2) → ℝ) (bc : BC)
    (friction : ℝ) : GenObject (d + 2) where
  bc := bc
  friction := friction
  inside X := ¬ (X 1 > yGround)
  normal _ := fun i => if i = 0 then 0 else if i = 1 then 1 else junk i

/-- `ObjectRamp` (object_ramp.hpp:15-44). -/
noncomputable def objectRamp {d : ℕ} (bc : BC) (friction : ℝ) : GenObject (d + 2) where
  bc := bc
  friction := friction
  inside X := X 1 < 0.1 * Real.tanh (-100 * X 0)
  normal X :=
    let tmp := Real.cosh (-100 * X 0)
    let bDer := 0.1 * (-100) / (tmp * tmp)
    normalized (xy (-bDer) 1)

/-- `ObjectSilo` (object_silo.hpp:17-60), 3D only: in 2D it reads a third component that does not
exist. `atan2 z x` is the argument of the complex number `x + i z`. -/
noncomputable def objectSilo (cut : ℝ) (bc : BC) (friction : ℝ) : GenObject 3 where
  bc := bc
  friction := friction
  inside X := ¬ (X 1 < cut) ∧
    ¬ (X 0 * X 0 + X 2 * X 2 < (Real.tanh (X 1) + 1) * (Real.tanh (X 1) + 1))
  normal X :=
    let theta := Complex.arg ⟨X 0, X 2⟩
    let sech := 1 / Real.cosh (X 1)
    normalized ![-Real.cos theta, sech * sech, -Real.sin theta]

end Verif
