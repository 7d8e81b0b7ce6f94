import Mathlib.Algebra.Order.Field.Basic
import Mathlib.Algebra.Order.Floor.Semiring
import Mathlib.Algebra.Order.Archimedean.Basic

/-!
# Model of `src/tools.hpp`

`typedef double T` (tools.hpp:17) is an arbitrary linearly ordered field `K`: exact arithmetic,
rounding is not modelled.
-/

namespace Verif

/-- `SPLINEDEG` (tools.hpp:108, 149, 190). -/
inductive Deg
  | one | two | three
  deriving DecidableEq, Repr

section
variable {K : Type*} [Field K] [LinearOrder K]

/-- `sgn` (tools.hpp:90-92): `(T(0) < val) - (val < T(0))`; the `int` result is used as a `T`. -/
def sgn (v : K) : K := (if 0 < v then 1 else 0) - (if v < 0 then 1 else 0)

/-- `N` for `SPLINEDEG == 3` (tools.hpp:110-121).
Simplified: the decimal literals `0.666...6`, `0.166...6` are taken as `2/3`, `1/6`. -/
def N3 (u : K) : K :=
  let uabs := |u|
  if uabs < 1 then 1 / 2 * uabs * uabs * uabs - uabs * uabs + 2 / 3
  else if uabs < 2 then 1 / 6 * (2 - uabs) * (2 - uabs) * (2 - uabs)
  else 0

/-- `dNdu` for `SPLINEDEG == 3` (tools.hpp:123-134). -/
def dN3 (u : K) : K :=
  let uabs := |u|
  if uabs < 1 then u * (3 / 2 * uabs - 2)
  else if uabs < 2 then -(1 / 2) * sgn u * (2 - uabs) * (2 - uabs)
  else 0

/-- `d2Ndu2` for `SPLINEDEG == 3` (tools.hpp:136-147). -/
def ddN3 (u : K) : K :=
  let uabs := |u|
  if uabs < 1 then 3 * uabs - 2
  else if uabs < 2 then 2 - uabs
  else 0

/-- `N` for `SPLINEDEG == 2` (tools.hpp:151-162). -/
def N2 (u : K) : K :=
  let uabs := |u|
  if uabs < 1 / 2 then 3 / 4 - uabs * uabs
  else if uabs < 3 / 2 then 1 / 2 * (3 / 2 - uabs) * (3 / 2 - uabs)
  else 0

/-- `dNdu` for `SPLINEDEG == 2` (tools.hpp:164-175). -/
def dN2 (u : K) : K :=
  let uabs := |u|
  if uabs < 1 / 2 then -2 * u
  else if uabs < 3 / 2 then u - 3 / 2 * sgn u
  else 0

/-- `d2Ndu2` for `SPLINEDEG == 2` (tools.hpp:177-188). -/
def ddN2 (u : K) : K :=
  let uabs := |u|
  if uabs < 1 / 2 then -2
  else if uabs < 3 / 2 then 1
  else 0

/-- `N` for `SPLINEDEG == 1` (tools.hpp:192-195). -/
def N1 (u : K) : K :=
  let uabs := |u|
  max 0 (1 - uabs)

/-- `dNdu` for `SPLINEDEG == 1` (tools.hpp:197-209). -/
def dN1 (u : K) : K :=
  let uabs := |u|
  if uabs < 1 then (if u > 0 then -1 else 1) else 0

/-- `N` (tools.hpp:108-217), the `#if SPLINEDEG` selection. -/
def N : Deg → K → K
  | .one => N1
  | .two => N2
  | .three => N3

/-- `dNdu` (tools.hpp:108-217), the `#if SPLINEDEG` selection. -/
def dNdu : Deg → K → K
  | .one => dN1
  | .two => dN2
  | .three => dN3

/-- `d2Ndu2` (tools.hpp:108-217), the `#if SPLINEDEG` selection; degree 1 returns 0 (211-213). -/
def d2Ndu2 : Deg → K → K
  | .one => fun _ => 0
  | .two => ddN2
  | .three => ddN3

/-- The loop of `arange` (tools.hpp:221-226) run for at most `fuel` iterations:
`none` means that the loop has not ended yet. -/
def arangeLoop : ℕ → K → K → K → Option (List K)
  | 0, value, stop, _ => if value < stop then none else some []
  | fuel + 1, value, stop, step =>
    if value < stop then (arangeLoop fuel (value + step) stop step).map (value :: ·) else some []

/-- `arange` (tools.hpp:221-226). The fuel is large enough for `step > 0`
(`arange_eq` in `Lemmas/Arange.lean`); `none` (loop does not end) otherwise. -/
def arange [FloorSemiring K] (start stop step : K) : Option (List K) :=
  arangeLoop ⌈(stop - start) / step⌉₊ start stop step

end

/-- `selfDoubleDot` (tools.hpp:94-106), sum of the squares of all entries. -/
def selfDoubleDot {K : Type*} [Field K] {d : ℕ} (A : Fin d → Fin d → K) : K :=
  ((List.finRange d).map fun i => ((List.finRange d).map fun j => A i j * A i j).sum).sum

end Verif
