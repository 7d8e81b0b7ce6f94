import Verif.Model.Tools
import Mathlib.Analysis.Real.Sqrt
import Mathlib.Analysis.Complex.Trigonometric
import Mathlib.Analysis.SpecialFunctions.Arsinh
import Mathlib.Analysis.SpecialFunctions.Pow.Real

/-!
# Model of `plasticity_helpers/*.hpp`

Over `ℝ`. Operations whose IEEE result would be infinite or NaN (division by zero, root of a negative
number, power of a negative number) yield `none`: what the program does from there on is not modelled.

In mcc_rma_explicit.hpp:71, mcc_rma_implicit_exponential.hpp:74 and
mcc_rma_implicit_exponential_onevar.hpp:95 the code calls an unqualified `abs`; whether this is the
integer or the floating point function depends on the standard headers. It is the parameter `cabs`.
The printing of diagnostics is not modelled.
-/

namespace Verif

/-- IEEE division, `none` for a zero divisor. -/
noncomputable def fdiv (x y : ℝ) : Option ℝ := if y = 0 then none else some (x / y)

/-- `std::sqrt`, `none` for a negative argument. -/
noncomputable def fsqrt (x : ℝ) : Option ℝ := if x < 0 then none else some (Real.sqrt x)

/-- `std::pow`, `none` for a negative base or a negative power of zero. -/
noncomputable def fpow (x y : ℝ) : Option ℝ :=
  if x < 0 ∨ (x = 0 ∧ y < 0) then none else some (x ^ y)

/-- What a return mapping leaves in its reference arguments `p`, `q`, `exit`, and its return value. -/
structure Rma where
  p : ℝ
  q : ℝ
  exit : Bool
  did : Bool

/-- Clipping of `p` and computation of `q` at the end of all return mappings
(mcc_rma_explicit.hpp:88-91). -/
noncomputable def rmaFinish (M p0 beta p : ℝ) : Option (ℝ × ℝ) := do
  let p1 := max p (-beta * p0)
  let p2 := min p1 p0
  let s ← fsqrt ((p0 - p2) * (beta * p0 + p2))
  some (p2, M * s)

/-- One Newton update of `p, q, delta_gamma` with a 3x3 Jacobian whose entries `J12, J21, J33` vanish
(mcc_rma_explicit.hpp:69-84; mcc_rma_implicit_exponential.hpp:72-87); `pref` is the pressure used to
scale the fallback step. -/
noncomputable def newtonStep3 (cabs : ℝ → ℝ) (J11 J13 J22 J23 J31 J32 r1 r2 y pref p q dg : ℝ) :
    Option (ℝ × ℝ × ℝ) := do
  let det := J11 * (-J32 * J23) + J13 * (-J31 * J22)
  let r ← if cabs det < 1e-6 then do
      let s ← fdiv (0.001 * y) (pref * pref)
      some (p - 0.001 * r1, q - 0.001 * r2, dg - s)
    else do
      let a ← fdiv (-J32 * J23 * r1 + J32 * J13 * r2 - J22 * J13 * y) det
      let b ← fdiv (J31 * J23 * r1 - J31 * J13 * r2 - J11 * J23 * y) det
      let c ← fdiv (-J31 * J22 * r1 - J11 * J32 * r2 + J11 * J22 * y) det
      some (p - a, q - b, dg - c)
  some (r.1, if r.2.1 < 1e-15 then 1e-15 else r.2.1, r.2.2)

/-- The Newton loop of `MCCRMAExplicit` (mcc_rma_explicit.hpp:22-86); `n` iterations remain, `iter`
is the loop counter. Returns `p` and `q` at the end of the loop. -/
noncomputable def explicitLoop (cabs : ℝ → ℝ) (M p0 beta K f pt qt : ℝ) :
    ℕ → ℕ → ℝ → ℝ → ℝ → Option (ℝ × ℝ)
  | 0, _, p, q, _ => some (p, q)
  | n + 1, iter, p, q, dg =>
    let y := M * M * (p - p0) * (p + beta * p0) + q * q
    let k := M * M * (beta * p0 + 2 * p - p0)
    let l := 2 * q
    let r1 := pt - p - K * dg * k
    let r2 := qt - q - f * dg * l
    if 4 < iter ∧ |y| < 1e-3 ∧ |r1| < 1e-3 ∧ |r2| < 1e-3 then some (p, q)
    else if n = 0 then
      if p0 > 0.1 then some (p, q) else some (1e-15, 1e-15)
    else
      (newtonStep3 cabs (-1 - K * dg * (2 * M * M)) (-K * k) (-1 - f * dg * 2) (-f * l) k l
        r1 r2 y p0 p q dg).bind fun r => explicitLoop cabs M p0 beta K f pt qt n (iter + 1) r.1 r.2.1 r.2.2

/-- `MCCRMAExplicit` (mcc_rma_explicit.hpp:8-96); it never writes `exit`. -/
noncomputable def mccRmaExplicit (cabs : ℝ → ℝ) (p q : ℝ) (exit : Bool) (M p0 beta K f : ℝ) :
    Option Rma :=
  let y := M * M * (p - p0) * (p + beta * p0) + q * q
  if y > 0 then do
    let r ← explicitLoop cabs M p0 beta K f p q 40 0 p q 0
    let s ← rmaFinish M p0 beta r.1
    some ⟨s.1, s.2, exit, true⟩
  else some ⟨p, q, exit, false⟩

/-- The loop of `MCCRMAExplicitOnevar` (mcc_rma_explicit_onevar.hpp:39-71), with `p0 = 1`; returns
the pressure and the exit flag. -/
noncomputable def explicitOnevarLoop (M beta K mu pt qt : ℝ) :
    ℕ → ℕ → ℝ → Bool → Option (ℝ × Bool)
  | 0, _, _, exit => some (pt, exit)
  | n + 1, iter, dg, exit => do
    let Msq := M * M
    let p ← fdiv (pt - Msq * K * dg * (beta - 1) * 1) (1 + 2 * Msq * K * dg)
    let q ← fdiv qt (1 + 2 * 1 * mu * dg)
    let y := Msq * (p - 1) * (p + beta * 1) + 1 * (q * q)
    if 3 < iter ∧ y < 1e-6 then some (p, exit)
    else if n = 0 then some (p, true)
    else
      let dp ← fdiv (-2 * Msq * K * pt - Msq * K * (beta - 1) * 1)
        ((1 + 2 * Msq * K * dg) * (1 + 2 * Msq * K * dg))
      let dq ← fdiv (-2 * 1 * mu * qt) ((1 + 2 * 1 * mu * dg) * (1 + 2 * 1 * mu * dg))
      let s ← fdiv y (Msq * (2 * p * dp + (beta - 1) * 1 * dp) + 2 * 1 * q * dq)
      explicitOnevarLoop M beta K mu pt qt n (iter + 1) (dg - s) exit

/-- `MCCRMAExplicitOnevar` (mcc_rma_explicit_onevar.hpp:8-85); not called by the program. -/
noncomputable def mccRmaExplicitOnevar (p q : ℝ) (exit : Bool) (M p0 beta mu K : ℝ) : Option Rma :=
  let y := M * M * (p - p0) * (p + beta * p0) + 1 * (q * q)
  if y ≤ 0 then some ⟨p, q, exit, false⟩
  else do
    let sc ← fdiv 1 p0
    let r ← explicitOnevarLoop M beta (K * sc) (mu * sc) (p * sc) (q * sc) 100 0 0 exit
    let s ← rmaFinish M 1 beta r.1
    some ⟨s.1 * p0, s.2 * p0, r.2, true⟩

/-- The Newton loop of `MCCRMAImplicitExponential` (mcc_rma_implicit_exponential.hpp:22-89). Returns
`p` and the last `p0`. -/
noncomputable def implicitExpLoop (cabs : ℝ → ℝ) (M p00 beta K xi f epv pt qt : ℝ) :
    ℕ → ℕ → ℝ → ℝ → ℝ → ℝ → Option (ℝ × ℝ)
  | 0, _, p, _, _, p0 => some (p, p0)
  | n + 1, iter, p, q, dg, _ => do
    let dEpv ← fdiv (p - pt) K
    let p0 := p00 * Real.exp (-xi * (epv + dEpv))
    let a ← fdiv (-xi) K
    let dp0 := a * p0
    let b ← fdiv (xi * xi) (K * K)
    let ddp0 := b * p0
    let y := M * M * (p - p0) * (p + beta * p0) + q * q
    let dydp := M * M * (2 * p + (beta - 1) * (dp0 * p + p0) + 2 * beta * p0 * dp0)
    let ddydpp := M * M * (2 + (beta - 1) * (p * ddp0 + 2 * dp0) + 2 * beta * (dp0 * dp0 + p0 * ddp0))
    let dydq := 2 * q
    let r1 := pt - p - K * dg * dydp
    let r2 := qt - q - f * dg * dydq
    if 4 < iter ∧ |y| < 1e-3 ∧ |r1| < 1e-3 ∧ |r2| < 1e-3 then some (p, p0)
    else if n = 0 ∧ ¬ p0 > 1.01e-1 then some (1e-15, p0)
    else
      let r ← newtonStep3 cabs (-1 - K * dg * ddydpp) (-K * dydp) (-1 - f * dg * 2) (-f * dydq)
        dydp dydq r1 r2 y p00 p q dg
      implicitExpLoop cabs M p00 beta K xi f epv pt qt n (iter + 1) r.1 r.2.1 r.2.2 p0

/-- `MCCRMAImplicitExponential` (mcc_rma_implicit_exponential.hpp:8-99); not called by the program. -/
noncomputable def mccRmaImplicitExponential (cabs : ℝ → ℝ) (p q : ℝ) (exit : Bool)
    (M p00 beta K xi f epv : ℝ) : Option Rma :=
  let p0 := max 1e-2 (p00 * Real.exp (-xi * epv))
  let y := M * M * (p - p0) * (p + beta * p0) + q * q
  if y > 0 then do
    let r ← implicitExpLoop cabs M p00 beta K xi f epv p q 40 0 p q 0 p0
    let s ← rmaFinish M r.2 beta r.1
    some ⟨s.1, s.2, exit, true⟩
  else some ⟨p, q, exit, false⟩

/-- Result of `limited_search_*`: a new value of `epv` and of the reference argument `right`, or the
value infinity. -/
inductive SearchResult
  | found (epv : ℝ) (right : ℤ)
  | failed

/-- The loop of `limited_search_exponential` and `limited_search_sinh`
(limited_search_exponential.hpp:31-70, limited_search_sinh.hpp:32-71); `law` is the hardening law
(line 33 resp. 34). At most `fuel` passes are made; `none` = not finished after `fuel` passes. -/
noncomputable def searchLoop (law : ℝ → ℝ) (epv epvT K pT beta : ℝ) (right : ℤ) :
    ℕ → ℕ → ℝ → ℝ → ℕ → ℝ → Option SearchResult
  | 0, _, _, _, _, _ => none
  | fuel + 1, tries, scale, delta, f, last =>
    if tries < 32 then
      let test := epv - scale * delta
      let pp0 := law test
      let pp := K * (test - epvT) + pT
      let val := 2 * pp + (beta - 1) * pp0
      let mid := (pp0 - beta * pp0) * 0.5
      if |pp - mid| ≤ 1e-5 then some (.found test right)
      else if (right = 1 ∧ (pp < mid ∨ pT < mid)) ∨ (right = 0 ∧ (pp > mid ∨ pT > mid)) then
        some (.found epv (-1))
      else if sgn (epvT - test) = sgn val ∨ sgn (epvT - test) = (0 : ℝ) then some (.found test right)
      else
        let scale := scale * 0.5
        let tries := tries + 1
        if tries ≠ 32 then searchLoop law epv epvT K pT beta right fuel tries scale delta f test
        else if f + 1 > 1 then some .failed
        else searchLoop law epv epvT K pT beta right fuel 0 1 (delta * -1) (f + 1) test
    else some (.found last right)

/-- `limited_search_exponential` / `limited_search_sinh`; the variable `test_epv` is uninitialised
before the first pass (its value is never used then). -/
noncomputable def limitedSearch (law : ℝ → ℝ) (epv epvT delta K pT beta : ℝ) (right : ℤ) (fuel : ℕ) :
    Option SearchResult :=
  searchLoop law epv epvT K pT beta right fuel 0 1 delta 0 0

/-- The Newton loop of the two one-variable implicit mappings
(mcc_rma_implicit_exponential_onevar.hpp:66-151, mcc_rma_implicit_sinh_onevar.hpp:61-154) in scaled
variables. `law`/`dlaw` are the hardening law and the derivative used (lines 81, 121 resp. 76-78,
117-126), `lastExit` tells whether `exit` is set in the last iteration (100-117 resp. 97-112; only the
sinh variant does), `cabs` the function used at line 95 (sinh: `std::abs`, line 92).
The value returned: whether the mapping returned from inside the loop (lines 69-77), `p`, `p0`, `exit`. -/
noncomputable def implicitLoop (cabs law dlaw : ℝ → ℝ) (lastExit : ℝ → Bool)
    (M beta mu K pT qT epvT : ℝ) :
    ℕ → ℕ → ℝ → ℝ → ℝ → ℤ → Bool → Option (Bool × ℝ × ℝ × Bool)
  | 0, _, p, p0, _, _, exit => some (false, p, p0, exit)
  | n + 1, iter, p, p0, epv, right, exit =>
    let mid := (p0 - beta * p0) * 0.5
    if |p - mid| < 1e-4 then some (true, p, p0, exit)
    else do
      let Msq := M * M
      let p := (epv - epvT) * K + pT
      let p0 := law epv
      let denom := 2 * K * Msq * p + Msq * (beta - 1) * K * p0
      let dg ← fdiv (pT - p) denom
      let qDenom := 1 + 2 * mu * 1 * dg
      let q ← fdiv qT qDenom
      let y := Msq * (p - p0) * (p + beta * p0) + 1 * q * q
      if 5 < iter ∧ cabs y < 1e-4 then some (false, p, p0, exit)
      else
        let exit := exit || (n == 0 && lastExit p0)
        let dp0 := dlaw epv
        let a ← fdiv (-K) denom
        let b ← fdiv ((pT - p) * (2 * K * Msq * K + Msq * (beta - 1) * K * dp0)) (denom * denom)
        let ddg := a - b
        let dq ← fdiv (-qT * 2 * mu * 1 * ddg) (qDenom * qDenom)
        let dy := Msq * (K - dp0) * (p + beta * p0) + Msq * (p - p0) * (beta * dp0 + K) + 2 * 1 * q * dq
        let step ← fdiv y dy
        let s ← limitedSearch law epv epvT step K pT beta right 64
        match s with
        | .failed => some (false, p, p0, true)
        | .found e r => implicitLoop cabs law dlaw lastExit M beta mu K pT qT epvT n (iter + 1) p p0 e r exit

/-- End of the one-variable implicit mappings (mcc_rma_implicit_exponential_onevar.hpp:69-77, 153-164):
a return from inside the loop does not clip `p`. -/
noncomputable def implicitFinish (M beta p0T : ℝ) (r : Bool × ℝ × ℝ × Bool) : Option Rma :=
  if r.1 then do
    let s ← fsqrt ((r.2.2.1 - r.2.1) * (beta * r.2.2.1 + r.2.1) / 1)
    some ⟨r.2.1 * p0T, M * s * p0T, r.2.2.2, true⟩
  else do
    let s ← rmaFinish M r.2.2.1 beta r.2.1
    some ⟨s.1 * p0T, s.2 * p0T, r.2.2.2, true⟩

/-- `MCCRMAImplicitExponentialOnevar` (mcc_rma_implicit_exponential_onevar.hpp:9-165). -/
noncomputable def mccRmaImplicitExponentialOnevar (cabs : ℝ → ℝ) (p q : ℝ) (exit : Bool)
    (M p00 beta mu K xi epv : ℝ) : Option Rma :=
  let p0T := p00 * Real.exp (-xi * epv)
  let y := M * M * (p * p + (beta - 1) * p0T * p - beta * p0T * p0T) + 1 * q * q
  if y ≤ 0 then some ⟨p, q, exit, false⟩
  else do
    let sc ← fdiv 1 p0T
    let right : ℤ := if p * sc > 0.5 * (1 - beta * 1) then 1 else 0
    let r ← implicitLoop cabs (fun e => p00 * sc * Real.exp (-xi * e))
      (fun e => -xi * (p00 * sc * Real.exp (-xi * e))) (fun _ => false)
      M beta (mu * sc) (K * sc) (p * sc) (q * sc) epv 30 0 (p * sc) 1 epv right exit
    implicitFinish M beta p0T r

/-- The scaled hardening law inside `MCCRMAImplicitSinhOnevar`
(mcc_rma_implicit_sinh_onevar.hpp:50, 76-78; limited_search_sinh.hpp:34). -/
noncomputable def sinhLaw (K p00 xi p0min e : ℝ) : ℝ :=
  max p0min (K * Real.sinh (-xi * e + Real.arsinh (p00 / K)))

/-- The derivative of the hardening law used there (mcc_rma_implicit_sinh_onevar.hpp:118-126). -/
noncomputable def sinhLawDeriv (K p00 xi p0min e : ℝ) : ℝ :=
  let helper := -xi * K * Real.cosh (-xi * e + Real.arsinh (p00 / K))
  if K * Real.sinh (-xi * e + Real.arsinh (p00 / K)) > p0min then 0.5 * (helper + helper - p0min)
  else 0.5 * (helper + p0min - helper)

/-- `MCCRMAImplicitSinhOnevar` (mcc_rma_implicit_sinh_onevar.hpp:9-170); `K ≠ 0` is required by the
division `p00/K`. -/
noncomputable def mccRmaImplicitSinhOnevar (p q : ℝ) (exit : Bool)
    (M p00 beta mu K xi epv : ℝ) : Option Rma := do
  let _ ← fdiv p00 K
  let p0T := max 0.01 (K * Real.sinh (-xi * epv + Real.arsinh (p00 / K)))
  let y := M * M * (p * p + (beta - 1) * p0T * p - beta * p0T * p0T) + 1 * q * q
  if y ≤ 0 then some ⟨p, q, exit, false⟩
  else
    let sc ← fdiv 1 p0T
    let right : ℤ := if p * sc > 0.5 * (1 - beta * 1) then 1 else 0
    let r ← implicitLoop (fun x => |x|) (sinhLaw (K * sc) (p00 * sc) xi (0.01 * sc))
      (sinhLawDeriv (K * sc) (p00 * sc) xi (0.01 * sc)) (fun p0 => decide (p0 > 0.01 * sc))
      M beta (mu * sc) (K * sc) (p * sc) (q * sc) epv 40 0 (p * sc) 1 epv right exit
    implicitFinish M beta p0T r

end Verif
