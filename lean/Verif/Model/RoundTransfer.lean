import Verif.Model.RoundGrid
import Verif.Model.Transfer

/-!
# Transfers of mass, velocity and friction in rounded arithmetic

`P2G` and the velocity interpolation of `G2P` of `Model/Transfer`, with every arithmetic operation followed by a rounding
`fl`. Conversions, comparisons and the constants 0.5, 0.75, 1.5, 2 are exact, other constants are rounded. The nodal forces
(p2g.cpp:68, 89) are in `Model/RoundStep`; the velocity gradient and the APIC matrix (g2p.cpp:56-62, 75-80) are left out. Fused multiply-add and other
orders of evaluation of the matrix-vector product are not modelled.
-/

namespace Verif
noncomputable section
variable {d : ℕ}

/-- `N` for SPLINEDEG 2 (tools.hpp:155-166), see `N2`. -/
def N2Fl (fl : ℝ → ℝ) (x : ℝ) : ℝ :=
  if |x| < 1 / 2 then fl (3 / 4 - fl (|x| * |x|))
  else if |x| < 3 / 2 then fl (fl (1 / 2 * fl (3 / 2 - |x|)) * fl (3 / 2 - |x|))
  else 0

/-- `N` for SPLINEDEG 3 (tools.hpp:110-121), see `N3`. -/
def N3Fl (fl : ℝ → ℝ) (x : ℝ) : ℝ :=
  if |x| < 1 then fl (fl (fl (fl (fl (1 / 2 * |x|) * |x|) * |x|) - fl (|x| * |x|)) + fl (2 / 3))
  else if |x| < 2 then fl (fl (fl (fl (1 / 6) * fl (2 - |x|)) * fl (2 - |x|)) * fl (2 - |x|))
  else 0

/-- `N` for SPLINEDEG 1 (tools.hpp:193-196), see `N1`. -/
def N1Fl (fl : ℝ → ℝ) (x : ℝ) : ℝ := max 0 (fl (1 - |x|))

/-- `N` (tools.hpp:108-217). -/
def NFl (fl : ℝ → ℝ) : Deg → ℝ → ℝ
  | .one => N1Fl fl
  | .two => N2Fl fl
  | .three => N3Fl fl

/-- `a * b * c`, evaluated from the left. -/
def prodFl (fl : ℝ → ℝ) : List ℝ → ℝ
  | [] => 1
  | w :: ws => ws.foldl (fun p w => fl (p * w)) w

/-- `a + b + c`, evaluated from the left. -/
def sumFl (fl : ℝ → ℝ) : List ℝ → ℝ
  | [] => 0
  | w :: ws => ws.foldl (fun p w => fl (p + w)) w

/-- Per-direction weights and coordinates of the nodes visited for one particle (p2g.cpp:45-57). -/
structure StFl (d : ℕ) where
  base : Fin d → ℕ
  xi : Fin d → Fin 4 → ℝ
  W : Fin d → Fin 4 → ℝ

/-- The visited nodes start at `base` (p2g.cpp:45-57; g2p.cpp:35-47); reading beyond the grid is undefined. -/
def mkStFl (fl : ℝ → ℝ) (deg : Deg) (dx : ℝ) (g : Axes d ℝ) (base : Fin d → ℕ) (xp : Fin d → ℝ) : Option (StFl d) :=
  if h : ∀ a, base a + 3 < (g a).length then
    let xi : Fin d → Fin 4 → ℝ := fun a i => (g a)[base a + i.val]'(by have := h a; omega)
    some { base := base, xi := xi, W := fun a i => NFl fl deg (argFl fl dx (xp a) (xi a i)) }
  else none

/-- The nodes visited by P2G (p2g.cpp:20-57), see `stencilP2G`. -/
def stP2GFl (fl : ℝ → ℝ) (deg : Deg) (dx : ℝ) (g : Axes d ℝ) (xp : Fin d → ℝ) : Option (StFl d) :=
  (sequenceFin fun a => (baseFl fl dx (g a) (xp a)).map Int.toNat).bind fun b => mkStFl fl deg dx g b xp

/-- The nodes visited by G2P (g2p.cpp:23-47), see `stencilG2P`. -/
def stG2PFl (fl : ℝ → ℝ) (deg : Deg) (dx : ℝ) (g : Axes d ℝ) (xp : Fin d → ℝ) : Option (StFl d) :=
  (sequenceFin fun a => (baseFl fl dx (g a) (xp a)).bind fun b => if b < 0 then none else some b.toNat).bind
    fun b => mkStFl fl deg dx g b xp

/-- `weight = wi * wj (* wk)` (p2g.cpp:59, 81). -/
def StFl.weight (fl : ℝ → ℝ) (s : StFl d) (c : Fin d → Fin 4) : ℝ := prodFl fl (List.ofFn fun a => s.W a (c a))

/-- The index tuple `(i, j(, k))`. -/
def StFl.node (s : StFl d) (c : Fin d → Fin 4) : Fin d → ℕ := fun a => s.base a + (c a).val

/-- The node position `(xi, yi(, zi))`. -/
def StFl.pos (s : StFl d) (c : Fin d → Fin 4) : Fin d → ℝ := fun a => s.xi a (c a)

/-- `Bmat * posdiffvec * apicDinverse` (p2g.cpp:70-74, 91-94). -/
def apicFl (fl : ℝ → ℝ) (dinv : ℝ) (p : Particle d ℝ) (X : Fin d → ℝ) : Fin d → ℝ := fun a =>
  fl (sumFl fl (List.ofFn fun b => fl (p.Bmat a b * fl (X b - p.x b))) * dinv)

/-- The values accumulated per node, without the force (p2g.cpp:14-17). -/
structure CellFl (d : ℕ) where
  mass : ℝ
  v : Fin d → ℝ
  friction : ℝ

/-- All zero (p2g.cpp:14-17; remesh.cpp:5-12). -/
def CellFl.zero : CellFl d := ⟨0, 0, 0⟩

/-- What one particle does to one node (p2g.cpp:66-77, 87-97): three or four `+=`. `w` is the weight, `X` the position of
the node. -/
def CellFl.hit (fl : ℝ → ℝ) (P : TransferParams ℝ) (g : CellFl d) (p : Particle d ℝ) (w : ℝ) (X : Fin d → ℝ) :
    CellFl d where
  mass := fl (g.mass + w)
  v := fun a =>
    let v1 := fl (g.v a + fl (p.v a * w))
    if P.flipRatio < 0 then fl (v1 + fl (apicFl fl P.apicDinverse p X a * w)) else v1
  friction := if P.useMibf then fl (g.friction + fl (p.muI * w)) else g.friction

/-- One iteration of the innermost loop (p2g.cpp:65-78, 86-98), see `depositAt`. -/
def depositAtFl (fl : ℝ → ℝ) (P : TransferParams ℝ) (n : Fin d → ℕ) (p : Particle d ℝ) (s : StFl d)
    (g : ℕ → CellFl d) (c : Fin d → Fin 4) : ℕ → CellFl d :=
  if s.weight fl c > fl (1 / 10 ^ 25) then
    Function.update g (flatIndex n (s.node c)) ((g (flatIndex n (s.node c))).hit fl P p (s.weight fl c) (s.pos c))
  else g

/-- The loop over one particle's nodes (p2g.cpp:45-101). -/
def depositParticleFl (fl : ℝ → ℝ) (P : TransferParams ℝ) (n : Fin d → ℕ) (g : ℕ → CellFl d)
    (ps : Particle d ℝ × StFl d) : ℕ → CellFl d :=
  (allIdx d).foldl (depositAtFl fl P n ps.1 ps.2) g

/-- One thread (p2g.cpp:14-102), see `threadLocal`. -/
def threadLocalFl (fl : ℝ → ℝ) (P : TransferParams ℝ) (n : Fin d → ℕ) (ps : List (Particle d ℝ × StFl d)) :
    ℕ → CellFl d :=
  ps.foldl (depositParticleFl fl P n) (fun _ => CellFl.zero)

/-- A thread adds its local arrays to the grid arrays (p2g.cpp:104-113). -/
def mergeThreadFl (fl : ℝ → ℝ) (P : TransferParams ℝ) (g loc : ℕ → CellFl d) : ℕ → CellFl d := fun l =>
  { mass := fl ((g l).mass + (loc l).mass)
    v := fun a => fl ((g l).v a + (loc l).v a)
    friction := if P.useMibf then fl ((g l).friction + (loc l).friction) else (g l).friction }

/-- The parallel region of P2G (p2g.cpp:12-115), see `p2gAccumulate`. -/
def p2gAccumulateFl (fl : ℝ → ℝ) (P : TransferParams ℝ) (n : Fin d → ℕ) (threads : List (List (Particle d ℝ × StFl d))) :
    ℕ → CellFl d :=
  threads.foldl (fun g t => mergeThreadFl fl P g (threadLocalFl fl P n t)) (fun _ => CellFl.zero)

/-- The normalisation and the mass scaling (p2g.cpp:121-135), see `p2gFinish`. -/
def p2gFinishFl (fl : ℝ → ℝ) (P : TransferParams ℝ) (g : ℕ → CellFl d) : ℕ → CellFl d := fun l =>
  { mass := fl ((g l).mass * P.particleMass)
    v := fun a => if (g l).mass > 0 then fl ((g l).v a / (g l).mass) else 0
    friction := if P.useMibf then fl ((g l).friction / (g l).mass) else (g l).friction }

/-- `P2G` (p2g.cpp:6-137) with a given distribution of the particles to threads. -/
def P2GFl (fl : ℝ → ℝ) (P : TransferParams ℝ) (g : Axes d ℝ) (threads : List (List (Particle d ℝ))) :
    Option (ℕ → CellFl d) := do
  let ts ← threads.mapM fun t => t.mapM fun p => (stP2GFl fl P.deg P.dx g p.x).map fun s => (p, s)
  some (p2gFinishFl fl P (p2gAccumulateFl fl P g.size ts))

/-- The interpolated velocity `vp` of G2P (g2p.cpp:24-85) of a particle at `x`; `v` is the velocity of the nodes. -/
def picFl (fl : ℝ → ℝ) (P : TransferParams ℝ) (g : Axes d ℝ) (v : ℕ → Fin d → ℝ) (x : Fin d → ℝ) :
    Option (Fin d → ℝ) :=
  (stG2PFl fl P.deg P.dx g x).map fun s a =>
    (allIdx d).foldl (fun acc c => fl (acc + fl (v (flatIndex g.size (s.node c)) a * s.weight fl c))) 0

end
end Verif
