import Verif.Model.RoundTransfer

/-!
# Forces and velocities of one step in rounded arithmetic

What `Model/RoundTransfer` leaves out for the momentum of a step without walls: the nodal forces of `P2G`,
`explicitEulerUpdate` and the velocity update of `positionUpdate`, with every arithmetic operation followed by a rounding `fl`.
Multiplications by 1, -1, -2, 1/2 and the sign are exact. The nodal forces are accumulated by the same loops as the
masses, in arrays of their own; here they have functions of their own. Fused multiply-add and other orders of evaluation of
the matrix-vector product are not modelled.
-/

namespace Verif
noncomputable section
variable {d : ℕ}

/-- `dNdu` for SPLINEDEG 2 (tools.hpp:164-175), see `dN2`. -/
def dN2Fl (fl : ℝ → ℝ) (x : ℝ) : ℝ :=
  if |x| < 1 / 2 then -2 * x
  else if |x| < 3 / 2 then fl (x - 3 / 2 * sgn x)
  else 0

/-- `dNdu` for SPLINEDEG 3 (tools.hpp:123-134), see `dN3`. -/
def dN3Fl (fl : ℝ → ℝ) (x : ℝ) : ℝ :=
  if |x| < 1 then fl (x * fl (fl (3 / 2 * |x|) - 2))
  else if |x| < 2 then fl (fl (-1 / 2 * sgn x * fl (2 - |x|)) * fl (2 - |x|))
  else 0

/-- `dNdu` (tools.hpp:108-217); for SPLINEDEG 1 the derivative is 1 or -1, without arithmetic. -/
def dNFl (fl : ℝ → ℝ) : Deg → ℝ → ℝ
  | .one => dNdu .one
  | .two => dN2Fl fl
  | .three => dN3Fl fl

/-- `wi_grad = dNdu((xp(0) - xi) * one_over_dx) * one_over_dx` (p2g.cpp:48, 52, 57), for a particle at `x`. -/
def StFl.dW (fl : ℝ → ℝ) (deg : Deg) (dx : ℝ) (x : Fin d → ℝ) (s : StFl d) (a : Fin d) (k : Fin 4) : ℝ :=
  fl (dNFl fl deg (argFl fl dx (x a) (s.xi a k)) * oneOverFl fl dx)

/-- A component of `weight_grad` (p2g.cpp:60-63, 82-84), evaluated from the left. -/
def StFl.grad (fl : ℝ → ℝ) (deg : Deg) (dx : ℝ) (x : Fin d → ℝ) (s : StFl d) (c : Fin d → Fin 4) (b : Fin d) : ℝ :=
  prodFl fl (List.ofFn fun a => if a = b then s.dW fl deg dx x a (c a) else s.W a (c a))

/-- `tau * weight_grad` (p2g.cpp:68, 89). -/
def tauGradFl (fl : ℝ → ℝ) (deg : Deg) (dx : ℝ) (p : Particle d ℝ) (s : StFl d) (c : Fin d → Fin 4) (a : Fin d) : ℝ :=
  sumFl fl (List.ofFn fun b => fl (p.tau a b * s.grad fl deg dx p.x c b))

/-- `grid_force_local[ind(i,j)] += tau * weight_grad` (p2g.cpp:65-68, 86-89). -/
def forceAtFl (fl : ℝ → ℝ) (P : TransferParams ℝ) (n : Fin d → ℕ) (q : Particle d ℝ × StFl d) (f : ℕ → Fin d → ℝ)
    (c : Fin d → Fin 4) : ℕ → Fin d → ℝ :=
  if q.2.weight fl c > fl (1 / 10 ^ 25) then
    Function.update f (flatIndex n (q.2.node c)) fun a =>
      fl (f (flatIndex n (q.2.node c)) a + tauGradFl fl P.deg P.dx q.1 q.2 c a)
  else f

/-- The forces of one thread (p2g.cpp:14-102). -/
def forceLocalFl (fl : ℝ → ℝ) (P : TransferParams ℝ) (n : Fin d → ℕ) (ps : List (Particle d ℝ × StFl d)) : ℕ → Fin d → ℝ :=
  ps.foldl (fun f q => (allIdx d).foldl (forceAtFl fl P n q) f) fun _ _ => 0

/-- The forces of all threads (p2g.cpp:104-113). -/
def forceFl (fl : ℝ → ℝ) (P : TransferParams ℝ) (n : Fin d → ℕ) (threads : List (List (Particle d ℝ × StFl d))) :
    ℕ → Fin d → ℝ :=
  threads.foldl (fun f t => fun l a => fl (f l a + forceLocalFl fl P n t l a)) fun _ _ => 0

/-- The forces `grid.force` after `P2G` (p2g.cpp:6-137). -/
def P2GForceFl (fl : ℝ → ℝ) (P : TransferParams ℝ) (g : Axes d ℝ) (threads : List (List (Particle d ℝ))) :
    Option (ℕ → Fin d → ℝ) := do
  let ts ← threads.mapM fun t => t.mapM fun p => (stP2GFl fl P.deg P.dx g p.x).map fun s => (p, s)
  some (forceFl fl P g.size ts)

/-- `velocity_increment` of a node (explicit_euler_update.cpp:17-18, 32). -/
def incrementFl (fl : ℝ → ℝ) (vol dt gravity mi force : ℝ) : ℝ :=
  fl (fl (fl (-fl (dt * vol) * force) / mi) + fl (dt * gravity))

/-- `new_vi` without walls (explicit_euler_update.cpp:29-58); nodes without mass keep their velocity. -/
def eulerFl (fl : ℝ → ℝ) (P : TransferParams ℝ) (dt : ℝ) (gravity : Fin d → ℝ) (G : ℕ → CellFl d) (f : ℕ → Fin d → ℝ) :
    ℕ → Fin d → ℝ := fun l a =>
  if (G l).mass > 0 then fl ((G l).v a + incrementFl fl P.particleVolume dt (gravity a) (G l).mass (f l a)) else (G l).v a

/-- `grid.flip` (explicit_euler_update.cpp:59; zero where there is no mass, remesh.cpp:5-12). -/
def flipFl (fl : ℝ → ℝ) (G : ℕ → CellFl d) (v : ℕ → Fin d → ℝ) : ℕ → Fin d → ℝ := fun l a =>
  if (G l).mass > 0 then fl (v l a - (G l).v a) else 0

/-- The velocity update (position_update.cpp:15-22), see `blendVelocity`. -/
def blendFl (fl : ℝ → ℝ) (ratio v pic flip : ℝ) : ℝ :=
  if ratio < -1 then pic
  else if ratio < 0 then fl (fl (-ratio * fl (v + flip)) + fl (fl (1 - -ratio) * pic))
  else fl (fl (ratio * fl (v + flip)) + fl (fl (1 - ratio) * pic))

/-- The new velocity of every particle after a step without walls and without MUSL: P2G, explicitEulerUpdate, G2P,
positionUpdate (simulation.cpp: `advanceStep`). -/
def velocitiesFl (fl : ℝ → ℝ) (P : TransferParams ℝ) (dt : ℝ) (gravity : Fin d → ℝ) (g : Axes d ℝ)
    (threads : List (List (Particle d ℝ))) (ps : List (Particle d ℝ)) : Option (List (Fin d → ℝ)) := do
  let G ← P2GFl fl P g threads
  let f ← P2GForceFl fl P g threads
  let v := eulerFl fl P dt gravity G f
  ps.mapM fun p => do
    let pic ← picFl fl P g v p.x
    let flip ← picFl fl P g (flipFl fl G v) p.x
    some fun a => blendFl fl P.flipRatio (p.v a) (pic a) (flip a)

end
end Verif
