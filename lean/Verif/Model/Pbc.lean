import Verif.Model.Remesh

/-!
# Model of `pbc.cpp`
-/

namespace Verif
variable {K : Type*} [Field K] [LinearOrder K] {d : ℕ}

/-- Position of the ghost created for a particle at `x`, if any (pbc.cpp:46-77). -/
def ghostPos (dx Lx : K) (sf : ℕ) (x : Fin (d + 1) → K) : Option (Fin (d + 1) → K) :=
  let diff := Lx - x 0
  if diff < sf * dx ∧ diff > 0 then some (Function.update x 0 (-diff))
  else
    let diff := x 0
    if diff < sf * dx ∧ diff ≥ 0 then some (Function.update x 0 (Lx + diff)) else none

/-- The vectors of `Particles` extended by `PBCAddParticles`, and the two counters
(data_structures.hpp:8-45; simulation.hpp `Np`, `num_add_pbc_particles`). -/
structure Soa (d : ℕ) (K : Type*) where
  x : List (Fin d → K)
  v : List (Fin d → K)
  F : List (Matrix (Fin d) (Fin d) K)
  Bmat : List (Matrix (Fin d) (Fin d) K)
  tau : List (Matrix (Fin d) (Fin d) K)
  Np : ℕ
  numAdd : ℕ

/-- One iteration of the loop of `PBCAddParticles` including its critical section (pbc.cpp:44-79).
`none`: index out of range. -/
def pbcAddOne (dx Lx : K) (sf : ℕ) (s : Soa (d + 1) K) (p : ℕ) : Option (Soa (d + 1) K) := do
  let x ← s.x[p]?
  match ghostPos dx Lx sf x with
  | none => some s
  | some y =>
    let v ← s.v[p]?
    let F ← s.F[p]?
    let B ← s.Bmat[p]?
    let t ← s.tau[p]?
    some { s with x := s.x ++ [y], v := s.v ++ [v], F := s.F ++ [F], Bmat := s.Bmat ++ [B],
                  tau := s.tau ++ [t], numAdd := s.numAdd + 1 }

/-- `PBCAddParticles` (pbc.cpp:39-81): `order` is the order in which the iterations enter the
critical section. The read of `particles.x[p]` outside the critical section races with
`push_back`; iterations are modelled as atomic. -/
def pbcAdd (dx Lx : K) (sf : ℕ) (order : List ℕ) (s : Soa (d + 1) K) : Option (Soa (d + 1) K) := do
  let s ← order.foldlM (pbcAddOne dx Lx sf) { s with numAdd := 0 }
  some { s with Np := s.x.length }

/-- Remove the last `n` elements: `v.erase(v.end()-n, v.end())`, undefined if there are fewer. -/
def eraseLast {α : Type*} (n : ℕ) (l : List α) : Option (List α) :=
  if n ≤ l.length then some (l.take (l.length - n)) else none

/-- `PBCDelParticles` (pbc.cpp:89-100). -/
def pbcDel (s : Soa d K) : Option (Soa d K) := do
  let x ← eraseLast s.numAdd s.x
  let v ← eraseLast s.numAdd s.v
  let F ← eraseLast s.numAdd s.F
  let B ← eraseLast s.numAdd s.Bmat
  let t ← eraseLast s.numAdd s.tau
  some { s with x := x, v := v, F := F, Bmat := B, tau := t, Np := x.length }

/-- `PBCAddParticles1D` (pbc.cpp:5-31; not called by `advanceStep`). -/
def pbcAdd1D (dx : K) (s : Soa (d + 1) K) : Option (Soa (d + 1) K) := do
  let s ← (List.range s.Np).foldlM (fun (s : Soa (d + 1) K) p => do
    let x ← s.x[p]?
    let v ← s.v[p]?
    let F ← s.F[p]?
    let B ← s.Bmat[p]?
    let t ← s.tau[p]?
    some { s with x := s.x ++ [Function.update x 0 (x 0 + dx), Function.update x 0 (x 0 - dx)]
                  v := s.v ++ [v, v], F := s.F ++ [F, F], Bmat := s.Bmat ++ [B, B],
                  tau := s.tau ++ [t, t], numAdd := s.numAdd + 2 }) { s with numAdd := 0 }
  some { s with Np := s.x.length }

/-- The ghosts as particle records, in the given order (same as `pbcAdd`: `C24_ghost_particles`);
only `x, v, F, Bmat, tau` of a ghost exist in the code. -/
def ghosts (dx Lx : K) (sf : ℕ) (ps : List (Particle (d + 1) K)) : List (Particle (d + 1) K) :=
  ps.filterMap fun p => (ghostPos dx Lx sf p.x).map fun y => { p with x := y }

end Verif
