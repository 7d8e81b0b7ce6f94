import Verif.Model.Transfer
import Verif.Model.CamClay
import Mathlib.Algebra.Order.Floor.Ring
import Mathlib.Analysis.SpecialFunctions.Pow.Real
import Mathlib.Analysis.Complex.Trigonometric
import Mathlib.Data.Fin.VecNotation
import Mathlib.LinearAlgebra.Matrix.Determinant.Basic

/-!
# Particle sampling (src/sampling) and volume averages (src/simulation/save_data.cpp)

The Poisson disk sampler `thinks::PoissonDiskSampling` is an external library; its result is a parameter.
The same holds for `bounds` and `inside` of a VDB object. The debug output is not modelled.
-/

namespace Verif
open Matrix

/-- `std::cbrt`. -/
noncomputable def cbrt (x : ℝ) : ℝ := if 0 ≤ x then x ^ ((1 : ℝ) / 3) else -(-x) ^ ((1 : ℝ) / 3)

/-- The conversion `int(x)`: truncation towards zero, undefined when the result does not fit into 32
bits. -/
noncomputable def castInt (x : ℝ) : Option ℤ :=
  if -(2 ^ 31 + 1) < x ∧ x < 2 ^ 31 then some (if 0 ≤ x then ⌊x⌋ else ⌈x⌉) else none

/-- `int(L / pSpacing)` (regular_sampling_particles.hpp:31-33, 92-93). -/
noncomputable def pointCount (L h : ℝ) : Option ℤ := (fdiv L h).bind castInt

/-- What sampling writes into the simulation: `dx`, `particle_volume`, `particle_mass`, `particles` (with
`Np` its length) and the domain lengths. -/
structure Sampled (d : ℕ) where
  dx : ℝ
  volume : ℝ
  mass : ℝ
  L : Fin d → ℝ
  ps : List (Particle d ℝ)

/-- `sim.particles = Particles(sim.Np)` followed by setting the positions
(regular_sampling_particles.hpp:145-146, sampling_particles.hpp:64-69, 113-118). -/
noncomputable def mkParticles {d : ℕ} (xs : List (Fin d → ℝ)) : List (Particle d ℝ) :=
  xs.map fun x => { (Particle.init : Particle d ℝ) with x := x }

/-! ### Crop conditions -/

/-- The quadratic gate (sampling_particles.hpp:97-103, regular_sampling_particles.hpp:117-123). -/
def inGate (Lx dx : ℝ) (x : Fin 2 → ℝ) : Prop :=
  x 1 < 0.05 + 100 * (x 0 - Lx) * (x 0 - Lx) - 0.5 * dx

/-- The cylinder (sampling_particles.hpp:37, regular_sampling_particles.hpp:56). -/
def inCylinder (Lx Lz : ℝ) (x : Fin 3 → ℝ) : Prop :=
  (x 0 - Lx / 2) * (x 0 - Lx / 2) + (x 2 - Lz / 2) * (x 2 - Lz / 2) < Lx / 2 * (Lx / 2)

/-- The silo (sampling_particles.hpp:45-51, regular_sampling_particles.hpp:65-71). -/
noncomputable def inSilo (Lx Lz : ℝ) (x : Fin 3 → ℝ) : Prop :=
  (x 0 - Lx / 2) * (x 0 - Lx / 2) + (x 2 - Lz / 2) * (x 2 - Lz / 2) <
    (Real.tanh (x 1) + 1) * (Real.tanh (x 1) + 1)

open Classical in
/-- The loops copying the points that satisfy the condition. -/
noncomputable def keep {d : ℕ} (c : (Fin d → ℝ) → Prop) (xs : List (Fin d → ℝ)) : List (Fin d → ℝ) :=
  xs.foldl (fun acc x => if c x then acc ++ [x] else acc) []

/-- The crop of the two-dimensional samplers (sampling_particles.hpp:95-108,
regular_sampling_particles.hpp:115-130). -/
noncomputable def crop2 (crop : ℕ) (Lx dx : ℝ) (xs : List (Fin 2 → ℝ)) : List (Fin 2 → ℝ) :=
  if crop = 1 then keep (inGate Lx dx) xs else xs

/-- The crop of the three-dimensional samplers (sampling_particles.hpp:35-59,
regular_sampling_particles.hpp:54-80). -/
noncomputable def crop3 (crop : ℕ) (Lx Lz : ℝ) (xs : List (Fin 3 → ℝ)) : List (Fin 3 → ℝ) :=
  if crop = 1 then keep (inCylinder Lx Lz) xs
  else if crop = 2 then keep (inSilo Lx Lz) xs
  else xs

/-! ### Random sampling -/

/-- `sampleParticles` in two dimensions (sampling_particles.hpp:76-121) for the points `xs` returned by the
sampler. `T(square_samples.size())` is exact. -/
noncomputable def sample2 (rho ppc Lx Ly : ℝ) (crop : ℕ) (xs : List (Fin 2 → ℝ)) : Option (Sampled 2) := do
  let r ← fdiv ppc xs.length
  let dx ← fsqrt (r * Lx * Ly)
  let vol ← fdiv (dx * dx) ppc
  some ⟨dx, vol, rho * vol, ![Lx, Ly], mkParticles (crop2 crop Lx dx xs)⟩

/-- `sampleParticles` in three dimensions (sampling_particles.hpp:13-71). -/
noncomputable def sample3 (rho ppc Lx Ly Lz : ℝ) (crop : ℕ) (xs : List (Fin 3 → ℝ)) :
    Option (Sampled 3) := do
  let r ← fdiv ppc xs.length
  let dx := cbrt (r * Lx * Ly * Lz)
  let vol ← fdiv (dx * dx * dx) ppc
  some ⟨dx, vol, rho * vol, ![Lx, Ly, Lz], mkParticles (crop3 crop Lx Lz xs)⟩

/-- `sampleParticlesFromVdb` in two dimensions (sampling_particles_vdb.hpp:18-83): `lo`, `hi` are the
bounds of the object. -/
noncomputable def sampleVdb2 (rho ppc : ℝ) (lo hi : Fin 2 → ℝ) (inside : (Fin 2 → ℝ) → Prop)
    (xs : List (Fin 2 → ℝ)) : Option (Sampled 2) := do
  let L := hi - lo
  let r ← fdiv ppc xs.length
  let dx ← fsqrt (r * L 0 * L 1)
  let vol ← fdiv (dx * dx) ppc
  some ⟨dx, vol, rho * vol, ![L 0, L 1], mkParticles (keep inside xs)⟩

/-- `sampleParticlesFromVdb` in three dimensions (sampling_particles_vdb.hpp:18-83). -/
noncomputable def sampleVdb3 (rho ppc : ℝ) (lo hi : Fin 3 → ℝ) (inside : (Fin 3 → ℝ) → Prop)
    (xs : List (Fin 3 → ℝ)) : Option (Sampled 3) := do
  let L := hi - lo
  let r ← fdiv ppc xs.length
  let dx := cbrt (r * L 0 * L 1 * L 2)
  let vol ← fdiv (dx * dx * dx) ppc
  some ⟨dx, vol, rho * vol, ![L 0, L 1, L 2], mkParticles (keep inside xs)⟩

/-! ### Regular sampling -/

/-- The loops over `i`, `j` (regular_sampling_particles.hpp:97-106). The counters run over the naturals; a
negative number of points gives an empty loop. -/
noncomputable def points2 (nx ny : ℤ) (h : ℝ) (lo : Fin 2 → ℝ) : List (Fin 2 → ℝ) :=
  (List.range nx.toNat).flatMap fun (i : ℕ) => (List.range ny.toNat).map fun (j : ℕ) =>
    ![lo 0 + ((i : ℝ) + 0.5) * h, lo 1 + ((j : ℝ) + 0.5) * h]

/-- The loops over `i`, `j`, `k` (regular_sampling_particles.hpp:38-48). -/
noncomputable def points3 (nx ny nz : ℤ) (h : ℝ) (lo : Fin 3 → ℝ) : List (Fin 3 → ℝ) :=
  (List.range nx.toNat).flatMap fun (i : ℕ) => (List.range ny.toNat).flatMap fun (j : ℕ) =>
    (List.range nz.toNat).map fun (k : ℕ) =>
      ![lo 0 + ((i : ℝ) + 0.5) * h, lo 1 + ((j : ℝ) + 0.5) * h, lo 2 + ((k : ℝ) + 0.5) * h]

/-- `regularSampleParticles` in two dimensions (regular_sampling_particles.hpp:82-146). -/
noncomputable def regular2 (rho dx ppc Lx Ly : ℝ) (crop : ℕ) : Option (Sampled 2) := do
  let r ← fsqrt ppc
  let h ← fdiv dx r
  let nx ← pointCount Lx h
  let ny ← pointCount Ly h
  let vol := h * h
  some ⟨dx, vol, rho * vol, ![Lx, Ly], mkParticles (crop2 crop Lx dx (points2 nx ny h 0))⟩

/-- `regularSampleParticles` in three dimensions (regular_sampling_particles.hpp:18-80, 139-146). -/
noncomputable def regular3 (rho dx ppc Lx Ly Lz : ℝ) (crop : ℕ) : Option (Sampled 3) := do
  let h ← fdiv dx (cbrt ppc)
  let nx ← pointCount Lx h
  let ny ← pointCount Ly h
  let nz ← pointCount Lz h
  let vol := h * h * h
  some ⟨dx, vol, rho * vol, ![Lx, Ly, Lz], mkParticles (crop3 crop Lx Lz (points3 nx ny nz h 0))⟩

/-- `regularSampleParticlesFromVdb` in two dimensions (regular_sampling_particles_vdb.hpp:17-95). -/
noncomputable def regularVdb2 (rho dx ppc : ℝ) (lo hi : Fin 2 → ℝ) (inside : (Fin 2 → ℝ) → Prop) :
    Option (Sampled 2) := do
  let L := hi - lo
  let r ← fsqrt ppc
  let h ← fdiv dx r
  let nx ← pointCount (L 0) h
  let ny ← pointCount (L 1) h
  let vol := h * h
  some ⟨dx, vol, rho * vol, ![L 0, L 1], mkParticles (keep inside (points2 nx ny h lo))⟩

/-- `regularSampleParticlesFromVdb` in three dimensions (regular_sampling_particles_vdb.hpp:17-95). -/
noncomputable def regularVdb3 (rho dx ppc : ℝ) (lo hi : Fin 3 → ℝ) (inside : (Fin 3 → ℝ) → Prop) :
    Option (Sampled 3) := do
  let L := hi - lo
  let h ← fdiv dx (cbrt ppc)
  let nx ← pointCount (L 0) h
  let ny ← pointCount (L 1) h
  let nz ← pointCount (L 2) h
  let vol := h * h * h
  some ⟨dx, vol, rho * vol, ![L 0, L 1, L 2], mkParticles (keep inside (points3 nx ny nz h lo))⟩

/-! ### Averages -/

/-- The sums collected by the loop of `computeAvgData`. -/
structure AvgSum (d : ℕ) where
  cauchy : Matrix (Fin d) (Fin d) ℝ
  kirchh : Matrix (Fin d) (Fin d) ℝ
  J : ℝ

/-- One iteration (save_data.cpp:270-289). -/
noncomputable def AvgSum.add {d : ℕ} (a : AvgSum d) (q : Particle d ℝ) : AvgSum d :=
  let J := Matrix.det q.F * Real.exp q.epsPlVol
  ⟨a.cauchy + q.tau, a.kirchh + J • q.tau, a.J + J⟩

/-- `computeAvgData` (save_data.cpp:263-295); undefined for a vanishing total volume or no particles. -/
noncomputable def computeAvg {d : ℕ} (ps : List (Particle d ℝ)) :
    Option (Matrix (Fin d) (Fin d) ℝ × Matrix (Fin d) (Fin d) ℝ × ℝ) :=
  let s := ps.foldl AvgSum.add ⟨0, 0, 0⟩
  if s.J = 0 ∨ ps.length = 0 then none
  else some (s.J⁻¹ • s.cauchy, s.J⁻¹ • s.kirchh, s.J / ps.length)

end Verif
