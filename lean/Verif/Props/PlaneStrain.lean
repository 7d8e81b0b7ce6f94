import Verif.Props.Patch
import Verif.Props.Seam

set_option linter.unusedSectionVars false
set_option linter.unusedSimpArgs false
set_option linter.unusedVariables false

/-!
# C122: a simulation in 2D is a slice of one in 3D
-/

namespace Verif.Props
open Verif Matrix

/-- A vector of the plane with a third component. -/
def up (v : Fin 2 → ℝ) (z : ℝ) : Fin 3 → ℝ := ![v 0, v 1, z]

/-- A matrix of the plane, extended by one diagonal element. -/
def upM (A : Matrix (Fin 2) (Fin 2) ℝ) (t : ℝ) : Matrix (Fin 3) (Fin 3) ℝ :=
  !![A 0 0, A 0 1, 0; A 1 0, A 1 1, 0; 0, 0, t]

/-- Spec: the particle `q` in space is the particle `p` of the plane at the height `z`: same position, velocity,
deformation, stress in the plane, no motion and no strain across it. `t` is the stress across the plane. -/
structure Slice (t : ℝ) (p : Particle 2 ℝ) (z : ℝ) (q : Particle 3 ℝ) : Prop where
  x : q.x = up p.x z
  v : q.v = up p.v 0
  Bmat : q.Bmat = upM p.Bmat 0
  F : q.F = upM p.F 1
  tau : q.tau = upM p.tau t
  epsPlDev : q.epsPlDev = p.epsPlDev
  epsPlVol : q.epsPlVol = p.epsPlVol
  epsPlVolPradhana : q.epsPlVolPradhana = p.epsPlVolPradhana
  deltaGamma : q.deltaGamma = p.deltaGamma
  viscosity : q.viscosity = p.viscosity
  muI : q.muI = p.muI

/-- Spec: closer than `r` to the height `z0` the particles in space are layers of the particles `ps` of the plane, `k`
layers per cell. The particle `p` at the height `z` is `lay z p`. -/
structure Layered (dx : ℝ) (k : ℕ) (r z0 : ℝ) (zs : List ℝ) (t : Particle 2 ℝ → ℝ) (lay : ℝ → Particle 2 ℝ → Particle 3 ℝ)
    (ps : List (Particle 2 ℝ)) (ps3 : List (Particle 3 ℝ)) : Prop where
  lattice : LatticeNear (dx / k) r (fun _ : Fin 1 => z0) (zs.map fun z _ => z)
  slice : ∀ z ∈ zs, ∀ p ∈ ps, Slice (t p) p z (lay z p)
  near : (ps3.filter fun q => |q.x 2 - z0| < r).Perm ((zs.flatMap fun z => ps.map (lay z)).filter fun q => |q.x 2 - z0| < r)

/-! ### sums over layers -/

lemma up_add (v w : Fin 2 → ℝ) (a b : ℝ) : up v a + up w b = up (v + w) (a + b) := by
  funext i; fin_cases i <;> simp [up]

lemma up_sub (v w : Fin 2 → ℝ) (a b : ℝ) : up v a - up w b = up (v - w) (a - b) := by
  funext i; fin_cases i <;> simp [up]

lemma up_smul (c : ℝ) (v : Fin 2 → ℝ) (a : ℝ) : c • up v a = up (c • v) (c * a) := by
  funext i; fin_cases i <;> simp [up]

lemma up_zero : up 0 0 = 0 := by
  funext i; fin_cases i <;> simp [up]

lemma upM_mulVec (A : Matrix (Fin 2) (Fin 2) ℝ) (t : ℝ) (v : Fin 2 → ℝ) (a : ℝ) :
    upM A t *ᵥ up v a = up (A *ᵥ v) (t * a) := by
  funext i; fin_cases i <;> simp [up, upM, mulVec, dotProduct, Fin.sum_univ_three, Fin.sum_univ_two]

lemma upM_mul (A B : Matrix (Fin 2) (Fin 2) ℝ) (s t : ℝ) : upM A s * upM B t = upM (A * B) (s * t) := by
  ext i j; fin_cases i <;> fin_cases j <;> simp [upM, Matrix.mul_apply, Fin.sum_univ_three, Fin.sum_univ_two]

lemma upM_add (A B : Matrix (Fin 2) (Fin 2) ℝ) (s t : ℝ) : upM A s + upM B t = upM (A + B) (s + t) := by
  ext i j; fin_cases i <;> fin_cases j <;> simp [upM]

lemma upM_smul (c : ℝ) (A : Matrix (Fin 2) (Fin 2) ℝ) (t : ℝ) : c • upM A t = upM (c • A) (c * t) := by
  ext i j; fin_cases i <;> fin_cases j <;> simp [upM]

lemma upM_zero : upM 0 0 = 0 := by
  ext i j; fin_cases i <;> fin_cases j <;> simp [upM]

lemma upM_one : upM 1 1 = 1 := by
  ext i j; fin_cases i <;> fin_cases j <;> simp [upM]

lemma upM_transpose (A : Matrix (Fin 2) (Fin 2) ℝ) (t : ℝ) : (upM A t)ᵀ = upM Aᵀ t := by
  ext i j; fin_cases i <;> fin_cases j <;> simp [upM]

lemma upM_det (A : Matrix (Fin 2) (Fin 2) ℝ) (t : ℝ) : (upM A t).det = A.det * t := by
  rw [Matrix.det_fin_three, Matrix.det_fin_two]
  simp [upM]
  ring

lemma upM_diagonal (v : Fin 2 → ℝ) (t : ℝ) : upM (diagonal v) t = diagonal (up v t) := by
  ext i j; fin_cases i <;> fin_cases j <;> simp [upM, up, diagonal]

lemma sum_up_fin {ι : Type*} (s : Finset ι) (f : ι → Fin 2 → ℝ) (g : ι → ℝ) :
    ∑ i ∈ s, up (f i) (g i) = up (∑ i ∈ s, f i) (∑ i ∈ s, g i) := by
  classical
  induction s using Finset.induction_on with
  | empty => simp [up_zero]
  | insert a s ha ih => rw [Finset.sum_insert ha, Finset.sum_insert ha, Finset.sum_insert ha, ih, up_add]

lemma sum_up_list {ι : Type*} (l : List ι) (f : ι → Fin 2 → ℝ) (g : ι → ℝ) :
    (l.map fun i => up (f i) (g i)).sum = up (l.map f).sum (l.map g).sum := by
  induction l with
  | nil => simp [up_zero]
  | cons a l ih => simp only [List.map_cons, List.sum_cons, ih, up_add]

lemma list_smul_sum {M : Type*} [AddCommMonoid M] [Module ℝ M] {ι : Type*} (l : List ι) (c : ℝ) (f : ι → M) :
    (l.map fun i => c • f i).sum = c • (l.map f).sum := by
  induction l with
  | nil => simp
  | cons a l ih => simp only [List.map_cons, List.sum_cons, ih, smul_add]

lemma list_sum_smul {M : Type*} [AddCommMonoid M] [Module ℝ M] {ι : Type*} (l : List ι) (c : ι → ℝ) (f : M) :
    (l.map fun i => c i • f).sum = (l.map c).sum • f := by
  induction l with
  | nil => simp
  | cons a l ih => simp only [List.map_cons, List.sum_cons, ih, add_smul]

lemma sum_upM_fin {ι : Type*} (s : Finset ι) (f : ι → Matrix (Fin 2) (Fin 2) ℝ) :
    ∑ i ∈ s, upM (f i) 0 = upM (∑ i ∈ s, f i) 0 := by
  classical
  induction s using Finset.induction_on with
  | empty => simp [upM_zero]
  | insert a s ha ih => rw [Finset.sum_insert ha, Finset.sum_insert ha, ih, upM_add, add_zero]

section layers
variable {deg : Deg} {dx : ℝ} {k : ℕ} {r z0 : ℝ} {zs : List ℝ} {t : Particle 2 ℝ → ℝ} {lay : ℝ → Particle 2 ℝ → Particle 3 ℝ}
  {ps : List (Particle 2 ℝ)} {ps3 : List (Particle 3 ℝ)}

/-- A sum over the particles in space of something that vanishes far from the layers. -/
lemma Layered.sum {M : Type*} [AddCommMonoid M] (h : Layered dx k r z0 zs t lay ps ps3) {f : Particle 3 ℝ → M}
    (hf : ∀ q, ¬ |q.x 2 - z0| < r → f q = 0) :
    (ps3.map f).sum = (zs.map fun z => (ps.map fun p => f (lay z p)).sum).sum := by
  rw [← filter_sum (q := fun q : Particle 3 ℝ => |q.x 2 - z0| < r) (l := ps3) fun q _ hq => hf q hq, (h.near.map f).sum_eq,
    filter_sum (q := fun q : Particle 3 ℝ => |q.x 2 - z0| < r) (l := zs.flatMap fun z => ps.map (lay z)) fun q _ hq => hf q hq]
  clear h
  induction zs with
  | nil => rfl
  | cons z zs ih =>
    rw [List.flatMap_cons, List.map_append, List.sum_append, ih, List.map_cons, List.sum_cons, List.map_map]
    rfl

lemma Layered.mem (h : Layered dx k r z0 zs t lay ps ps3) {z : ℝ} (hz : z ∈ zs) {p : Particle 2 ℝ} (hp : p ∈ ps)
    (hr : |z - z0| < r) : lay z p ∈ ps3 := by
  have : lay z p ∈ (zs.flatMap fun z => ps.map (lay z)).filter fun q => |q.x 2 - z0| < r := by
    rw [List.mem_filter]
    refine ⟨List.mem_flatMap.mpr ⟨z, hz, List.mem_map.mpr ⟨p, hp, rfl⟩⟩, ?_⟩
    rw [(h.slice z hz p hp).x]
    exact decide_eq_true hr
  exact (List.mem_filter.mp (h.near.mem_iff.mpr this)).1

/-- The weights of a height added up over the layers. -/
lemma Layered.weights (h : Layered dx k r z0 zs t lay ps ps3) (hd : deg ≠ .one) (hdx : 0 < dx) (hk : 0 < k) {Z : ℝ}
    (hZ : |Z - z0| + width deg / 2 * dx ≤ r) :
    (zs.map fun z => N deg ((z - Z) / dx)).sum = k ∧ (zs.map fun z => dNdu deg ((z - Z) / dx) / dx).sum = 0 := by
  have hl : LatticeNear (dx / k) (width deg / 2 * dx) (fun _ : Fin 1 => Z) (zs.map fun z _ => z) :=
    h.lattice.mono fun _ => hZ
  have h1 := regular_shape hdx hk hl
  have h2 := congrFun (regular_shapeGrad hd hdx hk hl) 0
  rw [List.map_map] at h1
  constructor
  · simpa [shape, Function.comp_def] using h1
  · have e := map_list_sum (Pi.evalAddMonoidHom (fun _ : Fin 1 => ℝ) 0)
      ((zs.map fun z (_ : Fin 1) => z).map fun y => shapeGrad deg dx (fun _ : Fin 1 => Z) y)
    have h3 := e.symm.trans h2
    rw [List.map_map, List.map_map] at h3
    simpa [shapeGrad, Function.comp_def] using h3

lemma shape_up (X x : Fin 2 → ℝ) (Z z : ℝ) :
    shape deg dx (up X Z) (up x z) = shape deg dx X x * N deg ((z - Z) / dx) := by
  simp [shape, Fin.prod_univ_three, Fin.prod_univ_two, up]

lemma shapeGrad_up (X x : Fin 2 → ℝ) (Z z : ℝ) :
    shapeGrad deg dx (up X Z) (up x z) =
      up (N deg ((z - Z) / dx) • shapeGrad deg dx X x) (dNdu deg ((z - Z) / dx) / dx * shape deg dx X x) := by
  funext i
  fin_cases i <;> simp [shapeGrad, shape, Fin.prod_univ_three, Fin.prod_univ_two, up] <;> ring

end layers

/-! ### grid -/

/-- The nodal values without the cut-off. -/
lemma nodal {d : ℕ} {deg : Deg} {dx fr m vol : ℝ} {g : Axes d ℝ} {ps : List (Particle d ℝ)} (h : GoodGrid dx g ps)
    (hn : NoTinyWeights deg dx g ps) {i : Fin d → ℕ} (hi : IsNode g i) :
    let P := mkTransferParams deg dx fr false m vol
    let X := nodeAt g i
    let c := p2gFinish P (raw P deg dx g ps) (flatIndex g.size i)
    c.mass = m * (ps.map fun p => shape deg dx X p.x).sum ∧
    c.force = (ps.map fun p => p.tau *ᵥ shapeGrad deg dx X p.x).sum ∧
    (ps.map fun p => shape deg dx X p.x).sum • c.v =
      (ps.map fun p => shape deg dx X p.x • (p.v + if fr < 0 then P.apicDinverse • (p.Bmat *ᵥ (X - p.x)) else 0)).sum := by
  intro P X c
  have hfl : [ps].flatten = ps := by simp
  obtain ⟨arr, ha, hC⟩ := C54_p2g_nodes (deg := deg) (fr := fr) (m := m) (vol := vol) (mibf := false) (threads := [ps])
    (by rw [hfl]; exact h)
  have hP := P2G_eq (P := P) (deg := deg) (dx := dx) (g := g) (ts := [ps]) rfl rfl (by rw [hfl]; exact h)
  rw [hP, hfl] at ha
  obtain rfl := Option.some.inj ha
  obtain ⟨h1, h2, h3, -⟩ := hC i hi
  rw [hfl] at h1 h2 h3
  have hcut : ∀ p ∈ ps, ¬ (1 / 10 ^ 25 < shape deg dx X p.x) → shape deg dx X p.x = 0 :=
    fun p hp h0 => (hn p hp i hi).resolve_right h0
  rw [filter_sum hcut] at h1 h3
  rw [filter_sum fun p hp h0 => by rw [shapeGrad_zero (hcut p hp h0), mulVec_zero]] at h2
  rw [filter_sum fun p hp h0 => by rw [hcut p hp h0, zero_smul]] at h3
  exact ⟨h1, h2, h3⟩

section step
variable {S2 : StepParams (0 + 2) ℝ} {S3 : StepParams (1 + 2) ℝ} {deg : Deg} {dx fr m2 vol2 m3 vol3 dt : ℝ} {k : ℕ} {r z0 : ℝ}
  {zs : List ℝ} {t : Particle 2 ℝ → ℝ} {lay : ℝ → Particle 2 ℝ → Particle 3 ℝ} {ps : List (Particle 2 ℝ)}
  {ps3 : List (Particle 3 ℝ)} {g2 : Axes 2 ℝ} {g3 : Axes 3 ℝ} {grav : Fin 2 → ℝ}
  {bc2 : ℕ → (Fin 2 → ℝ) → (Fin 2 → ℝ) → (Fin 2 → ℝ)} {bc3 : ℕ → (Fin 3 → ℝ) → (Fin 3 → ℝ) → (Fin 3 → ℝ)}

/-- Spec: the grid in space continues the grid of the plane. -/
def GridOver (g2 : Axes 2 ℝ) (g3 : Axes 3 ℝ) : Prop := g3 0 = g2 0 ∧ g3 1 = g2 1

/-- Spec: the walls in space are the walls of the plane, extended at right angles to it. -/
def WallsOver (g2 : Axes 2 ℝ) (g3 : Axes 3 ℝ) (bc2 : ℕ → (Fin 2 → ℝ) → (Fin 2 → ℝ) → (Fin 2 → ℝ))
    (bc3 : ℕ → (Fin 3 → ℝ) → (Fin 3 → ℝ) → (Fin 3 → ℝ)) : Prop :=
  ∀ i i3, IsNode g2 i → IsNode g3 i3 → i3 0 = i 0 → i3 1 = i 1 →
    ∀ v, bc3 (flatIndex g3.size i3) (nodeAt g3 i3) (up v 0) = up (bc2 (flatIndex g2.size i) (nodeAt g2 i) v) 0

lemma nodeAt_over (hg : GridOver g2 g3) {i : Fin 2 → ℕ} {i3 : Fin 3 → ℕ} (h0 : i3 0 = i 0) (h1 : i3 1 = i 1) :
    nodeAt g3 i3 = up (nodeAt g2 i) (nodeAt g3 i3 2) := by
  funext a
  fin_cases a
  · show (g3 0).getD (i3 0) 0 = (g2 0).getD (i 0) 0
    rw [hg.1, h0]
  · show (g3 1).getD (i3 1) 0 = (g2 1).getD (i 1) 0
    rw [hg.2, h1]
  · rfl

/-- The velocity of a node in space, inside the layers. -/
lemma euler_over (hS2 : S2.P = mkTransferParams deg dx fr false m2 vol2) (hS3 : S3.P = mkTransferParams deg dx fr false m3 vol3)
    (hd : deg ≠ .one) (hm2 : 0 < m2) (hm3 : 0 < m3) (hrho : m3 * vol2 = m2 * vol3) (hk : 0 < k)
    (hlay : Layered dx k r z0 zs t lay ps ps3) (hg : GridOver g2 g3) (hw : WallsOver g2 g3 bc2 bc3)
    (hg2 : GoodGrid dx g2 ps) (hg3 : GoodGrid dx g3 ps3) (hn2 : NoTinyWeights deg dx g2 ps) (hn3 : NoTinyWeights deg dx g3 ps3)
    {i : Fin 2 → ℕ} {i3 : Fin 3 → ℕ} (hi : IsNode g2 i) (hi3 : IsNode g3 i3) (h0 : i3 0 = i 0) (h1 : i3 1 = i 1)
    (hZ : |nodeAt g3 i3 2 - z0| + width deg / 2 * dx ≤ r) {p : Particle 2 ℝ} (hp : p ∈ ps)
    (hne : shape deg dx (nodeAt g2 i) p.x ≠ 0) :
    (stepEuler (d := 1) S3 deg dx dt (up grav 0) bc3 g3 ps3).v (flatIndex g3.size i3) =
      up ((stepEuler (d := 0) S2 deg dx dt grav bc2 g2 ps).v (flatIndex g2.size i)) 0 ∧
    (stepEuler (d := 1) S3 deg dx dt (up grav 0) bc3 g3 ps3).flip (flatIndex g3.size i3) =
      up ((stepEuler (d := 0) S2 deg dx dt grav bc2 g2 ps).flip (flatIndex g2.size i)) 0 := by
  have hdx := hg2.dx_pos
  set Z := nodeAt g3 i3 2 with hZdef
  set X := nodeAt g2 i with hX
  have hX3 : nodeAt g3 i3 = up X Z := nodeAt_over hg h0 h1
  obtain ⟨hw1, hw2⟩ := hlay.weights hd hdx hk hZ
  obtain ⟨a1, a2, a3⟩ := nodal (fr := fr) (m := m2) (vol := vol2) hg2 hn2 hi
  obtain ⟨b1, b2, b3⟩ := nodal (fr := fr) (m := m3) (vol := vol3) hg3 hn3 hi3
  rw [← hX] at a1 a2 a3
  rw [hX3] at b1 b2 b3
  set A := (ps.map fun p => shape deg dx X p.x).sum with hA
  have hApos : 0 < A := by
    have hnn : ∀ x ∈ ps.map fun p => shape deg dx X p.x, 0 ≤ x := by
      intro x hx
      obtain ⟨q, -, rfl⟩ := List.mem_map.mp hx
      exact Finset.prod_nonneg fun a _ => N_nonneg _ _
    have h2 := List.single_le_sum hnn _ (List.mem_map.mpr ⟨p, hp, rfl⟩)
    have h3 : 0 ≤ shape deg dx X p.x := Finset.prod_nonneg fun a _ => N_nonneg _ _
    exact lt_of_lt_of_le (lt_of_le_of_ne h3 (Ne.symm hne)) h2
  have hkpos : (0 : ℝ) < k := by exact_mod_cast hk
  -- far away particles do not matter
  have hfar : ∀ q : Particle 3 ℝ, ¬ |q.x 2 - z0| < r → shape deg dx (up X Z) q.x = 0 := by
    intro q hq
    by_contra hq0
    have := shape_near hdx hq0 2
    refine hq ?_
    have e : up X Z 2 = Z := rfl
    rw [e] at this
    have := abs_add_le (q.x 2 - Z) (Z - z0)
    rw [show q.x 2 - Z + (Z - z0) = q.x 2 - z0 by ring] at this
    linarith
  have hmass : (ps3.map fun q => shape deg dx (up X Z) q.x).sum = k * A := by
    rw [hlay.sum hfar, ← hw1]
    have : ∀ z ∈ zs, (ps.map fun p => shape deg dx (up X Z) (lay z p).x).sum = N deg ((z - Z) / dx) • A := by
      intro z hz
      rw [hA, ← list_smul_sum]
      congr 1
      refine List.map_congr_left fun p hp => ?_
      rw [(hlay.slice z hz p hp).x, shape_up, smul_eq_mul, mul_comm]
    rw [List.map_congr_left this, list_sum_smul, smul_eq_mul]
  have hforce : (ps3.map fun q => q.tau *ᵥ shapeGrad deg dx (up X Z) q.x).sum =
      up ((k : ℝ) • (ps.map fun p => p.tau *ᵥ shapeGrad deg dx X p.x).sum) 0 := by
    rw [hlay.sum fun q hq => by rw [shapeGrad_zero (hfar q hq), mulVec_zero]]
    have : ∀ z ∈ zs, (ps.map fun p => (lay z p).tau *ᵥ shapeGrad deg dx (up X Z) (lay z p).x).sum =
        up (N deg ((z - Z) / dx) • (ps.map fun p => p.tau *ᵥ shapeGrad deg dx X p.x).sum)
          ((dNdu deg ((z - Z) / dx) / dx) • (ps.map fun p => t p * shape deg dx X p.x).sum) := by
      intro z hz
      rw [← list_smul_sum, ← list_smul_sum, ← sum_up_list]
      congr 1
      refine List.map_congr_left fun p hp => ?_
      rw [(hlay.slice z hz p hp).x, (hlay.slice z hz p hp).tau, shapeGrad_up, upM_mulVec, mulVec_smul, smul_eq_mul]
      congr 1
      ring
    rw [List.map_congr_left this, sum_up_list, list_sum_smul, list_sum_smul, hw1, hw2, zero_smul]
  have hmom : (ps3.map fun q => shape deg dx (up X Z) q.x • (q.v + if fr < 0 then
        (mkTransferParams deg dx fr false m3 vol3).apicDinverse • (q.Bmat *ᵥ (up X Z - q.x)) else 0)).sum =
      up ((k : ℝ) • (ps.map fun p => shape deg dx X p.x • (p.v + if fr < 0 then
        (mkTransferParams deg dx fr false m2 vol2).apicDinverse • (p.Bmat *ᵥ (X - p.x)) else 0)).sum) 0 := by
    rw [hlay.sum fun q hq => by rw [hfar q hq, zero_smul]]
    have : ∀ z ∈ zs, (ps.map fun p => shape deg dx (up X Z) (lay z p).x • ((lay z p).v + if fr < 0 then
        (mkTransferParams deg dx fr false m3 vol3).apicDinverse • ((lay z p).Bmat *ᵥ (up X Z - (lay z p).x)) else 0)).sum =
        up (N deg ((z - Z) / dx) • (ps.map fun p => shape deg dx X p.x • (p.v + if fr < 0 then
        (mkTransferParams deg dx fr false m2 vol2).apicDinverse • (p.Bmat *ᵥ (X - p.x)) else 0)).sum)
          (N deg ((z - Z) / dx) • (ps.map fun p => (0 : ℝ)).sum) := by
      intro z hz
      rw [← list_smul_sum, ← list_smul_sum, ← sum_up_list]
      congr 1
      refine List.map_congr_left fun p hp => ?_
      have e : (mkTransferParams deg dx fr false m3 vol3).apicDinverse = (mkTransferParams deg dx fr false m2 vol2).apicDinverse := rfl
      rw [(hlay.slice z hz p hp).x, (hlay.slice z hz p hp).v, (hlay.slice z hz p hp).Bmat, shape_up, up_sub, upM_mulVec, e, zero_mul,
        up_smul, mul_zero]
      split_ifs
      · rw [up_add, up_smul, smul_smul, mul_comm]; simp
      · rw [add_zero, add_zero, up_smul, smul_smul, mul_comm]; simp
    rw [List.map_congr_left this, sum_up_list, list_sum_smul, list_sum_smul, hw1]
    simp
  -- cells
  set P2 := mkTransferParams deg dx fr false m2 vol2 with hP2
  set P3 := mkTransferParams deg dx fr false m3 vol3 with hP3
  set c2 := p2gFinish P2 (raw P2 deg dx g2 ps) (flatIndex g2.size i) with hc2
  set c3 := p2gFinish P3 (raw P3 deg dx g3 ps3) (flatIndex g3.size i3) with hc3
  have hv : c3.v = up c2.v 0 := by
    have h := b3
    rw [hmass, hmom, ← a3] at h
    have hka : (k : ℝ) * A ≠ 0 := (mul_pos hkpos hApos).ne'
    refine smul_right_injective _ hka ?_
    show ((k : ℝ) * A) • c3.v = ((k : ℝ) * A) • up c2.v 0
    rw [h, up_smul, smul_smul, mul_zero]
  have hM2 : 0 < c2.mass := by rw [a1]; positivity
  have hM3 : 0 < c3.mass := by rw [b1, hmass]; positivity
  have hinc : incrAt P3 dt (up grav 0) c3 = up (incrAt P2 dt grav c2) 0 := by
    have hPv2 : P2.particleVolume = vol2 := rfl
    have hPv3 : P3.particleVolume = vol3 := rfl
    rw [incrAt, incrAt, b1, hmass, b2, hforce, ← a2, a1, hPv2, hPv3, up_smul, up_smul, up_add, smul_smul]
    have : -(dt * vol3) / (m3 * (k * A)) * k = -(dt * vol2) / (m2 * A) := by
      rw [div_mul_eq_mul_div, div_eq_div_iff (by positivity) (by positivity)]
      linear_combination dt * k * A * hrho
    rw [this]
    simp
  have he2 := eulerUpdate_at P2 dt grav bc2 g2 (p2gFinish P2 (raw P2 deg dx g2 ps)) hi
  have he3 := eulerUpdate_at P3 dt (up grav 0) bc3 g3 (p2gFinish P3 (raw P3 deg dx g3 ps3)) hi3
  simp only [← hc2, ← hc3, if_pos hM2, if_pos hM3, hinc, hv, up_add, add_zero, hw i i3 hi hi3 h0 h1] at he2 he3
  simp only [stepEuler, hS2, hS3, ← hP2, ← hP3]
  refine ⟨he3.1.trans (by rw [he2.1]), he3.2.trans ?_⟩
  rw [he2.2, up_sub, sub_zero]

/-- The points of a stencil in space, layer by layer. -/
lemma sum_over {M : Type*} [AddCommMonoid M] (f : (Fin 3 → Fin 4) → M) :
    ∑ c, f c = ∑ c : Fin 2 → Fin 4, ∑ j, f ![c 0, c 1, j] := by
  rw [← Fintype.sum_prod_type' (f := fun (c : Fin 2 → Fin 4) j => f ![c 0, c 1, j])]
  refine Fintype.sum_equiv
    { toFun := fun c => (![c 0, c 1], c 2)
      invFun := fun p => ![p.1 0, p.1 1, p.2]
      left_inv := fun c => by funext a; fin_cases a <;> rfl
      right_inv := fun p => by
        refine Prod.ext ?_ rfl
        funext a; fin_cases a <;> rfl } _ _ fun c => ?_
  congr 1
  funext a; fin_cases a <;> rfl

/-- The stencil of a particle in space. -/
lemma stencil_over (hg : GridOver g2 g3) {x : Fin 2 → ℝ} {z : ℝ} {s : Stencil 2 ℝ} {s3 : Stencil 3 ℝ}
    (h : GoodAt deg dx g2 x s) (h3 : GoodAt deg dx g3 (up x z) s3) (c : Fin 2 → Fin 4) (j : Fin 4) :
    s3.node ![c 0, c 1, j] 0 = s.node c 0 ∧ s3.node ![c 0, c 1, j] 1 = s.node c 1 ∧
    s3.weight ![c 0, c 1, j] = s.weight c * s3.W 2 j ∧
    s3.weightGrad ![c 0, c 1, j] = up (s3.W 2 j • s.weightGrad c) (s.weight c * s3.G 2 j) ∧
    s3.nodePos ![c 0, c 1, j] - up x z = up (s.nodePos c - x) (s3.xi 2 j - z) := by
  have b0 : s3.base 0 = s.base 0 := by
    have h1 := h.base 0
    have h2 := h3.base 0
    rw [hg.1] at h2
    exact_mod_cast Option.some.inj (h2.symm.trans h1)
  have b1 : s3.base 1 = s.base 1 := by
    have h1 := h.base 1
    have h2 := h3.base 1
    rw [hg.2] at h2
    exact_mod_cast Option.some.inj (h2.symm.trans h1)
  have x0 : ∀ i, s3.xi 0 i = s.xi 0 i := by
    intro i
    obtain ⟨k1, e1, -⟩ := h.xi 0 i
    obtain ⟨k2, e2, -⟩ := h3.xi 0 i
    rw [e1, e2]
    simp only [hg.1, b0]
  have x1 : ∀ i, s3.xi 1 i = s.xi 1 i := by
    intro i
    obtain ⟨k1, e1, -⟩ := h.xi 1 i
    obtain ⟨k2, e2, -⟩ := h3.xi 1 i
    rw [e1, e2]
    simp only [hg.2, b1]
  have w0 : ∀ i, s3.W 0 i = s.W 0 i ∧ s3.G 0 i = s.G 0 i := by
    intro i
    obtain ⟨-, -, e1, f1⟩ := h.xi 0 i
    obtain ⟨-, -, e2, f2⟩ := h3.xi 0 i
    rw [e1, e2, f1, f2, x0]
    exact ⟨rfl, rfl⟩
  have w1 : ∀ i, s3.W 1 i = s.W 1 i ∧ s3.G 1 i = s.G 1 i := by
    intro i
    obtain ⟨-, -, e1, f1⟩ := h.xi 1 i
    obtain ⟨-, -, e2, f2⟩ := h3.xi 1 i
    rw [e1, e2, f1, f2, x1]
    exact ⟨rfl, rfl⟩
  refine ⟨?_, ?_, ?_, ?_, ?_⟩
  · show s3.base 0 + _ = s.base 0 + _
    rw [b0]; rfl
  · show s3.base 1 + _ = s.base 1 + _
    rw [b1]; rfl
  · simp [Stencil.weight, Fin.prod_univ_three, Fin.prod_univ_two, w0, w1]
  · funext a
    fin_cases a <;> simp [Stencil.weightGrad, Stencil.weight, Fin.prod_univ_three, Fin.prod_univ_two, w0, w1, up] <;> ring
  · funext a
    fin_cases a <;> simp [Stencil.nodePos, x0, x1, up]

/-- What a particle inside the layers gets from the grid. -/
lemma handed_over (hS2 : S2.P = mkTransferParams deg dx fr false m2 vol2) (hS3 : S3.P = mkTransferParams deg dx fr false m3 vol3)
    (hd : deg ≠ .one) (hm2 : 0 < m2) (hm3 : 0 < m3) (hrho : m3 * vol2 = m2 * vol3) (hk : 0 < k)
    (hlay : Layered dx k r z0 zs t lay ps ps3) (hg : GridOver g2 g3) (hw : WallsOver g2 g3 bc2 bc3)
    (hg2 : GoodGrid dx g2 ps) (hg3 : GoodGrid dx g3 ps3) (hn2 : NoTinyWeights deg dx g2 ps) (hn3 : NoTinyWeights deg dx g3 ps3)
    {p : Particle 2 ℝ} (hp : p ∈ ps) {z : ℝ} (hz : z ∈ zs) (hr : |z - z0| + width deg * dx ≤ r) :
    let q2 := handed (d := 0) S2 deg dx dt grav bc2 g2 ps p
    let q3 := handed (d := 1) S3 deg dx dt (up grav 0) bc3 g3 ps3 (lay z p)
    Slice (t p) q2 z q3 ∧ q3.pic = up q2.pic 0 ∧ q3.flip = up q2.flip 0 := by
  intro q2 q3
  have hdx := hg2.dx_pos
  have hwid : 0 < width deg * dx := mul_pos (by cases deg <;> norm_num [width]) hdx
  have hmem : lay z p ∈ ps3 := hlay.mem hz hp (by linarith)
  have hsl := hlay.slice z hz p hp
  have hgood2 := hg2.good (deg := deg) hp
  have hgood3 := hg3.good (deg := deg) hmem
  rw [hsl.x] at hgood3
  set s := stencilOf deg dx g2 p.x with hs
  set s3 := stencilOf deg dx g3 (up p.x z) with hs3
  set e2 := stepEuler (d := 0) S2 deg dx dt grav bc2 g2 ps with he2
  set e3 := stepEuler (d := 1) S3 deg dx dt (up grav 0) bc3 g3 ps3 with he3
  have hst := stencil_over hg hgood2 hgood3
  have hnode : ∀ c j, s3.weight ![c 0, c 1, j] ≠ 0 →
      e3.v (flatIndex g3.size (s3.node ![c 0, c 1, j])) = up (e2.v (flatIndex g2.size (s.node c))) 0 ∧
      e3.flip (flatIndex g3.size (s3.node ![c 0, c 1, j])) = up (e2.flip (flatIndex g2.size (s.node c))) 0 := by
    intro c j hne
    obtain ⟨n0, n1, hwt, -, -⟩ := hst c j
    have hi3 := hgood3.ok.node_lt ![c 0, c 1, j]
    refine euler_over hS2 hS3 hd hm2 hm3 hrho hk hlay hg hw hg2 hg3 hn2 hn3 (hgood2.ok.node_lt c) hi3 n0 n1 ?_ hp ?_
    · have h1 := hne
      rw [hgood3.weight, hgood3.pos] at h1
      have h2 := shape_near hdx h1 2
      have e : up p.x z 2 = z := rfl
      rw [e] at h2
      have h3 := abs_add_le (nodeAt g3 (s3.node ![c 0, c 1, j]) 2 - z) (z - z0)
      rw [show nodeAt g3 (s3.node ![c 0, c 1, j]) 2 - z + (z - z0) = nodeAt g3 (s3.node ![c 0, c 1, j]) 2 - z0 by ring,
        abs_sub_comm _ z] at h3
      linarith
    · rw [← hgood2.pos, ← hgood2.weight]
      intro h0
      exact hne (by rw [hwt, h0, zero_mul])
  have hW := hgood3.ok.sumW 2
  have hM := hgood3.ok.mom1 2
  have hG : ∑ j, s3.G 2 j = 0 := by
    cases hdeg : deg with
    | one => exact absurd hdeg hd
    | two => exact (hgood3.grad2 hdeg).sumG 2
    | three => exact (hgood3.grad3 hdeg).sumG 2
  have ez : up p.x z 2 = z := rfl
  rw [ez] at hM
  have hinterp : ∀ (v3 : ℕ → Fin 3 → ℝ) (v2 : ℕ → Fin 2 → ℝ), (∀ c j, s3.weight ![c 0, c 1, j] ≠ 0 →
      v3 (flatIndex g3.size (s3.node ![c 0, c 1, j])) = up (v2 (flatIndex g2.size (s.node c))) 0) →
      interpV g3.size v3 s3 = up (interpV g2.size v2 s) 0 := by
    intro v3 v2 hv
    rw [interpV_eq, interpV_eq, sum_over]
    have : ∀ c j, s3.weight ![c 0, c 1, j] • v3 (flatIndex g3.size (s3.node ![c 0, c 1, j])) =
        s3.W 2 j • up (s.weight c • v2 (flatIndex g2.size (s.node c))) 0 := by
      intro c j
      by_cases h0 : s3.weight ![c 0, c 1, j] = 0
      · have h1 := h0
        rw [(hst c j).2.2.1] at h1
        rw [h0, zero_smul, up_smul, smul_smul, mul_comm, h1, zero_smul, mul_zero, up_zero]
      · rw [hv c j h0, (hst c j).2.2.1, up_smul, up_smul, smul_smul, mul_comm, mul_zero, mul_zero]
    simp only [this, ← Finset.sum_smul, hW, one_smul]
    rw [sum_up_fin]
    simp
  have hpic := hinterp e3.v e2.v fun c j h => (hnode c j h).1
  have hflip := hinterp e3.flip e2.flip fun c j h => (hnode c j h).2
  have hvm : ∀ (v : Fin 2 → ℝ) (w : Fin 2 → ℝ) (a : ℝ), vecMulVec (up v 0) (up w a) =
      upM (vecMulVec v w) 0 + a • vecMulVec (up v 0) (up 0 1) := by
    intro v w a
    ext i j; fin_cases i <;> fin_cases j <;> simp [up, upM, vecMulVec_apply] <;> ring
  have hB : interpB g3.size e3.v s3 (up p.x z) = upM (interpB g2.size e2.v s p.x) 0 := by
    rw [interpB_eq, interpB_eq, sum_over]
    have : ∀ c j, s3.weight ![c 0, c 1, j] • vecMulVec (e3.v (flatIndex g3.size (s3.node ![c 0, c 1, j])))
        (s3.nodePos ![c 0, c 1, j] - up p.x z) =
        s3.W 2 j • upM (s.weight c • vecMulVec (e2.v (flatIndex g2.size (s.node c))) (s.nodePos c - p.x)) 0 +
          (s3.W 2 j * (s3.xi 2 j - z)) • s.weight c • vecMulVec (up (e2.v (flatIndex g2.size (s.node c))) 0) (up 0 1) := by
      intro c j
      obtain ⟨-, -, hwt, -, hpos⟩ := hst c j
      have e : s3.weight ![c 0, c 1, j] • vecMulVec (e3.v (flatIndex g3.size (s3.node ![c 0, c 1, j])))
          (s3.nodePos ![c 0, c 1, j] - up p.x z) = s3.weight ![c 0, c 1, j] •
            vecMulVec (up (e2.v (flatIndex g2.size (s.node c))) 0) (s3.nodePos ![c 0, c 1, j] - up p.x z) := by
        by_cases h0 : s3.weight ![c 0, c 1, j] = 0
        · rw [h0, zero_smul, zero_smul]
        · rw [(hnode c j h0).1]
      rw [e, hwt, hpos, hvm, smul_add, upM_smul, upM_smul, smul_smul, smul_smul, smul_smul, mul_zero, mul_zero]
      congr 2
      · rw [mul_comm]
      · ring
    simp only [this, Finset.sum_add_distrib, ← Finset.sum_smul, hW, hM, one_smul, zero_smul, Finset.sum_const_zero, add_zero]
    exact sum_upM_fin _ _
  have hgr : interpGrad g3.size e3.v s3 = upM (interpGrad g2.size e2.v s) 0 := by
    rw [interpGrad_eq, interpGrad_eq, sum_over]
    have : ∀ c j, vecMulVec (e3.v (flatIndex g3.size (s3.node ![c 0, c 1, j]))) (s3.weightGrad ![c 0, c 1, j]) =
        s3.W 2 j • upM (vecMulVec (e2.v (flatIndex g2.size (s.node c))) (s.weightGrad c)) 0 +
          s3.G 2 j • s.weight c • vecMulVec (up (e2.v (flatIndex g2.size (s.node c))) 0) (up 0 1) := by
      intro c j
      obtain ⟨-, -, hwt, hwg, -⟩ := hst c j
      have e : vecMulVec (e3.v (flatIndex g3.size (s3.node ![c 0, c 1, j]))) (s3.weightGrad ![c 0, c 1, j]) =
          vecMulVec (up (e2.v (flatIndex g2.size (s.node c))) 0) (s3.weightGrad ![c 0, c 1, j]) := by
        by_cases h0 : s3.weight ![c 0, c 1, j] = 0
        · have h1 : s3.weightGrad ![c 0, c 1, j] = 0 := by
            rw [hgood3.wgrad]
            refine shapeGrad_zero ?_
            rw [← hgood3.weight, h0]
          rw [h1, vecMulVec_zero, vecMulVec_zero]
        · rw [(hnode c j h0).1]
      rw [e, hwg, hvm, vecMulVec_smul, upM_smul, mul_zero, smul_smul, mul_comm (s3.G 2 j)]
    simp only [this, Finset.sum_add_distrib, ← Finset.sum_smul, hW, hG, one_smul, zero_smul, Finset.sum_const_zero, add_zero]
    exact sum_upM_fin _ _
  have hPf : S3.P.flipRatio = S2.P.flipRatio := by rw [hS2, hS3]; rfl
  have hx3 : (lay z p).x = up p.x z := hsl.x
  refine ⟨⟨?_, ?_, ?_, ?_, ?_, hsl.epsPlDev, hsl.epsPlVol, hsl.epsPlVolPradhana, hsl.deltaGamma, hsl.viscosity, hsl.muI⟩, ?_, ?_⟩
  · exact hsl.x
  · exact hsl.v
  · show (if S3.P.flipRatio < 0 then interpB g3.size e3.v (stencilOf deg dx g3 (lay z p).x) (lay z p).x else 0) =
      upM (if S2.P.flipRatio < 0 then interpB g2.size e2.v s p.x else 0) 0
    rw [hx3, hPf]
    split_ifs
    · exact hB
    · exact upM_zero.symm
  · show trialF dt (interpGrad g3.size e3.v (stencilOf deg dx g3 (lay z p).x)) (lay z p).F =
      upM (trialF dt (interpGrad g2.size e2.v s) p.F) 1
    rw [hx3, hgr, hsl.F, trialF, trialF, upM_mul, upM_smul, upM_add]
    simp
  · exact hsl.tau
  · show interpV g3.size e3.v (stencilOf deg dx g3 (lay z p).x) = _
    rw [hx3]
    exact hpic
  · show (if S3.P.flipRatio ≥ -1 then interpV g3.size e3.flip (stencilOf deg dx g3 (lay z p).x) else 0) =
      up (if S2.P.flipRatio ≥ -1 then interpV g2.size e2.flip s else 0) 0
    rw [hx3, hPf]
    split_ifs
    · exact hflip
    · exact up_zero.symm

/-- **C122** One step of a simulation in 2D is one step of a simulation in 3D, seen in a slice: if near the height `z0` the
particles in space are layers of those of the plane (`k` layers per cell, all moving in the plane and alike), the
density is the same, and walls and gravity do not depend on the third direction, then after the step the particles
of every layer that is at least `width` cells (3 for quadratic, 4 for cubic splines) from where the layers end are again
those of the plane. For every constitutive law for which the plane is a slice of space (see `C122_elastic`). -/
theorem C122_step {plast2 : Particle 2 ℝ → Particle 2 ℝ} {plast3 : Particle 3 ℝ → Particle 3 ℝ}
    {threads2 : List (List (Particle 2 ℝ))} {threads3 : List (List (Particle 3 ℝ))}
    (hS2 : S2.P = mkTransferParams deg dx fr false m2 vol2) (hS3 : S3.P = mkTransferParams deg dx fr false m3 vol3)
    (hmusl2 : S2.useMusl = false) (hmusl3 : S3.useMusl = false) (hpbc2 : S2.pbc = false) (hpbc3 : S3.pbc = false)
    (hcp2 : S2.changePos = false) (hcp3 : S3.changePos = false)
    (hd : deg ≠ .one) (hm2 : 0 < m2) (hm3 : 0 < m3) (hrho : m3 * vol2 = m2 * vol3) (hk : 0 < k)
    (hlay : Layered dx k r z0 zs t lay ps ps3) (hg : GridOver g2 g3) (hw : WallsOver g2 g3 bc2 bc3)
    (hg2 : GoodGrid dx g2 ps) (hg3 : GoodGrid dx g3 ps3) (hn2 : NoTinyWeights deg dx g2 ps) (hn3 : NoTinyWeights deg dx g3 ps3)
    (ht2 : threads2.flatten.Perm ps) (ht3 : threads3.flatten.Perm ps3)
    (hk2 : KeepsMotion plast2) (hk3 : KeepsMotion plast3)
    (hplast : ∀ t p z q, Slice t p z q → ∃ t', Slice t' (plast2 p) z (plast3 q)) :
    ∃ f2 f3, stepOnGrid (d := 0) S2 dt grav bc2 plast2 g2 [] threads2 ps = some (ps.map f2) ∧
      stepOnGrid (d := 1) S3 dt (up grav 0) bc3 plast3 g3 [] threads3 ps3 = some (ps3.map f3) ∧
      ∀ p ∈ ps, ∀ z ∈ zs, |z - z0| + width deg * dx ≤ r → lay z p ∈ ps3 ∧ ∃ t', Slice t' (f2 p) z (f3 (lay z p)) := by
  refine ⟨_, _, stepOnGrid_plain (d := 0) (deg := deg) (dx := dx) (by rw [hS2]; rfl) (by rw [hS2]; rfl) (by rw [hS2]; rfl) hmusl2 hg2 hg2 ht2,
    stepOnGrid_plain (d := 1) (deg := deg) (dx := dx) (by rw [hS3]; rfl) (by rw [hS3]; rfl) (by rw [hS3]; rfl) hmusl3 hg3 hg3 ht3, ?_⟩
  intro p hp z hz hr
  have hwid : 0 < width deg * dx := mul_pos (by cases deg <;> norm_num [width]) hg2.dx_pos
  refine ⟨hlay.mem hz hp (by linarith), ?_⟩
  obtain ⟨h1, h2, h3⟩ := handed_over (dt := dt) (grav := grav) hS2 hS3 hd hm2 hm3 hrho hk hlay hg hw hg2 hg3 hn2 hn3 hp hz hr
  obtain ⟨t', h4⟩ := hplast _ _ _ _ h1
  set a := handed (d := 0) S2 deg dx dt grav bc2 g2 ps p with ha
  set b := handed (d := 1) S3 deg dx dt (up grav 0) bc3 g3 ps3 (lay z p) with hb
  have ea : g2pParticle S2.P false dt plast2 g2.size (stepEuler (d := 0) S2 deg dx dt grav bc2 g2 ps)
      (p, stencilOf deg dx g2 p.x) = plast2 a := by
    simp only [g2pParticle, Bool.false_eq_true, if_false]
    rfl
  have eb : g2pParticle S3.P false dt plast3 g3.size (stepEuler (d := 1) S3 deg dx dt (up grav 0) bc3 g3 ps3)
      (lay z p, stencilOf deg dx g3 (lay z p).x) = plast3 b := by
    simp only [g2pParticle, Bool.false_eq_true, if_false]
    rfl
  refine ⟨t', ?_⟩
  simp only [ea, eb]
  have hPf : S3.P.flipRatio = S2.P.flipRatio := by rw [hS2, hS3]; rfl
  refine ⟨?_, ?_, h4.Bmat, h4.F, h4.tau, h4.epsPlDev, h4.epsPlVol, h4.epsPlVolPradhana, h4.deltaGamma, h4.viscosity, h4.muI⟩
  · simp only [positionParticle, hpbc2, hpbc3, hcp2, hcp3, Bool.false_eq_true, if_false]
    rw [h4.x, hk2.pic, hk3.pic, h2, up_smul, up_add]
    simp
  · simp only [positionParticle, Bool.false_eq_true, if_false, blendVelocity, hPf]
    rw [h4.v, hk2.pic, hk3.pic, hk2.flip, hk3.flip, h2, h3]
    split_ifs
    · rfl
    · rw [up_add, up_smul, up_smul, up_add]; simp
    · rw [up_add, up_smul, up_smul, up_add]; simp

end step
/-! ### elasticity -/

section elastic
variable {d : ℕ}

/-- A function of the singular values, carried by the left singular vectors, does not depend on the decomposition. -/
lemma svd_fun {F : Matrix (Fin d) (Fin d) ℝ} {s s' : Svd d} (h : IsSvd F s) (h' : IsSvd F s') (f : ℝ → ℝ) :
    s.U * diagonal (fun i => f (s.sig i)) * s.Uᵀ = s'.U * diagonal (fun i => f (s'.sig i)) * s'.Uᵀ := by
  have oU : s.Uᵀ * s.U = 1 := mul_eq_one_comm.mp h.orthU
  have oV : s.Vᵀ * s.V = 1 := mul_eq_one_comm.mp h.orthV
  have oU' : s'.Uᵀ * s'.U = 1 := mul_eq_one_comm.mp h'.orthU
  have oV' : s'.Vᵀ * s'.V = 1 := mul_eq_one_comm.mp h'.orthV
  have sq : ∀ {r : Svd d}, IsSvd F r → r.Vᵀ * r.V = 1 → F * Fᵀ = r.U * diagonal (fun i => r.sig i * r.sig i) * r.Uᵀ := by
    intro r hr hv
    have e := hr.eq
    rw [e]
    simp only [transpose_mul, transpose_transpose, diagonal_transpose]
    calc r.U * diagonal r.sig * r.Vᵀ * (r.V * (diagonal r.sig * r.Uᵀ))
        = r.U * diagonal r.sig * (r.Vᵀ * r.V) * (diagonal r.sig * r.Uᵀ) := by simp only [Matrix.mul_assoc]
      _ = r.U * (diagonal r.sig * diagonal r.sig) * r.Uᵀ := by rw [hv, Matrix.mul_one]; simp only [Matrix.mul_assoc]
      _ = _ := by rw [diagonal_mul_diagonal]
  have e := (sq h oV).symm.trans (sq h' oV')
  have hW : diagonal (fun i => s.sig i * s.sig i) * (s.Uᵀ * s'.U) = (s.Uᵀ * s'.U) * diagonal (fun i => s'.sig i * s'.sig i) := by
    calc diagonal (fun i => s.sig i * s.sig i) * (s.Uᵀ * s'.U)
        = (s.Uᵀ * s.U) * diagonal (fun i => s.sig i * s.sig i) * s.Uᵀ * s'.U := by
          rw [oU, Matrix.one_mul]; simp only [Matrix.mul_assoc]
      _ = s.Uᵀ * (s.U * diagonal (fun i => s.sig i * s.sig i) * s.Uᵀ) * s'.U := by simp only [Matrix.mul_assoc]
      _ = s.Uᵀ * (s'.U * diagonal (fun i => s'.sig i * s'.sig i) * s'.Uᵀ) * s'.U := by rw [e]
      _ = s.Uᵀ * s'.U * diagonal (fun i => s'.sig i * s'.sig i) * (s'.Uᵀ * s'.U) := by simp only [Matrix.mul_assoc]
      _ = _ := by rw [oU', Matrix.mul_one]
  have hf : diagonal (fun i => f (s.sig i)) * (s.Uᵀ * s'.U) = (s.Uᵀ * s'.U) * diagonal (fun i => f (s'.sig i)) := by
    ext i j
    have h1 := congrFun (congrFun hW i) j
    rw [diagonal_mul, mul_diagonal] at h1 ⊢
    by_cases h0 : (s.Uᵀ * s'.U) i j = 0
    · rw [h0]; ring
    · have h2 : s.sig i * s.sig i = s'.sig j * s'.sig j := by
        have : (s.sig i * s.sig i - s'.sig j * s'.sig j) * (s.Uᵀ * s'.U) i j = 0 := by linarith
        rcases mul_eq_zero.mp this with h3 | h3
        · linarith
        · exact absurd h3 h0
      rw [(mul_self_inj (h.nonneg i) (h'.nonneg j)).mp h2, mul_comm]
  calc s.U * diagonal (fun i => f (s.sig i)) * s.Uᵀ
      = s.U * diagonal (fun i => f (s.sig i)) * s.Uᵀ * (s'.U * s'.Uᵀ) := by rw [h'.orthU, Matrix.mul_one]
    _ = s.U * (diagonal (fun i => f (s.sig i)) * (s.Uᵀ * s'.U)) * s'.Uᵀ := by simp only [Matrix.mul_assoc]
    _ = (s.U * s.Uᵀ) * s'.U * diagonal (fun i => f (s'.sig i)) * s'.Uᵀ := by rw [hf]; simp only [Matrix.mul_assoc]
    _ = _ := by rw [h.orthU, Matrix.one_mul]

lemma svd_sum {F : Matrix (Fin d) (Fin d) ℝ} {s s' : Svd d} (h : IsSvd F s) (h' : IsSvd F s') :
    ∑ i, s.hencky i = ∑ i, s'.hencky i := by
  have e := congrArg Matrix.trace (svd_fun h h' fun x => Real.log (max |x| 1e-4))
  rw [Matrix.trace_mul_comm, ← Matrix.mul_assoc, mul_eq_one_comm.mp h.orthU, Matrix.one_mul, Matrix.trace_diagonal,
    Matrix.trace_mul_comm, ← Matrix.mul_assoc, mul_eq_one_comm.mp h'.orthU, Matrix.one_mul, Matrix.trace_diagonal] at e
  exact e

lemma henckyTau_svd {F : Matrix (Fin d) (Fin d) ℝ} {s s' : Svd d} (h : IsSvd F s) (h' : IsSvd F s') (lam mu : ℝ) :
    henckyTau lam mu s.U s.hencky = henckyTau lam mu s'.U s'.hencky := by
  unfold henckyTau
  rw [svd_sum h h']
  exact svd_fun h h' fun x => lam * (∑ j, s'.hencky j) * 1 + 2 * mu * Real.log (max |x| 1e-4)

/-- A decomposition in the plane gives one in space. -/
lemma svd_over {F : Matrix (Fin 2) (Fin 2) ℝ} {s : Svd 2} (h : IsSvd F s) :
    IsSvd (upM F 1) ⟨upM s.U 1, up s.sig 1, upM s.V 1⟩ where
  eq := by
    show upM F 1 = upM s.U 1 * diagonal (up s.sig 1) * (upM s.V 1)ᵀ
    rw [← upM_diagonal, upM_transpose, upM_mul, upM_mul, ← h.eq]
    norm_num
  orthU := by
    show upM s.U 1 * (upM s.U 1)ᵀ = 1
    rw [upM_transpose, upM_mul, h.orthU, mul_one, upM_one]
  orthV := by
    show upM s.V 1 * (upM s.V 1)ᵀ = 1
    rw [upM_transpose, upM_mul, h.orthV, mul_one, upM_one]
  nonneg := by
    intro i
    fin_cases i
    · exact h.nonneg 0
    · exact h.nonneg 1
    · exact zero_le_one

lemma hencky_over (s : Svd 2) : (⟨upM s.U 1, up s.sig 1, upM s.V 1⟩ : Svd 3).hencky = up s.hencky 0 := by
  funext i
  fin_cases i
  · rfl
  · rfl
  · show Real.log (max |1| 1e-4) = 0
    rw [abs_one, max_eq_left (by norm_num), Real.log_one]

lemma henckyTau_over {F : Matrix (Fin 2) (Fin 2) ℝ} {s : Svd 2} {s3 : Svd 3} (h : IsSvd F s) (h3 : IsSvd (upM F 1) s3)
    (lam mu : ℝ) : henckyTau lam mu s3.U s3.hencky = upM (henckyTau lam mu s.U s.hencky) (lam * ∑ i, s.hencky i) := by
  rw [henckyTau_svd h3 (svd_over h), hencky_over]
  have e : (fun i => lam * (∑ j, up s.hencky 0 j) * 1 + 2 * mu * up s.hencky 0 i) =
      up (fun i => lam * (∑ j, s.hencky j) * 1 + 2 * mu * s.hencky i) (lam * ∑ j, s.hencky j) := by
    funext i
    fin_cases i <;> simp [up, Fin.sum_univ_three, Fin.sum_univ_two]
  unfold henckyTau
  rw [e, ← upM_diagonal]
  show upM s.U 1 * _ * (upM s.U 1)ᵀ = _
  rw [upM_transpose, upM_mul, upM_mul, one_mul, mul_one]

lemma upM_inv {A : Matrix (Fin 2) (Fin 2) ℝ} (h : A.det ≠ 0) : (upM A 1)⁻¹ = upM A⁻¹ 1 := by
  refine Matrix.inv_eq_right_inv ?_
  rw [upM_mul, Matrix.mul_nonsing_inv _ (isUnit_iff_ne_zero.mpr h), mul_one, upM_one]

lemma neoHookeanTau_over {F : Matrix (Fin 2) (Fin 2) ℝ} (h : F.det ≠ 0) (lam mu : ℝ) :
    neoHookeanTau lam mu (upM F 1) = upM (neoHookeanTau lam mu F) (lam * Real.log F.det) := by
  have hs : ∀ (A B : Matrix (Fin 2) (Fin 2) ℝ) (a b : ℝ), upM A a - upM B b = upM (A - B) (a - b) := by
    intro A B a b
    ext i j; fin_cases i <;> fin_cases j <;> simp [upM]
  unfold neoHookeanTau
  rw [upM_transpose, upM_inv (by rwa [Matrix.det_transpose]), upM_det, hs, upM_smul, upM_smul, upM_add, upM_mul]
  congr 1
  rw [mul_one F.det]
  ring

/-- **C122** Both elastic laws of the plane are slices of those in space (plane strain): the stress in the plane is the
same, and the stress across it is the only thing the plane does not show. For every pair of external decompositions.
If the law is undefined (an inverted neo-Hookean particle) it is so in both. -/
theorem C122_elastic {cabs : ℝ → ℝ} {svd2 : Matrix (Fin 2) (Fin 2) ℝ → Svd 2} {svd3 : Matrix (Fin 3) (Fin 3) ℝ → Svd 3}
    {m : Material} {dt t z : ℝ} {p : Particle 2 ℝ} {q : Particle 3 ℝ} {e : Bool} (hno : m.plastic = .noPlasticity)
    (h2 : ∀ F, IsSvd F (svd2 F)) (h3 : ∀ F, IsSvd F (svd3 F)) (h : Slice t p z q) :
    (plasticity cabs svd2 m dt p e = none ∧ plasticity cabs svd3 m dt q e = none) ∨
    ∃ o2 o3 t', plasticity cabs svd2 m dt p e = some o2 ∧ plasticity cabs svd3 m dt q e = some o3 ∧
      Slice t' o2.q z o3.q ∧ o2.exit = o3.exit ∧ o2.count = o3.count := by
  have hdet : q.F.det = p.F.det := by rw [h.F, upM_det, mul_one]
  by_cases hb : m.elastic = .neoHookean ∧ p.F.det ≤ 0
  · left
    have hb3 : m.elastic = .neoHookean ∧ q.F.det ≤ 0 := by rwa [hdet]
    constructor
    · simp [plasticity, plastModel, hno, hb]
    · simp [plasticity, plastModel, hno, hb3]
  · right
    have hb3 : ¬ (m.elastic = .neoHookean ∧ q.F.det ≤ 0) := by rwa [hdet]
    have key : ∃ t', newTau m (svd3 q.F) (svd3 q.F).hencky q.F = upM (newTau m (svd2 p.F) (svd2 p.F).hencky p.F) t' := by
      unfold newTau
      cases he : m.elastic with
      | neoHookean =>
        have hd : p.F.det ≠ 0 := fun h0 => hb ⟨he, h0.le⟩
        exact ⟨_, by rw [h.F]; exact neoHookeanTau_over hd _ _⟩
      | hencky => exact ⟨_, henckyTau_over (h2 p.F) (by rw [← h.F]; exact h3 q.F) _ _⟩
    obtain ⟨t', ht'⟩ := key
    refine ⟨⟨{ p with tau := newTau m (svd2 p.F) (svd2 p.F).hencky p.F }, (svd2 p.F).hencky, 0, e⟩,
      ⟨{ q with tau := newTau m (svd3 q.F) (svd3 q.F).hencky q.F }, (svd3 q.F).hencky, 0, e⟩, t', ?_, ?_, ?_, ?_, ?_⟩
    · simp only [plasticity, plastModel, hno, if_neg hb]; rfl
    · simp only [plasticity, plastModel, hno, if_neg hb3]; rfl
    · exact ⟨h.x, h.v, h.Bmat, h.F, ht', h.epsPlDev, h.epsPlVol, h.epsPlVolPradhana, h.deltaGamma, h.viscosity, h.muI⟩
    · rfl
    · rfl

/-- The elastic update of a particle; undefined cases leave it as it is. -/
noncomputable def elasticLaw (cabs : ℝ → ℝ) (svd : Matrix (Fin d) (Fin d) ℝ → Svd d) (m : Material) (dt : ℝ) (p : Particle d ℝ) :
    Particle d ℝ :=
  ((plasticity cabs svd m dt p false).map fun o => o.q).getD p

lemma elasticLaw_motion {cabs : ℝ → ℝ} {svd : Matrix (Fin d) (Fin d) ℝ → Svd d} {m : Material} {dt : ℝ} (p : Particle d ℝ) :
    SameMotion p (elasticLaw cabs svd m dt p) := by
  unfold elasticLaw
  cases h : plasticity cabs svd m dt p false with
  | none => exact ⟨rfl, rfl, rfl, rfl, rfl⟩
  | some o => exact motion_plasticity h

lemma elasticLaw_keeps {cabs : ℝ → ℝ} {svd : Matrix (Fin d) (Fin d) ℝ → Svd d} {m : Material} {dt : ℝ} :
    KeepsMotion (elasticLaw cabs svd m dt) :=
  ⟨fun p => (elasticLaw_motion p).1, fun p => (elasticLaw_motion p).2.1, fun p => (elasticLaw_motion p).2.2.1,
    fun p => (elasticLaw_motion p).2.2.2.1, fun p => (elasticLaw_motion p).2.2.2.2⟩

/-- The elastic laws meet the condition of `C122_step`. -/
lemma elasticLaw_over {cabs : ℝ → ℝ} {svd2 : Matrix (Fin 2) (Fin 2) ℝ → Svd 2} {svd3 : Matrix (Fin 3) (Fin 3) ℝ → Svd 3}
    {m : Material} {dt : ℝ} (hno : m.plastic = .noPlasticity) (h2 : ∀ F, IsSvd F (svd2 F)) (h3 : ∀ F, IsSvd F (svd3 F)) :
    ∀ t p z q, Slice t p z q → ∃ t', Slice t' (elasticLaw cabs svd2 m dt p) z (elasticLaw cabs svd3 m dt q) := by
  intro t p z q h
  rcases C122_elastic (cabs := cabs) (dt := dt) (e := false) hno h2 h3 h with ⟨e2, e3⟩ | ⟨o2, o3, t', e2, e3, h', -⟩
  · exact ⟨t, by simpa only [elasticLaw, e2, e3, Option.map_none, Option.getD_none] using h⟩
  · exact ⟨t', by simpa only [elasticLaw, e2, e3, Option.map_some, Option.getD_some] using h'⟩

lemma trial_norm_svd {F : Matrix (Fin d) (Fin d) ℝ} {s s' : Svd d} (h : IsSvd F s) (h' : IsSvd F s') :
    (mkTrial s.hencky).norm = (mkTrial s'.hencky).norm := by
  have e := congrArg Matrix.trace (svd_fun h h' fun x =>
    (Real.log (max |x| 1e-4) - (∑ i, s'.hencky i) / d) * (Real.log (max |x| 1e-4) - (∑ i, s'.hencky i) / d))
  rw [Matrix.trace_mul_comm, ← Matrix.mul_assoc, mul_eq_one_comm.mp h.orthU, Matrix.one_mul, Matrix.trace_diagonal,
    Matrix.trace_mul_comm, ← Matrix.mul_assoc, mul_eq_one_comm.mp h'.orthU, Matrix.one_mul, Matrix.trace_diagonal] at e
  simp only [mkTrial, vnorm, dotProduct, svd_sum h h']
  exact congrArg Real.sqrt e

/-- **C122** For plastic materials the plane is not a slice of space: the deviator is taken in the plane alone. A von Mises
particle stretched equally in both directions of the plane does not yield in 2D, but does in 3D, whatever the external
decompositions, so that the two are no longer the same afterwards. -/
theorem C122_plastic_false {cabs : ℝ → ℝ} {svd2 : Matrix (Fin 2) (Fin 2) ℝ → Svd 2} {svd3 : Matrix (Fin 3) (Fin 3) ℝ → Svd 3}
    {dt : ℝ} (h2 : ∀ F, IsSvd F (svd2 F)) (h3 : ∀ F, IsSvd F (svd3 F)) :
    ∃ (m : Material) (t z : ℝ) (p : Particle 2 ℝ) (q : Particle 3 ℝ) (o2 : PState 2) (o3 : PState 3), Slice t p z q ∧
      plasticity cabs svd2 m dt p false = some o2 ∧ plasticity cabs svd3 m dt q false = some o3 ∧
      o2.count = 0 ∧ o3.count = 1 ∧ o2.q.epsPlDev = 0 ∧ 0 < o3.q.epsPlDev ∧ ¬ ∃ t', Slice t' o2.q z o3.q := by
  set F : Matrix (Fin 2) (Fin 2) ℝ := diagonal ![Real.exp 1, Real.exp 1] with hF
  have hs : IsSvd F ⟨1, ![Real.exp 1, Real.exp 1], 1⟩ :=
    { eq := by simp [hF]
      orthU := by simp
      orthV := by simp
      nonneg := by intro i; fin_cases i <;> simp [Real.exp_nonneg] }
  have hh : (⟨1, ![Real.exp 1, Real.exp 1], 1⟩ : Svd 2).hencky = ![1, 1] := by
    have := Ex.hencky (a := 1) (b := 1) (by norm_num) (by norm_num) 0
    exact this
  have n2 : (mkTrial (svd2 F).hencky).norm = 0 := by
    rw [trial_norm_svd (h2 F) hs, hh, Ex.norm]; simp
  have n3 : (mkTrial (svd3 (upM F 1)).hencky).norm = Real.sqrt (2 / 3) := by
    rw [trial_norm_svd (h3 _) (svd_over hs), hencky_over, hh]
    have e0 : up ![1, 1] 0 0 = 1 := rfl
    have e1 : up ![1, 1] 0 1 = 1 := rfl
    have e2 : up ![1, 1] 0 2 = 0 := rfl
    simp only [mkTrial, vnorm, dotProduct, Fin.sum_univ_three, e0, e1, e2]
    congr 1
    norm_num
  have hq : (1 / 4 : ℝ) / Real.sqrt 2 < Real.sqrt (2 / 3) := by
    rw [div_lt_iff₀ Ex.sq2_pos, ← Real.sqrt_mul (by norm_num)]
    exact Real.lt_sqrt_of_sq_lt (by norm_num)
  have hq0 : 0 < (1 / 4 : ℝ) / Real.sqrt 2 := div_pos (by norm_num) Ex.sq2_pos
  let m := Ex.mat .vm
  let p : Particle 2 ℝ := { Particle.init with F := F }
  let q : Particle 3 ℝ := { Particle.init with F := upM F 1 }
  have hsl : Slice 0 p 0 q := by
    refine ⟨?_, ?_, ?_, rfl, ?_, rfl, rfl, rfl, rfl, rfl, rfl⟩
    · exact up_zero.symm
    · exact up_zero.symm
    · exact upM_zero.symm
    · exact upM_zero.symm
  have e2 : ∃ o2, plasticity cabs svd2 m dt p false = some o2 ∧ o2.count = 0 ∧ o2.q.epsPlDev = 0 := by
    refine ⟨_, rfl, ?_⟩
    have hn : ¬ ((mkTrial (svd2 p.F).hencky).norm - m.qMax / m.eMu > 0) := by
      show ¬ ((mkTrial (svd2 F).hencky).norm - 1 / 4 / (Ex.mat .vm).eMu > 0)
      rw [n2, Ex.mat_eMu]; linarith
    simp only [plastVM, if_neg hn]
    exact ⟨trivial, rfl⟩
  have e3 : ∃ o3, plasticity cabs svd3 m dt q false = some o3 ∧ o3.count = 1 ∧ 0 < o3.q.epsPlDev := by
    refine ⟨_, rfl, ?_⟩
    have hn : (mkTrial (svd3 q.F).hencky).norm - m.qMax / m.eMu > 0 := by
      show (mkTrial (svd3 (upM F 1)).hencky).norm - 1 / 4 / (Ex.mat .vm).eMu > 0
      rw [n3, Ex.mat_eMu]; linarith
    simp only [plastVM, if_pos hn]
    refine ⟨trivial, ?_⟩
    show 0 < (0 : ℝ) + _
    rw [zero_add]
    exact hn
  obtain ⟨o2, a1, a2, a3⟩ := e2
  obtain ⟨o3, b1, b2, b3⟩ := e3
  refine ⟨m, 0, 0, p, q, o2, o3, hsl, a1, b1, a2, b2, a3, b3, fun ⟨t', ht⟩ => ?_⟩
  rw [ht.epsPlDev, a3] at b3
  exact lt_irrefl _ b3

end elastic

/-! ### example -/

namespace PlaneEx
noncomputable section

/-- Nodes `0 .. 13`. -/
def axis : List ℝ := (List.range 14).map fun k : ℕ => (k : ℝ)

def g2 : Axes 2 ℝ := fun _ => axis
def g3 : Axes 3 ℝ := fun _ => axis

/-- Two particles of the plane, moving against each other, one of them under stress. -/
def body : List (Particle 2 ℝ) :=
  [{ Particle.init with x := ![5, 5], v := ![1, 2] },
   { Particle.init with x := ![6, 5], v := ![-1, 0], F := !![1, 1; 0, 1], tau := !![1, 2; 2, -3] }]

/-- Seven layers, at the heights `3 .. 9`. -/
def heights : List ℝ := (List.range 7).map fun k : ℕ => (k : ℝ) + 3

def layer (z : ℝ) (p : Particle 2 ℝ) : Particle 3 ℝ :=
  { Particle.init with x := up p.x z, v := up p.v 0, F := upM p.F 1, tau := upM p.tau 7 }

def layers : List (Particle 3 ℝ) := heights.flatMap fun z => body.map (layer z)

/-- A floor at height `5`. -/
def floor {d : ℕ} (_ : ℕ) (X v : Fin (d + 2) → ℝ) : Fin (d + 2) → ℝ := if X 1 ≤ 5 then 0 else v

def params (d : ℕ) : StepParams (d + 2) ℝ := ⟨mkTransferParams .two 1 (-19 / 20) false 3 2, false, false, false, 1, none⟩

lemma body_slice {p : Particle 2 ℝ} (hp : p ∈ body) (z : ℝ) : Slice 7 p z (layer z p) := by
  simp only [body, List.mem_cons, List.not_mem_nil, or_false] at hp
  rcases hp with rfl | rfl <;>
    exact ⟨rfl, rfl, upM_zero.symm, rfl, rfl, rfl, rfl, rfl, rfl, rfl, rfl⟩

lemma layered : Layered 1 1 4 6 heights (fun _ => 7) layer body layers where
  lattice := by
    refine ⟨0, fun z hz => ?_, fun y hy _ => ?_⟩
    · have h := hz 0
      rw [abs_lt] at h
      simp only [Pi.zero_apply, Nat.cast_one, div_one, one_mul, zero_add] at h
      have h1 : (2 : ℝ) < z 0 := by linarith
      have h2 : (z 0 : ℝ) < 10 := by linarith
      have h1' : 2 < z 0 := by exact_mod_cast h1
      have h2' : z 0 < 10 := by exact_mod_cast h2
      rw [heights, List.map_map]
      refine List.count_eq_one_of_mem (List.Nodup.map ?_ List.nodup_range) (List.mem_map.mpr
        ⟨(z 0 - 3).toNat, List.mem_range.mpr (by omega), ?_⟩)
      · intro i j h
        have := congrFun h 0
        simpa using this
      · have e : (((z 0 - 3).toNat : ℕ) : ℝ) = z 0 - 3 := by exact_mod_cast Int.toNat_of_nonneg (by omega)
        funext a
        fin_cases a
        simp [e]
    · obtain ⟨w, hw, rfl⟩ := List.mem_map.mp hy
      obtain ⟨k, -, rfl⟩ := List.mem_map.mp hw
      exact ⟨fun _ => k + 3, by funext a; simp⟩
  slice := fun z _ p hp => body_slice hp z
  near := List.Perm.refl _

lemma axis_uniform : UniformAxis (1 : ℝ) axis := ⟨0, by simp [axis]⟩

lemma axis_inside {k : ℕ} (h1 : 1 ≤ k) (h2 : k < 12) : InsideAxis (1 : ℝ) axis k := by
  have a1 : (1 : ℝ) ≤ k := by exact_mod_cast h1
  have a2 : (k : ℝ) < 12 := by exact_mod_cast h2
  refine ⟨0, 13, by simp [axis, List.range_succ], by simp [axis, List.range_succ], by linarith, by linarith⟩

lemma body_int {p : Particle 2 ℝ} (hp : p ∈ body) (a : Fin 2) : ∃ k : ℕ, p.x a = k ∧ 1 ≤ k ∧ k < 12 := by
  simp only [body, List.mem_cons, List.not_mem_nil, or_false] at hp
  rcases hp with rfl | rfl <;> fin_cases a
  · exact ⟨5, by simp, by norm_num, by norm_num⟩
  · exact ⟨5, by simp, by norm_num, by norm_num⟩
  · exact ⟨6, by simp, by norm_num, by norm_num⟩
  · exact ⟨5, by simp, by norm_num, by norm_num⟩

lemma layers_int {q : Particle 3 ℝ} (hq : q ∈ layers) (a : Fin 3) : ∃ k : ℕ, q.x a = k ∧ 1 ≤ k ∧ k < 12 := by
  obtain ⟨z, hz, hq⟩ := List.mem_flatMap.mp hq
  obtain ⟨p, hp, rfl⟩ := List.mem_map.mp hq
  obtain ⟨k, hk, rfl⟩ := List.mem_map.mp hz
  have := List.mem_range.mp hk
  fin_cases a
  · exact body_int hp 0
  · exact body_int hp 1
  · exact ⟨k + 3, by simp [layer, up], by omega, by omega⟩

lemma good_of {d : ℕ} {ps : List (Particle d ℝ)} (h : ∀ p ∈ ps, ∀ a, ∃ k : ℕ, p.x a = k ∧ 1 ≤ k ∧ k < 12) :
    GoodGrid 1 (fun _ => axis) ps :=
  ⟨one_pos, fun _ => axis_uniform, fun p hp a => by
    obtain ⟨k, hk, h1, h2⟩ := h p hp a
    rw [hk]; exact axis_inside h1 h2⟩

lemma noTiny_of {d : ℕ} (hd : d ≤ 3) {ps : List (Particle d ℝ)} (h : ∀ p ∈ ps, ∀ a, ∃ k : ℕ, p.x a = k ∧ 1 ≤ k ∧ k < 12) :
    NoTinyWeights .two 1 (fun _ => axis) ps := by
  intro p hp i hi
  have hN : ∀ a, N .two ((p.x a - nodeAt (fun _ : Fin d => axis) i a) / 1) = 0 ∨
      1 / 8 ≤ N .two ((p.x a - nodeAt (fun _ : Fin d => axis) i a) / 1) := by
    intro a
    obtain ⟨k, hk, -⟩ := h p hp a
    have hl : i a < 14 := by simpa [axis] using hi a
    have e : (p.x a - nodeAt (fun _ : Fin d => axis) i a) / 1 = (((k : ℤ) - (i a : ℤ) : ℤ) : ℝ) := by
      simp [nodeAt, axis, hk, List.getD_eq_getElem?_getD, hl]
    rw [e]
    exact RunEx.N2_int _
  by_cases h0 : ∃ a, N .two ((p.x a - nodeAt (fun _ : Fin d => axis) i a) / 1) = 0
  · obtain ⟨a, ha⟩ := h0
    exact .inl (Finset.prod_eq_zero (Finset.mem_univ a) ha)
  · right
    have h1 : ∀ a, 1 / 8 ≤ N .two ((p.x a - nodeAt (fun _ : Fin d => axis) i a) / 1) := fun a =>
      (hN a).resolve_left fun h2 => h0 ⟨a, h2⟩
    have h2 : ∏ _a : Fin d, (1 / 8 : ℝ) ≤ shape .two 1 (nodeAt (fun _ : Fin d => axis) i) p.x :=
      Finset.prod_le_prod (fun _ _ => by norm_num) fun a _ => h1 a
    rw [Finset.prod_const, Finset.card_univ, Fintype.card_fin] at h2
    have h3 : (1 / 8 : ℝ) ^ 3 ≤ (1 / 8) ^ d := pow_le_pow_of_le_one (by norm_num) (by norm_num) hd
    refine lt_of_lt_of_le ?_ (h3.trans h2)
    norm_num

lemma walls : WallsOver g2 g3 (floor (d := 0)) (floor (d := 1)) := by
  intro i i3 _ _ h0 h1 v
  have e : nodeAt g3 i3 1 = nodeAt g2 i 1 := by
    show axis.getD (i3 1) 0 = axis.getD (i 1) 0
    rw [h1]
  show (if nodeAt g3 i3 1 ≤ 5 then (0 : Fin 3 → ℝ) else up v 0) = up (if nodeAt g2 i 1 ≤ 5 then 0 else v) 0
  rw [e]
  split_ifs
  · exact up_zero.symm
  · rfl

/-- `C122_step` and `C122_elastic` for the two bodies on the floor, under gravity: the step is made in both, and the three
layers in the middle are the body of the plane. -/
example {m : Material} (hno : m.plastic = .noPlasticity) :
    ∃ f2 f3, stepOnGrid (d := 0) (params 0) (1 / 10) ![0, -10] floor (elasticLaw abs someSvd m (1 / 10)) g2 [] [body] body =
        some (body.map f2) ∧
      stepOnGrid (d := 1) (params 1) (1 / 10) (up ![0, -10] 0) floor (elasticLaw abs someSvd m (1 / 10)) g3 [] [layers] layers =
        some (layers.map f3) ∧
      ∀ p ∈ body, ∀ z : ℝ, z = 5 ∨ z = 6 ∨ z = 7 → layer z p ∈ layers ∧ ∃ t', Slice t' (f2 p) z (f3 (layer z p)) := by
  obtain ⟨f2, f3, h2, h3, h⟩ := C122_step (S2 := params 0) (S3 := params 1) (deg := .two) (dx := 1) (fr := -19 / 20) (m2 := 3)
    (vol2 := 2) (m3 := 3) (vol3 := 2) (dt := 1 / 10) (grav := ![0, -10]) (plast2 := elasticLaw abs someSvd m (1 / 10))
    (plast3 := elasticLaw abs someSvd m (1 / 10)) (threads2 := [body]) (threads3 := [layers]) rfl rfl rfl rfl rfl rfl rfl rfl
    (by decide) (by norm_num) (by norm_num) rfl one_pos layered ⟨rfl, rfl⟩ walls (good_of fun p hp => body_int hp)
    (good_of fun p hp => layers_int hp) (noTiny_of (by norm_num) fun p hp => body_int hp)
    (noTiny_of (by norm_num) fun p hp => layers_int hp) (by simp) (by simp) elasticLaw_keeps elasticLaw_keeps
    (elasticLaw_over hno someSvd_isSvd someSvd_isSvd)
  refine ⟨f2, f3, h2, h3, fun p hp z hz => h p hp z ?_ ?_⟩
  · rcases hz with rfl | rfl | rfl
    · exact List.mem_map.mpr ⟨2, by simp, by norm_num⟩
    · exact List.mem_map.mpr ⟨3, by simp, by norm_num⟩
    · exact List.mem_map.mpr ⟨4, by simp, by norm_num⟩
  · rcases hz with rfl | rfl | rfl <;> norm_num [width, abs_of_neg]

end
end PlaneEx

end Verif.Props
