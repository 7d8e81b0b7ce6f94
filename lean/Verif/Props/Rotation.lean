import Verif.Props.Galilei
import Verif.Props.Stress
import Verif.Props.EnergyExamples

set_option linter.unusedSectionVars false
set_option linter.unusedSimpArgs false
set_option linter.unusedVariables false

/-!
# C115: what a step does to a rotating body

A body without stresses that moves with an affine velocity field: the step is exact for the velocities, but the deformation
gradient is multiplied by `1 + dt C`. For a rotation this is not a rotation: the body is stretched in the plane of the
rotation by the factor `√(1 + (ω dt)²)`.
-/

namespace Verif.Props
open Verif Matrix

/-- The particles move with the velocity field `a + C x`, and their affine matrices say so (`D`: the inertia of the APIC
method, `dx²/4` for quadratic and `dx²/3` for cubic splines). -/
structure MovesAffinely {d : ℕ} (D : ℝ) (a : Fin d → ℝ) (C : Matrix (Fin d) (Fin d) ℝ) (ps : List (Particle d ℝ)) : Prop where
  velocity : ∀ p ∈ ps, p.v = a + C *ᵥ p.x
  gradient : ∀ p ∈ ps, p.Bmat = D • C

/-- The inertia of the APIC method. -/
noncomputable def apicInertia (deg : Deg) (dx : ℝ) : ℝ := if deg = .three then dx ^ 2 / 3 else dx ^ 2 / 4

namespace Rotation
open Galilei

section scheme
variable {d : ℕ} {deg : Deg} {dx : ℝ} {g : Axes d ℝ} {ps : List (Particle d ℝ)} {S : Mpm.Scheme d} {a b : Fin d → ℝ}
  {C : Matrix (Fin d) (Fin d) ℝ}

lemma inertia_eq (h1 : S.deg = deg) (h2 : S.dx = dx) : S.inertia = apicInertia deg dx := by
  unfold Mpm.Scheme.inertia apicInertia
  rw [h1, h2]
  cases deg <;> rfl

lemma inertia_pos (hdx : 0 < dx) : 0 < apicInertia deg dx := by
  unfold apicInertia; split_ifs <;> positivity

lemma affine_field (hdx : 0 < S.dx) (ha : S.apic) (hM : MovesAffinely S.inertia a C ps) {p : Particle d ℝ} (hp : p ∈ ps) (X : Fin d → ℝ) :
    S.affine p X = a + C *ᵥ X := by
  have hD : S.inertia ≠ 0 := by
    rw [inertia_eq rfl rfl]; exact (inertia_pos hdx).ne'
  unfold Mpm.Scheme.affine
  rw [if_pos ha, hM.velocity p hp, hM.gradient p hp, smul_mulVec, smul_smul, one_div_mul_cancel hD, one_smul, mulVec_sub]
  abel

lemma before_field (hdx : 0 < S.dx) (ha : S.apic) (hM : MovesAffinely S.inertia a C ps) {X : Fin d → ℝ} (hX : 0 < S.nodeMass ps X) :
    S.before ps X = a + C *ᵥ X := by
  have : S.nodeMomentum ps X = S.nodeMass ps X • (a + C *ᵥ X) := by
    unfold Mpm.Scheme.nodeMomentum Mpm.Scheme.nodeMass
    have hsub : ∀ p ∈ S.near ps X, p ∈ ps := fun p hp => List.mem_of_mem_filter hp
    rw [List.map_congr_left fun p hp => by rw [affine_field hdx ha hM (hsub p hp) X]]
    induction S.near ps X with
    | nil => simp
    | cons p L ih => simp only [List.map_cons, List.sum_cons, add_smul, ih]
  unfold Mpm.Scheme.before
  rw [if_pos hX, this, smul_smul, one_div_mul_cancel hX.ne', one_smul]

lemma force_zero (ht : ∀ p ∈ ps, p.tau = 0) (X : Fin d → ℝ) : S.nodeForce ps X = 0 := by
  unfold Mpm.Scheme.nodeForce
  rw [List.map_congr_left (g := fun _ => 0) fun p hp => by
    rw [ht p (List.mem_of_mem_filter hp), zero_mulVec, smul_zero]]
  simp

lemma after_field (hdx : 0 < S.dx) (ha : S.apic) (hM : MovesAffinely S.inertia a C ps) (ht : ∀ p ∈ ps, p.tau = 0)
    (hw : S.wall = fun _ _ v => v) {X : Fin d → ℝ} (hX : 0 < S.nodeMass ps X) :
    S.after ps X = (a + S.dt • S.gravity) + C *ᵥ X := by
  unfold Mpm.Scheme.after
  rw [if_pos hX, hw, before_field hdx ha hM hX, force_zero ht, smul_zero, zero_add]
  abel

variable (h : Place S deg dx g ps)
include h

lemma interp_field {U : (Fin d → ℝ) → Fin d → ℝ} {p : Particle d ℝ} (hp : p ∈ ps) (hU : ∀ X, 0 < S.nodeMass ps X → U X = b + C *ᵥ X) :
    S.interp U p.x = b + C *ᵥ p.x := by
  have hg := h.good.good (deg := deg) hp
  rw [Mpm.Scheme.interp, overNodes_eq S h.dxEq h.dx_pos h.good.uniform h.lattice hg _ fun X a hX => by
    rw [h.dxEq, h.degEq, shape_far hX, zero_smul]]
  set s := stencilOf deg dx g p.x with hs
  have e : ∀ c, shape S.deg S.dx (s.nodePos c) p.x • U (s.nodePos c) =
      s.weight c • ((b + C *ᵥ p.x) + C *ᵥ (s.nodePos c - p.x)) := by
    intro c
    rw [h.dxEq, h.degEq, ← hg.weight]
    by_cases hc : s.weight c = 0
    · rw [hc, zero_smul, zero_smul]
    · rw [hU _ (mass_pos h hp (by rw [← hg.weight]; exact hc)), mulVec_sub]
      congr 1; abel
  simp only [e, smul_add, Finset.sum_add_distrib, ← Finset.sum_smul, hg.ok.sum_weight, one_smul,
    ← mulVec_smul, ← Matrix.mulVec_sum, hg.ok.sum_weight_smul_pos, mulVec_zero, add_zero]

lemma moments_field {U : (Fin d → ℝ) → Fin d → ℝ} {p : Particle d ℝ} (hp : p ∈ ps) (hU : ∀ X, 0 < S.nodeMass ps X → U X = b + C *ᵥ X) :
    S.moments U p.x = apicInertia deg dx • C := by
  have hg := h.good.good (deg := deg) hp
  obtain ⟨D, hD, hDi⟩ := apic_D (fr := 0) (m := 1) (vol := 1) (mibf := false) h.notOne h.good p hp
  have hDe : D = apicInertia deg dx := by
    have hdx := h.dx_pos.ne'
    unfold apicInertia
    cases hdeg : deg with
    | one => exact absurd hdeg h.notOne
    | two => subst hdeg; simp only [mkTransferParams] at hDi; field_simp at hDi; simp only [reduceCtorEq, if_false, if_true]; linarith
    | three => subst hdeg; simp only [mkTransferParams] at hDi; field_simp at hDi; simp only [reduceCtorEq, if_false, if_true]; linarith
  rw [Mpm.Scheme.moments, overNodes_eq S h.dxEq h.dx_pos h.good.uniform h.lattice hg _ fun X a hX => by
    rw [h.dxEq, h.degEq, shape_far hX, zero_smul]]
  set s := stencilOf deg dx g p.x with hs
  have e : ∀ c, shape S.deg S.dx (s.nodePos c) p.x • vecMulVec (U (s.nodePos c)) (s.nodePos c - p.x) =
      s.weight c • vecMulVec ((b + C *ᵥ p.x) + C *ᵥ (s.nodePos c - p.x)) (s.nodePos c - p.x) := by
    intro c
    rw [h.dxEq, h.degEq, ← hg.weight]
    by_cases hc : s.weight c = 0
    · rw [hc, zero_smul, zero_smul]
    · rw [hU _ (mass_pos h hp (by rw [← hg.weight]; exact hc)), mulVec_sub]
      congr 2; abel
  rw [Finset.sum_congr rfl fun c _ => e c, ← hDe]
  ext i j
  simp only [Matrix.sum_apply, vecMulVec_apply, Pi.add_apply, Matrix.smul_apply, smul_eq_mul, Pi.sub_apply]
  have e1 : ∀ c, s.weight c * ((b i + (C *ᵥ p.x) i + (C *ᵥ (s.nodePos c - p.x)) i) *
      (s.nodePos c j - p.x j)) = (b i + (C *ᵥ p.x) i) * (s.weight c * (s.nodePos c j - p.x j)) +
      ∑ k, C i k * (s.weight c * (s.nodePos c k - p.x k) * (s.nodePos c j - p.x j)) := by
    intro c
    rw [show (C *ᵥ (s.nodePos c - p.x)) i = ∑ k, C i k * (s.nodePos c k - p.x k) from rfl,
      add_mul, mul_add, Finset.sum_mul, Finset.mul_sum]
    congr 1
    · ring
    · exact Finset.sum_congr rfl fun k _ => by ring
  simp only [e1, Finset.sum_add_distrib, ← Finset.mul_sum, hg.ok.sum_weight_pos, mul_zero, zero_add]
  rw [Finset.sum_comm]
  simp only [← Finset.mul_sum, hg.ok.sum_weight_pos_pos hD, mul_ite, mul_zero, Finset.sum_ite_eq',
    Finset.mem_univ, if_true]
  ring

lemma grad_field {U : (Fin d → ℝ) → Fin d → ℝ} {p : Particle d ℝ} (hp : p ∈ ps) (hU : ∀ X, 0 < S.nodeMass ps X → U X = b + C *ᵥ X) :
    S.grad U p.x = C := by
  have hg := h.good.good (deg := deg) hp
  obtain ⟨D, hD⟩ := hg.gradOK h.notOne
  rw [Mpm.Scheme.grad, overNodes_eq S h.dxEq h.dx_pos h.good.uniform h.lattice hg _ fun X a hX => by
    rw [h.dxEq, h.degEq, shapeGrad_far hX, vecMulVec_zero]]
  set s := stencilOf deg dx g p.x with hs
  have e : ∀ c, vecMulVec (U (s.nodePos c)) (shapeGrad S.deg S.dx (s.nodePos c) p.x) =
      vecMulVec ((b + C *ᵥ p.x) + C *ᵥ (s.nodePos c - p.x)) (s.weightGrad c) := by
    intro c
    rw [h.dxEq, h.degEq, ← hg.wgrad]
    by_cases hc : s.weight c = 0
    · rw [hg.ok.grad_zero hD hc, vecMulVec_zero, vecMulVec_zero]
    · rw [hU _ (mass_pos h hp (by rw [← hg.weight]; exact hc)), mulVec_sub]
      congr 1; abel
  rw [Finset.sum_congr rfl fun c _ => e c]
  ext i j
  simp only [Matrix.sum_apply, vecMulVec_apply, Pi.add_apply, add_mul,
    Finset.sum_add_distrib, ← Finset.mul_sum, hg.ok.sum_grad hD, mul_zero, zero_add]
  simp only [mulVec, dotProduct, Finset.sum_mul]
  rw [Finset.sum_comm]
  have : ∀ k, ∑ c, C i k * (s.nodePos c - p.x) k * s.weightGrad c j = C i k * if k = j then 1 else 0 := by
    intro k
    rw [← hg.ok.sum_grad_pos hD k j, Finset.mul_sum]
    exact Finset.sum_congr rfl fun c _ => by simp only [Pi.sub_apply]; ring
  simp only [this, mul_ite, mul_one, mul_zero, Finset.sum_ite_eq', Finset.mem_univ, if_true]

variable (ha : S.apic) (hM : MovesAffinely S.inertia a C ps) (ht : ∀ p ∈ ps, p.tau = 0) (hw : S.wall = fun _ _ v => v)
include ha hM ht hw

lemma newVelocity_field {p : Particle d ℝ} (hp : p ∈ ps) : S.newVelocity ps p = (a + S.dt • S.gravity) + C *ᵥ p.x := by
  have hdx : 0 < S.dx := by rw [h.dxEq]; exact h.dx_pos
  have e1 : S.interp (S.after ps) p.x = (a + S.dt • S.gravity) + C *ᵥ p.x :=
    interp_field h hp fun X hX => after_field hdx ha hM ht hw hX
  have e2 : S.interp (fun X => S.after ps X - S.before ps X) p.x = S.dt • S.gravity := by
    have := interp_field (b := S.dt • S.gravity) (C := 0) (U := fun X => S.after ps X - S.before ps X) h hp fun X hX => by
      rw [after_field hdx ha hM ht hw hX, before_field hdx ha hM hX, zero_mulVec]
      abel
    rw [this, zero_mulVec, add_zero]
  unfold Mpm.Scheme.newVelocity
  simp only [e1, e2, hM.velocity p hp]
  split_ifs
  · rfl
  · rw [show a + C *ᵥ p.x + S.dt • S.gravity = a + S.dt • S.gravity + C *ᵥ p.x by abel, ← add_smul]
    simp

lemma newAffine_field {p : Particle d ℝ} (hp : p ∈ ps) : S.newAffine ps p = apicInertia deg dx • C := by
  have hdx : 0 < S.dx := by rw [h.dxEq]; exact h.dx_pos
  unfold Mpm.Scheme.newAffine
  rw [if_pos ha]
  exact moments_field h hp fun X hX => after_field hdx ha hM ht hw hX

lemma pushed_field : MovesAffinely S.inertia (a + S.dt • S.gravity) C (S.pushed ps) := by
  have key : ∀ q ∈ S.pushed ps, q.v = (a + S.dt • S.gravity) + C *ᵥ q.x ∧ q.Bmat = S.inertia • C := by
    intro q hq
    unfold Mpm.Scheme.pushed at hq
    obtain ⟨p, hp, rfl⟩ := List.mem_map.mp hq
    exact ⟨newVelocity_field h ha hM ht hw hp, by
      rw [inertia_eq h.degEq h.dxEq]; exact newAffine_field h ha hM ht hw hp⟩
  exact ⟨fun q hq => (key q hq).1, fun q hq => (key q hq).2⟩

lemma deforming_field {X : Fin d → ℝ} (hX : 0 < S.nodeMass ps X) : S.deforming ps X = (a + S.dt • S.gravity) + C *ᵥ X := by
  have hdx : 0 < S.dx := by rw [h.dxEq]; exact h.dx_pos
  unfold Mpm.Scheme.deforming
  split_ifs
  · refine before_field hdx ha (pushed_field h ha hM ht hw) ?_
    have : S.nodeMass (S.pushed ps) X = S.nodeMass ps X :=
      nodeMass_map S (f := fun p => { p with v := S.newVelocity ps p, Bmat := S.newAffine ps p }) (fun _ _ => rfl) X
    rw [this]; exact hX
  · exact after_field hdx ha hM ht hw hX

end scheme

lemma forall₂_of_mapM {α β : Type*} {f : α → Option β} {l : List α} {r : List β} (h : l.mapM f = some r) :
    List.Forall₂ (fun a b => a ∈ l ∧ f a = some b) l r := by
  have : ∀ (l' : List α), (∀ a ∈ l', a ∈ l) → ∀ r, l'.mapM f = some r → List.Forall₂ (fun a b => a ∈ l ∧ f a = some b) l' r := by
    intro l'
    induction l' with
    | nil => intro _ r hr; simp at hr; subst hr; exact .nil
    | cons a l' ih =>
      intro hm r hr
      simp only [List.mapM_cons, Option.bind_eq_bind, Option.bind_eq_some_iff, Option.pure_def, Option.some.injEq] at hr
      obtain ⟨b, hb, bs, hbs, rfl⟩ := hr
      exact .cons ⟨hm a (by simp), hb⟩ (ih (fun c hc => hm c (by simp [hc])) _ hbs)
  exact this l (fun _ h => h) r h

end Rotation
open Galilei Rotation

section step
variable {d : ℕ} {R : Setup (d + 2)} {deg : Deg} {dx fr m vol dt time : ℝ} {mibf : Bool}
  {grav o a : Fin (d + 2) → ℝ} {C : Matrix (Fin (d + 2)) (Fin (d + 2)) ℝ} {w w' : World (d + 2)} {n : ℕ} {ex : Bool}

/-- **C115** A step of a body without stresses and walls that moves with an affine velocity field (APIC or AFLIP, with or
without MUSL): every particle keeps its velocity, up to gravity, and its affine matrix, and moves straight on with the new
velocity; its deformation gradient before the plastic update is multiplied by `1 + dt C`, whatever the material. -/
theorem C115_step (hP : R.S.P = mkTransferParams deg dx fr mibf m vol) (hd : deg ≠ .one) (hdx : 0 < dx) (hm : 0 < m)
    (hfr : fr < 0) (hpbc : R.S.pbc = false) (hpos : R.S.changePos = false) (hobjs : R.objs = []) (hplates : w.plates = [])
    (hsched : ∀ ps, (R.sched n ps).flatten.Perm ps)
    (h : physStep R w dt grav time n = some (w', ex)) (ho : OnLattice o dx w'.g)
    (htiny : NoTinyWeights deg dx w'.g w.ps) (hM : MovesAffinely (apicInertia deg dx) a C w.ps) (ht : ∀ p ∈ w.ps, p.tau = 0) :
    List.Forall₂ (fun p q => q.v = p.v + dt • grav ∧ q.x = p.x + dt • q.v ∧ q.Bmat = p.Bmat ∧
      ∃ r out, plasticity R.cabs R.svd R.m dt r false = some out ∧ r.F = (1 + dt • C) * p.F ∧ q.F = out.q.F ∧ q.tau = out.q.tau)
      w.ps w'.ps := by
  have hPdx : R.S.P.dx = dx := by rw [hP]; rfl
  have hgood := physStep_goodGrid hpbc (by rw [hPdx]; exact hdx) (by rw [hP]; rfl) h
  rw [hPdx] at hgood
  set S := schemeOf R o dt grav w.plates with hS
  have hA : Agrees S deg dx fr mibf m vol := schemeOf_agrees hP
  have hw : S.wall = fun _ _ v => v := by
    funext μ X v
    show boundaryCollision R.ops _ _ dt R.objs w.plates 0 X v = v
    rw [hobjs, hplates]
    rfl
  have hplace : S.place = id := by
    show (if R.S.changePos = true then reinsert else id) = id
    rw [hpos]; rfl
  have hPl : Place S deg dx w'.g w.ps := ⟨hA.deg, hA.dx, hd, hdx, by rw [hA.mass]; exact hm, hgood, ho, htiny⟩
  have ha : S.apic := by unfold Mpm.Scheme.apic; rw [hA.ratio]; exact hfr
  have hSdx : 0 < S.dx := by rw [hA.dx]; exact hdx
  have hI : S.inertia = apicInertia deg dx := inertia_eq hA.deg hA.dx
  rw [← hI] at hM
  have h1 := (C105_step hP hd hdx hm hpbc hsched h ho).1
  simp only [← hS] at h1
  unfold Mpm.Scheme.step at h1
  obtain ⟨rs, h2, h3⟩ := Option.map_eq_some_iff.mp h1
  injection h3 with h3 _
  rw [← h3]
  refine List.forall₂_map_right_iff.mpr ((forall₂_of_mapM h2).imp fun p r ⟨hp, hr⟩ => ?_)
  unfold Mpm.Scheme.particle at hr
  obtain ⟨u, hu, rfl⟩ := Option.map_eq_some_iff.mp hr
  obtain ⟨out, hout, rfl⟩ := plasticUpdate_some (R := R) hu
  have hv := newVelocity_field hPl ha hM ht hw hp
  have hB := newAffine_field hPl ha hM ht hw hp
  have hint : S.interp (S.after w.ps) p.x = (a + S.dt • S.gravity) + C *ᵥ p.x :=
    interp_field hPl hp fun X hX => after_field hSdx ha hM ht hw hX
  have hgr : S.grad (S.deforming w.ps) p.x = C := grad_field hPl hp fun X hX => deforming_field hPl ha hM ht hw hX
  have hdt : S.dt = dt := rfl
  have hgv : S.gravity = grav := rfl
  rw [hdt, hgv] at hv hint
  refine ⟨?_, ?_, ?_, _, out, hout, ?_, rfl, rfl⟩
  · show S.newVelocity w.ps p = _
    rw [hv, hM.velocity p hp]; abel
  · show S.place (p.x + S.dt • S.interp (S.after w.ps) p.x) = p.x + dt • S.newVelocity w.ps p
    rw [hplace, hv, hint]; rfl
  · show out.q.Bmat = p.Bmat
    rw [(motion_plasticity hout).2.2.2.2, hM.gradient p hp, hI]
    exact hB
  · show (1 + S.dt • S.grad (S.deforming w.ps) p.x) * p.F = _
    rw [hgr, hdt]

/-- **C115** If the velocity field is a rotation (`C` is skew), a step without plasticity makes all lengths in the body
greater: the square of the length of a material line grows by `dt²` times the square of the velocity difference of its ends. -/
theorem C115_stretch (hP : R.S.P = mkTransferParams deg dx fr mibf m vol) (hd : deg ≠ .one) (hdx : 0 < dx) (hm : 0 < m)
    (hfr : fr < 0) (hpbc : R.S.pbc = false) (hpos : R.S.changePos = false) (hobjs : R.objs = []) (hplates : w.plates = [])
    (hsched : ∀ ps, (R.sched n ps).flatten.Perm ps)
    (h : physStep R w dt grav time n = some (w', ex)) (ho : OnLattice o dx w'.g)
    (htiny : NoTinyWeights deg dx w'.g w.ps) (hM : MovesAffinely (apicInertia deg dx) a C w.ps) (ht : ∀ p ∈ w.ps, p.tau = 0)
    (hskew : Cᵀ = -C) (hpl : R.m.plastic = .noPlasticity) :
    List.Forall₂ (fun p q => ∀ u, (q.F *ᵥ u) ⬝ᵥ (q.F *ᵥ u) =
      (p.F *ᵥ u) ⬝ᵥ (p.F *ᵥ u) + dt ^ 2 * ((C *ᵥ (p.F *ᵥ u)) ⬝ᵥ (C *ᵥ (p.F *ᵥ u)))) w.ps w'.ps := by
  refine (C115_step hP hd hdx hm hfr hpbc hpos hobjs hplates hsched h ho htiny hM ht).imp fun p q ⟨_, _, _, r, out, h1, h2, h3, _⟩ u => ?_
  obtain ⟨st, hst, rfl⟩ := plasticity_some.mp h1
  obtain ⟨-, rfl⟩ := (plastModel_noPlasticity hpl).mp hst
  have hF : q.F = (1 + dt • C) * p.F := by rw [h3, ← h2]
  rw [hF, ← mulVec_mulVec]
  set y := p.F *ᵥ u
  have hz : y ⬝ᵥ (C *ᵥ y) = 0 := by
    have e : y ⬝ᵥ (C *ᵥ y) = (Cᵀ *ᵥ y) ⬝ᵥ y := by rw [dotProduct_mulVec, ← mulVec_transpose]
    rw [hskew, neg_mulVec, neg_dotProduct, dotProduct_comm (C *ᵥ y)] at e
    linarith
  rw [add_mulVec, one_mulVec, smul_mulVec, add_dotProduct, dotProduct_add, dotProduct_add, dotProduct_smul, smul_dotProduct,
    smul_dotProduct, dotProduct_smul, hz, dotProduct_comm (C *ᵥ y) y, hz]
  simp only [smul_eq_mul]
  ring

end step

/-- Where `F Fᵀ` has an eigenvector, the Hencky stress has it too. -/
lemma hencky_eigen {d : ℕ} {lam mu : ℝ} {F tau : Matrix (Fin d) (Fin d) ℝ} {s : Svd d} (hs : IsSvd F s) (h : IsHenckyStress lam mu F tau)
    {u : Fin d → ℝ} {c : ℝ} (hu : (F * Fᵀ) *ᵥ u = c • u) :
    tau *ᵥ u = (lam * Real.log |F.det| + mu * Real.log c) • u := by
  have hpos := sig_pos h.1 hs
  have hUU : s.Uᵀ * s.U = 1 := mul_eq_one_comm.mp hs.orthU
  have hVV : s.Vᵀ * s.V = 1 := mul_eq_one_comm.mp hs.orthV
  have hdet : Real.log |F.det| = ∑ j, Real.log (s.sig j) := by
    have h1 : |F.det| = ∏ j, s.sig j := by
      conv_lhs => rw [hs.eq]
      have hU := congrArg Matrix.det hs.orthU
      have hV := congrArg Matrix.det hs.orthV
      rw [det_mul, det_transpose, det_one] at hU hV
      have hU' : |s.U.det| = 1 := by
        have : |s.U.det| * |s.U.det| = 1 := by rw [← abs_mul, hU, abs_one]
        nlinarith [abs_nonneg s.U.det]
      have hV' : |s.V.det| = 1 := by
        have : |s.V.det| * |s.V.det| = 1 := by rw [← abs_mul, hV, abs_one]
        nlinarith [abs_nonneg s.V.det]
      rw [det_mul, det_mul, det_transpose, det_diagonal, abs_mul, abs_mul, hU', hV', one_mul, mul_one,
        abs_of_pos (Finset.prod_pos fun i _ => hpos i)]
    rw [h1, Real.log_prod fun i _ => (hpos i).ne']
  set y := s.Uᵀ *ᵥ u with hy
  have huy : u = s.U *ᵥ y := by rw [hy, mulVec_mulVec, hs.orthU, one_mulVec]
  have hFF : F * Fᵀ = s.U * diagonal (fun i => s.sig i ^ 2) * s.Uᵀ := by
    conv_lhs => rw [hs.eq]
    rw [transpose_mul, transpose_mul, transpose_transpose, diagonal_transpose,
      show s.U * diagonal s.sig * s.Vᵀ * (s.V * (diagonal s.sig * s.Uᵀ)) =
        s.U * (diagonal s.sig * (s.Vᵀ * s.V) * diagonal s.sig) * s.Uᵀ by simp only [Matrix.mul_assoc], hVV, Matrix.mul_one,
      diagonal_mul_diagonal]
    simp only [pow_two]
  have hyi : ∀ i, s.sig i ^ 2 * y i = c * y i := by
    have h2 : s.Uᵀ *ᵥ ((F * Fᵀ) *ᵥ u) = c • y := by rw [hu, mulVec_smul]
    rw [hFF, mulVec_mulVec, ← Matrix.mul_assoc, ← Matrix.mul_assoc, hUU, Matrix.one_mul, ← mulVec_mulVec, ← hy] at h2
    intro i
    have := congrFun h2 i
    rwa [mulVec_diagonal] at this
  have h3 := h.2 s hs
  rw [h3, ← mulVec_mulVec, ← hy, ← mulVec_mulVec]
  conv_rhs => rw [huy, ← mulVec_smul]
  congr 1
  funext i
  rw [mulVec_diagonal, Pi.smul_apply, smul_eq_mul, hdet]
  by_cases h0 : y i = 0
  · rw [h0, mul_zero, mul_zero]
  · have h4 : s.sig i ^ 2 = c := mul_right_cancel₀ h0 (hyi i)
    rw [← h4, Real.log_pow]
    push_cast
    ring

/-- The deformation by `1 + dt C` of a rotated body. -/
lemma rotated_FF {d : ℕ} {C F0 : Matrix (Fin d) (Fin d) ℝ} {dt : ℝ} (hF : F0 * F0ᵀ = 1) (hskew : Cᵀ = -C) :
    ((1 + dt • C) * F0) * ((1 + dt • C) * F0)ᵀ = 1 - (dt ^ 2) • (C * C) := by
  rw [transpose_mul, Matrix.mul_assoc, ← Matrix.mul_assoc F0, hF, Matrix.one_mul, transpose_add, transpose_one, transpose_smul, hskew]
  simp only [Matrix.add_mul, Matrix.mul_add, Matrix.one_mul, Matrix.mul_one, Matrix.mul_smul, Matrix.smul_mul, Matrix.mul_neg, smul_neg, smul_smul,
    pow_two, smul_add]
  abel

lemma sig_ge_one {d : ℕ} {F : Matrix (Fin d) (Fin d) ℝ} {s : Svd d} (hs : IsSvd F s) (h : ∀ u, u ⬝ᵥ u ≤ u ⬝ᵥ ((F * Fᵀ) *ᵥ u)) (i : Fin d) :
    1 ≤ s.sig i := by
  have hUU : s.Uᵀ * s.U = 1 := mul_eq_one_comm.mp hs.orthU
  have hVV : s.Vᵀ * s.V = 1 := mul_eq_one_comm.mp hs.orthV
  have hFF : s.Uᵀ * (F * Fᵀ) * s.U = diagonal (fun i => s.sig i ^ 2) := by
    conv_lhs => rw [hs.eq]
    rw [transpose_mul, transpose_mul, transpose_transpose, diagonal_transpose,
      show s.Uᵀ * (s.U * diagonal s.sig * s.Vᵀ * (s.V * (diagonal s.sig * s.Uᵀ))) * s.U =
        (s.Uᵀ * s.U) * (diagonal s.sig * (s.Vᵀ * s.V) * diagonal s.sig) * (s.Uᵀ * s.U) by simp only [Matrix.mul_assoc], hVV, hUU, Matrix.mul_one,
      Matrix.mul_one, Matrix.one_mul, diagonal_mul_diagonal]
    simp only [pow_two]
  have h1 := h (s.U *ᵥ Pi.single i 1)
  have h2 : ∀ M : Matrix (Fin d) (Fin d) ℝ, (s.U *ᵥ Pi.single i 1) ⬝ᵥ (M *ᵥ (s.U *ᵥ Pi.single i 1)) = (s.Uᵀ * M * s.U) i i := by
    intro M
    rw [dotProduct_comm, dotProduct_mulVec, ← mulVec_transpose, mulVec_mulVec, mulVec_mulVec, dotProduct_single, mul_one,
      mulVec_single_one, col_apply]
  have h3 : (s.U *ᵥ Pi.single i 1) ⬝ᵥ (s.U *ᵥ Pi.single i 1) = 1 := by
    have := h2 1
    rwa [one_mulVec, Matrix.mul_one, hUU, one_apply_eq] at this
  rw [h2, h3, hFF, diagonal_apply_eq] at h1
  nlinarith [hs.nonneg i]

lemma orth_det_abs {d : ℕ} {F : Matrix (Fin d) (Fin d) ℝ} (h : F * Fᵀ = 1) : |F.det| = 1 := by
  have hU := congrArg Matrix.det h
  rw [det_mul, det_transpose, det_one] at hU
  have : |F.det| * |F.det| = 1 := by rw [← abs_mul, hU, abs_one]
  nlinarith [abs_nonneg F.det]

lemma ext_mulVec {d : ℕ} {A B : Matrix (Fin d) (Fin d) ℝ} (h : ∀ u, A *ᵥ u = B *ᵥ u) : A = B := by
  ext i j
  have := congrFun (h (Pi.single j 1)) i
  simpa using this

lemma forall₂_right {α β : Type*} {P : α → β → Prop} {l : List α} {r : List β} (h : List.Forall₂ P l r) : ∀ b ∈ r, ∃ a ∈ l, P a b := by
  induction h with
  | nil => simp
  | cons h1 _ ih =>
    intro b hb
    rcases List.mem_cons.mp hb with rfl | hb
    · exact ⟨_, by simp, h1⟩
    · obtain ⟨a, ha, h⟩ := ih b hb
      exact ⟨a, by simp [ha], h⟩

/-- The rotation of the plane with the angular velocity `ω`. -/
def spinning2 (ω : ℝ) : Matrix (Fin 2) (Fin 2) ℝ := !![0, -ω; ω, 0]

/-- The rotation of space with the angular velocity `ω`: `spinning3 ω *ᵥ x` is the cross product `ω × x`. -/
def spinning3 (ω : Fin 3 → ℝ) : Matrix (Fin 3) (Fin 3) ℝ := !![0, -ω 2, ω 1; ω 2, 0, -ω 0; -ω 1, ω 0, 0]

section core
variable {d : ℕ} {R : Setup (d + 2)} {deg : Deg} {dx fr m vol dt time : ℝ} {mibf : Bool}
  {grav o a : Fin (d + 2) → ℝ} {C : Matrix (Fin (d + 2)) (Fin (d + 2)) ℝ} {w w' : World (d + 2)} {n : ℕ} {ex : Bool}

lemma rotated_particle (hP : R.S.P = mkTransferParams deg dx fr mibf m vol) (hd : deg ≠ .one) (hdx : 0 < dx) (hm : 0 < m)
    (hfr : fr < 0) (hpbc : R.S.pbc = false) (hpos : R.S.changePos = false) (hobjs : R.objs = []) (hplates : w.plates = [])
    (hsched : ∀ ps, (R.sched n ps).flatten.Perm ps)
    (h : physStep R w dt grav time n = some (w', ex)) (ho : OnLattice o dx w'.g)
    (htiny : NoTinyWeights deg dx w'.g w.ps) (hM : MovesAffinely (apicInertia deg dx) a C w.ps) (ht : ∀ p ∈ w.ps, p.tau = 0)
    (hskew : Cᵀ = -C) (hF : ∀ p ∈ w.ps, p.F * p.Fᵀ = 1) (hsvd : ∀ F, IsSvd F (R.svd F)) (hpl : R.m.plastic = .noPlasticity) :
    ∀ q ∈ w'.ps, |q.F.det| = |(1 + dt • C).det| ∧ q.F * q.Fᵀ = 1 - (dt ^ 2) • (C * C) ∧
      (R.m.elastic = .hencky → IsHenckyStress R.m.lam R.m.mu q.F q.tau) ∧
      (R.m.elastic = .neoHookean → IsNeoHookeanStress R.m.lam R.m.mu q.F q.tau) := by
  have h1 := C115_step hP hd hdx hm hfr hpbc hpos hobjs hplates hsched h ho htiny hM ht
  intro q hq
  obtain ⟨p, hp, -, -, -, r, out, hout, h2, h3, h4⟩ := forall₂_right h1 q hq
  obtain ⟨st, hst, rfl⟩ := plasticity_some.mp hout
  obtain ⟨-, rfl⟩ := (plastModel_noPlasticity hpl).mp hst
  have hqF : q.F = r.F := h3
  have hFF : r.F * r.Fᵀ = 1 - (dt ^ 2) • (C * C) := by rw [h2, rotated_FF (hF p hp) hskew]
  refine ⟨?_, by rw [hqF, hFF], fun hel => ?_, fun hel => ?_⟩
  · rw [hqF, h2, det_mul, abs_mul, orth_det_abs (hF p hp), mul_one]
  · have hgt : ∀ i, 1 ≤ (R.svd r.F).sig i := sig_ge_one (hsvd r.F) fun u => by
      rw [hFF, sub_mulVec, one_mulVec, smul_mulVec, dotProduct_sub, dotProduct_smul, ← mulVec_mulVec, dotProduct_mulVec, ← mulVec_transpose, hskew,
        neg_mulVec, neg_dotProduct, smul_eq_mul]
      have : 0 ≤ (C *ᵥ u) ⬝ᵥ (C *ᵥ u) := Finset.sum_nonneg fun i _ => mul_self_nonneg _
      nlinarith [mul_nonneg (sq_nonneg dt) this]
    obtain ⟨out', ho', -, -, -, -, hH⟩ := C42_elastic (cabs := R.cabs) hel hpl dt r false (hsvd r.F) fun i => le_trans (by norm_num) (hgt i)
    rw [hout] at ho'
    injection ho' with ho'
    rw [← ho'] at hH
    rw [hqF, h4]
    exact hH
  · have := (C42_neoHookean hel hpl hout).2
    rw [hqF, h4]
    exact this

end core

section plane
variable {R : Setup 2} {deg : Deg} {dx fr m vol dt time ω : ℝ} {mibf : Bool} {grav o a : Fin 2 → ℝ} {w w' : World 2} {n : ℕ} {ex : Bool}

/-- **C115** In the plane, an elastic body that rotates with the angular velocity `ω` and has no stresses gets in every step a uniform
tension: with Hencky's law the stress `(λ + μ) log (1 + (ω dt)²)` in all directions, that is, this negative pressure and no shear stress; with the
neo-Hookean law `μ (ω dt)² + λ log (1 + (ω dt)²)`. -/
theorem C115_plane (hP : R.S.P = mkTransferParams deg dx fr mibf m vol) (hd : deg ≠ .one) (hdx : 0 < dx) (hm : 0 < m)
    (hfr : fr < 0) (hpbc : R.S.pbc = false) (hpos : R.S.changePos = false) (hobjs : R.objs = []) (hplates : w.plates = [])
    (hsched : ∀ ps, (R.sched n ps).flatten.Perm ps)
    (h : physStep (d := 0) R w dt grav time n = some (w', ex)) (ho : OnLattice o dx w'.g)
    (htiny : NoTinyWeights deg dx w'.g w.ps) (hM : MovesAffinely (apicInertia deg dx) a (spinning2 ω) w.ps) (ht : ∀ p ∈ w.ps, p.tau = 0)
    (hF : ∀ p ∈ w.ps, p.F * p.Fᵀ = 1) (hsvd : ∀ F, IsSvd F (R.svd F)) (hpl : R.m.plastic = .noPlasticity) :
    ∀ q ∈ w'.ps, ∃ T : ℝ, q.tau = T • (1 : Matrix (Fin 2) (Fin 2) ℝ) ∧ savedP q.tau = -T ∧ savedQ R.m.qPrefac q.tau = 0 ∧
      (R.m.elastic = .hencky → T = (R.m.lam + R.m.mu) * Real.log (1 + (ω * dt) ^ 2)) ∧
      (R.m.elastic = .neoHookean → T = R.m.mu * (ω * dt) ^ 2 + R.m.lam * Real.log (1 + (ω * dt) ^ 2)) := by
  have hskew : (spinning2 ω)ᵀ = -spinning2 ω := by
    ext i j; fin_cases i <;> fin_cases j <;> simp [spinning2]
  intro q hq
  obtain ⟨h1, h2, h3, h4⟩ := rotated_particle (d := 0) hP hd hdx hm hfr hpbc hpos hobjs hplates hsched h ho htiny hM ht hskew hF hsvd hpl q hq
  have hFF : q.F * q.Fᵀ = (1 + (ω * dt) ^ 2) • (1 : Matrix (Fin 2) (Fin 2) ℝ) := by
    rw [h2]
    ext i j
    fin_cases i <;> fin_cases j <;> simp [spinning2, Matrix.mul_apply, Fin.sum_univ_two] <;> ring
  have hdet : |q.F.det| = 1 + (ω * dt) ^ 2 := by
    rw [h1, det_fin_two]
    have : (1 + dt • spinning2 ω) 0 0 * (1 + dt • spinning2 ω) 1 1 - (1 + dt • spinning2 ω) 0 1 * (1 + dt • spinning2 ω) 1 0 =
        1 + (ω * dt) ^ 2 := by
      simp [spinning2]; ring
    rw [this, abs_of_pos (by positivity)]
  have hPQ : ∀ T : ℝ, q.tau = T • (1 : Matrix (Fin 2) (Fin 2) ℝ) → savedP q.tau = -T ∧ savedQ R.m.qPrefac q.tau = 0 := by
    intro T hT
    have e : savedP q.tau = -T := by rw [hT, savedP]; simp [trace_fin_two]; ring
    refine ⟨e, ?_⟩
    rw [savedQ, e, hT]; simp [selfDoubleDot]
  cases hel : R.m.elastic with
  | hencky =>
    have htau : q.tau = ((R.m.lam + R.m.mu) * Real.log (1 + (ω * dt) ^ 2)) • (1 : Matrix (Fin 2) (Fin 2) ℝ) := by
      refine ext_mulVec fun u => ?_
      rw [hencky_eigen (hsvd q.F) (h3 hel) (c := 1 + (ω * dt) ^ 2) (by rw [hFF, smul_mulVec, one_mulVec]), hdet, smul_mulVec, one_mulVec, add_mul]
    exact ⟨_, htau, (hPQ _ htau).1, (hPQ _ htau).2, fun _ => rfl, fun h => by cases h⟩
  | neoHookean =>
    obtain ⟨hpos', hN⟩ := h4 hel
    rw [abs_of_pos hpos'] at hdet
    have htau : q.tau = (R.m.mu * (ω * dt) ^ 2 + R.m.lam * Real.log (1 + (ω * dt) ^ 2)) • (1 : Matrix (Fin 2) (Fin 2) ℝ) := by
      rw [hN, hFF, hdet]
      ext i j
      fin_cases i <;> fin_cases j <;> simp [Matrix.sub_apply, Matrix.add_apply, Matrix.smul_apply]
    exact ⟨_, htau, (hPQ _ htau).1, (hPQ _ htau).2, fun h => by (cases h), fun _ => rfl⟩

/-- **C115** The tension is small of second order: for the step lengths of the program, at which nothing moves more than a fraction of a cell, it is
at most `(λ + μ) (ω dt)²`. It is never zero while the body turns. -/
theorem C115_size {lam mu ω dt : ℝ} (h : 0 < lam + mu) (hω : ω ≠ 0) (hdt : 0 < dt) :
    0 < (lam + mu) * Real.log (1 + (ω * dt) ^ 2) ∧ (lam + mu) * Real.log (1 + (ω * dt) ^ 2) ≤ (lam + mu) * (ω * dt) ^ 2 := by
  have h0 : 0 < (ω * dt) ^ 2 := by positivity
  refine ⟨mul_pos h (Real.log_pos (by linarith)), mul_le_mul_of_nonneg_left ?_ h.le⟩
  have := Real.log_le_sub_one_of_pos (show 0 < 1 + (ω * dt) ^ 2 by linarith)
  linarith

end plane

section space
variable {R : Setup 3} {deg : Deg} {dx fr m vol dt time : ℝ} {mibf : Bool} {grav o a ω : Fin 3 → ℝ} {w w' : World 3} {n : ℕ} {ex : Bool}

/-- **C115** In space, with Hencky's law: the stress is `λ log (1 + |ω|² dt²)` along the axis of the rotation and
`(λ + μ) log (1 + |ω|² dt²)` in all directions perpendicular to it. -/
theorem C115_space (hP : R.S.P = mkTransferParams deg dx fr mibf m vol) (hd : deg ≠ .one) (hdx : 0 < dx) (hm : 0 < m)
    (hfr : fr < 0) (hpbc : R.S.pbc = false) (hpos : R.S.changePos = false) (hobjs : R.objs = []) (hplates : w.plates = [])
    (hsched : ∀ ps, (R.sched n ps).flatten.Perm ps)
    (h : physStep (d := 1) R w dt grav time n = some (w', ex)) (ho : OnLattice o dx w'.g)
    (htiny : NoTinyWeights deg dx w'.g w.ps) (hM : MovesAffinely (apicInertia deg dx) a (spinning3 ω) w.ps) (ht : ∀ p ∈ w.ps, p.tau = 0)
    (hF : ∀ p ∈ w.ps, p.F * p.Fᵀ = 1) (hsvd : ∀ F, IsSvd F (R.svd F)) (hpl : R.m.plastic = .noPlasticity) (hel : R.m.elastic = .hencky) :
    ∀ q ∈ w'.ps, q.tau *ᵥ ω = (R.m.lam * Real.log (1 + (ω ⬝ᵥ ω) * dt ^ 2)) • ω ∧
      ∀ u, u ⬝ᵥ ω = 0 → q.tau *ᵥ u = ((R.m.lam + R.m.mu) * Real.log (1 + (ω ⬝ᵥ ω) * dt ^ 2)) • u := by
  have hskew : (spinning3 ω)ᵀ = -spinning3 ω := by
    ext i j; fin_cases i <;> fin_cases j <;> simp [spinning3]
  have hnn : 0 ≤ ω ⬝ᵥ ω := Finset.sum_nonneg fun i _ => mul_self_nonneg _
  have hCC : ∀ u, (spinning3 ω * spinning3 ω) *ᵥ u = (u ⬝ᵥ ω) • ω - (ω ⬝ᵥ ω) • u := by
    intro u
    rw [← mulVec_mulVec]
    ext i
    fin_cases i <;> simp [spinning3, mulVec, dotProduct, Fin.sum_univ_three] <;> ring
  intro q hq
  obtain ⟨h1, h2, h3, -⟩ := rotated_particle (d := 1) hP hd hdx hm hfr hpbc hpos hobjs hplates hsched h ho htiny hM ht hskew hF hsvd hpl q hq
  have hdet : |q.F.det| = 1 + (ω ⬝ᵥ ω) * dt ^ 2 := by
    rw [h1, show (1 + dt • spinning3 ω).det = 1 + (ω ⬝ᵥ ω) * dt ^ 2 by
      simp [det_fin_three, spinning3, dotProduct, Fin.sum_univ_three]; ring, abs_of_pos (by positivity)]
  have hFF : ∀ u, (q.F * q.Fᵀ) *ᵥ u = u - dt ^ 2 • ((u ⬝ᵥ ω) • ω - (ω ⬝ᵥ ω) • u) := by
    intro u
    rw [h2, sub_mulVec, one_mulVec, smul_mulVec, hCC]
  constructor
  · rw [hencky_eigen (hsvd q.F) (h3 hel) (c := 1) (by rw [hFF, sub_self, smul_zero, sub_zero, one_smul]), hdet, Real.log_one, mul_zero, add_zero]
  · intro u hu
    rw [hencky_eigen (hsvd q.F) (h3 hel) (c := 1 + (ω ⬝ᵥ ω) * dt ^ 2) (by
      rw [hFF, hu, zero_smul, zero_sub, smul_neg, sub_neg_eq_add, add_smul, one_smul, smul_smul, mul_comm (dt ^ 2)]), hdet, add_mul]

end space

/-! ### A wheel -/

namespace RunEx
noncomputable section

/-- Two particles on a wheel that turns with the angular velocity 1/2 about the first one. -/
def wheel : List (Particle 2 ℝ) :=
  [{ Particle.init with Bmat := (1 / 4 : ℝ) • spinning2 (1 / 2) },
    { Particle.init with x := ![1, 0], v := ![0, 1 / 2], Bmat := (1 / 4 : ℝ) • spinning2 (1 / 2) }]

lemma wheel_moves : MovesAffinely (apicInertia .two 1) 0 (spinning2 (1 / 2)) wheel := by
  have hI : apicInertia .two 1 = 1 / 4 := by unfold apicInertia; rw [if_neg (by decide)]; norm_num
  rw [hI]
  constructor <;> intro p hp <;> simp only [wheel, List.mem_cons, List.not_mem_nil, or_false] at hp <;> rcases hp with rfl | rfl
  · ext a; fin_cases a <;> simp [Particle.init]
  · ext a; fin_cases a <;> simp [spinning2]
  · rfl
  · rfl

lemma wheel_free : ∀ p ∈ wheel, p.tau = 0 ∧ p.F * p.Fᵀ = 1 := by
  intro p hp
  simp only [wheel, List.mem_cons, List.not_mem_nil, or_false] at hp
  rcases hp with rfl | rfl <;> exact ⟨rfl, by simp [Particle.init]⟩

lemma wheel_slow : ∀ p ∈ wheel, p.v ⬝ᵥ p.v ≤ 1 / 4 := by
  intro p hp
  simp only [wheel, List.mem_cons, List.not_mem_nil, or_false] at hp
  rcases hp with rfl | rfl
  · simp [Particle.init]
  · norm_num [dotProduct, Fin.sum_univ_two]

lemma wheel_pos : ∀ p ∈ wheel, ∀ a, ∃ k : ℤ, p.x a = k := by
  intro p hp a
  simp only [wheel, List.mem_cons, List.not_mem_nil, or_false] at hp
  rcases hp with rfl | rfl
  · exact ⟨0, by simp [Particle.init]⟩
  · fin_cases a
    · exact ⟨1, by simp⟩
    · exact ⟨0, by simp⟩

lemma int_noTiny {g : Axes 2 ℝ} {ps : List (Particle 2 ℝ)} (hpos : ∀ p ∈ ps, ∀ a, ∃ k : ℤ, p.x a = k)
    (hnode : ∀ i, IsNode g i → ∀ a, ∃ k : ℤ, nodeAt g i a = k) : NoTinyWeights .two 1 g ps := by
  intro q hq j hj
  have hN : ∀ a, N .two ((q.x a - nodeAt g j a) / 1) = 0 ∨ 1 / 8 ≤ N .two ((q.x a - nodeAt g j a) / 1) := by
    intro a
    obtain ⟨i, hi⟩ := hpos q hq a
    obtain ⟨z, hz⟩ := hnode j hj a
    have : (q.x a - nodeAt g j a) / 1 = ((i - z : ℤ) : ℝ) := by rw [hi, hz]; push_cast; ring
    rw [this]
    exact N2_int _
  simp only [shape, Fin.prod_univ_two]
  rcases hN 0 with h0 | h0
  · left; rw [h0, zero_mul]
  rcases hN 1 with h1 | h1
  · left; rw [h1, mul_zero]
  right
  have := mul_le_mul h0 h1 (by norm_num) (by linarith)
  refine lt_of_lt_of_le ?_ this
  norm_num

lemma wheel_run (musl : Bool) : ∃ t w, .particles 1 t w ∈ filesOf (runProgram (setup musl 1 .noPlasticity) true false 10 (start wheel 0)) := by
  have hcrit := only_begin_slow (R := setup musl 1 .noPlasticity) rfl (ps := wheel) (by simp [wheel]) wheel_slow 0 (pl := [])
  obtain ⟨r, h1, -, t, w, h2, -⟩ := C61_completes (R := setup musl 1 .noPlasticity) (s := start wheel 0) (deg := .two)
    (dx := 1) (fr := -19 / 20) (m := 3) (vol := 1) (i := true) (e := false) (fuel := 10)
    rfl one_pos rfl rfl (by simp [start, wheel]) (fun _ _ => by simp [setup]) (.inl (.inl ⟨rfl, rfl⟩))
    (.inl rfl) rfl (by norm_num [setup, cfg, exConfig]) (by norm_num) (by norm_num [setup, cfg, exConfig])
    (by norm_num [setup, cfg, exConfig]) rfl (by norm_num [setup, cfg, exConfig])
    (fun k s1 hr hk => absurd (hcrit k s1 hr) hk.ne')
  refine ⟨t 1, w 1, ?_⟩
  rw [h1]
  show _ ∈ r.out
  rw [h2]
  simp [frameFiles, setup, cfg, exConfig]

/-- **C115** A body that turns like a rigid body does not stay free of stresses: in the first frame after the start all particles of the wheel are
under tension. -/
theorem C115_rigid_false (musl : Bool) : ∃ t w,
    .particles 1 t w ∈ filesOf (runProgram (setup musl 1 .noPlasticity) true false 10 (start wheel 0)) ∧
    ∀ q ∈ w.ps, savedP q.tau < 0 := by
  obtain ⟨t, w, hev⟩ := wheel_run musl
  refine ⟨t, w, hev, ?_⟩
  rcases run_particles (d := 0) hev (by simp [start]) with ⟨hh, -, -⟩ | ⟨s1, dt, g, hst, rfl⟩
  · cases hh
  obtain ⟨m0, h0, h1⟩ := run_lattice (d := 0) (R := setup musl 1 .noPlasticity) (dx := 1) rfl one_pos rfl rfl (by simp [start, wheel]) hst
  have hst' := hst
  obtain ⟨k, hr, -⟩ := hst'
  have hk := only_begin_slow (R := setup musl 1 .noPlasticity) rfl (ps := wheel) (by simp [wheel]) wheel_slow 0 k s1 hr
  subst hk
  cases hr
  have hw : (begin (d := 0) (setup musl 1 .noPlasticity) (start wheel 0)).w.ps = wheel := by
    rw [begin_w]; simp [fillMuI, setup, start, mkTransferParams]
  have hp : (begin (d := 0) (setup musl 1 .noPlasticity) (start wheel 0)).w.plates = [] := by
    rw [begin_w]; simp [fillMuI, setup, start, mkTransferParams]
  have hm : ∀ a, ∃ j : ℤ, m0 a = j := by
    intro a
    rcases (h0 a).1 with ⟨x, hx, e⟩ | ⟨r, hr, _⟩
    · obtain ⟨q, hq, rfl⟩ := List.mem_map.mp hx
      obtain ⟨j, hj⟩ := wheel_pos q hq a
      exact ⟨j, by rw [← e, hj]⟩
    · cases hr
  have hnode : ∀ i, IsNode w.g i → ∀ a, ∃ k : ℤ, nodeAt w.g i a = k := by
    intro j hj a
    obtain ⟨k, hk⟩ := h1 a _ (List.getElem_mem (hj a))
    obtain ⟨z, hz⟩ := hm a
    refine ⟨z + k, ?_⟩
    rw [nodeAt, List.getD_eq_getElem?_getD, List.getElem?_eq_getElem (hj a), Option.getD_some, hk, hz]
    push_cast; ring
  have htiny : NoTinyWeights .two 1 w.g wheel := int_noTiny wheel_pos hnode
  have hdt : 0 < dt := lt_of_lt_of_le (by norm_num [setup, cfg, exConfig]) hst.dt_ge.1
  intro q hq
  obtain ⟨T, -, h2, -, h3, -⟩ := C115_plane (R := setup musl 1 .noPlasticity) (deg := .two) (dx := 1) (fr := -19 / 20) (m := 3) (vol := 1)
    (mibf := false) (ω := 1 / 2) (a := 0) (o := m0) rfl (by simp) one_pos (by norm_num) (by norm_num) rfl rfl rfl hp (fun _ => by simp [setup])
    hst.phys h1 (by rw [hw]; exact htiny) (by rw [hw]; exact wheel_moves) (by rw [hw]; exact fun p hp => (wheel_free p hp).1)
    (by rw [hw]; exact fun p hp => (wheel_free p hp).2) someSvd_isSvd rfl q hq
  have hT : 0 < T := by
    rw [h3 rfl]
    exact (C115_size (by norm_num [setup, Ex.mat, Material.lam, Material.mu]) (by norm_num) hdt).1
  rw [h2]
  linarith

end
end RunEx
end Verif.Props
