import Verif.Props.Inversion
import Verif.Props.Bookkeeping
import Verif.Props.Bounds
import Verif.Props.Local
import Mathlib.Analysis.Calculus.FDeriv.Comp
import Mathlib.Analysis.Calculus.FDeriv.Pi
import Mathlib.Analysis.Calculus.FDeriv.Mul
import Mathlib.Analysis.Calculus.Deriv.Comp
import Mathlib.Analysis.Calculus.Deriv.Pi
import Mathlib.Topology.Algebra.Module.FiniteDimension
import Mathlib.LinearAlgebra.Matrix.ToLin

set_option linter.unusedSectionVars false
set_option linter.unusedSimpArgs false
set_option linter.unusedVariables false

/-!
# C102: deformation gradients are the Jacobians of the motion
-/

namespace Verif.Props
open Verif Matrix

/-! ### specification -/

section spec
variable {d : ℕ}

/-- The velocity field of a grid with the nodal velocities `v`: interpolation with the shape functions. -/
noncomputable def field (deg : Deg) (dx : ℝ) (g : Axes d ℝ) (v : ℕ → Fin d → ℝ) (y : Fin d → ℝ) : Fin d → ℝ :=
  ∑ i ∈ gridIndices g, shape deg dx (nodeAt g i) y • v (flatIndex g.size i)

/-- The motion of the points of space during a step of length `dt`: every point moves with the velocity field of the grid
of the step. -/
noncomputable def advect (deg : Deg) (dx dt : ℝ) (w : World d) (y : Fin d → ℝ) : Fin d → ℝ :=
  y + dt • field deg dx w.g w.vel y

/-- The Jacobian matrix of a map. -/
noncomputable def jacobian (Φ : (Fin d → ℝ) → (Fin d → ℝ)) (y : Fin d → ℝ) : Matrix (Fin d) (Fin d) ℝ :=
  LinearMap.toMatrix' (fderiv ℝ Φ y : (Fin d → ℝ) →ₗ[ℝ] (Fin d → ℝ))

/-- `Motion deg dx R s w Φ`: in a run on the state `s` the loop gets to `w`, and `Φ` is the motion of the points of
space since the start of the run: the composition of the motions of the steps. -/
inductive Motion (deg : Deg) (dx : ℝ) (R : Setup (d + 2)) (s : LoopState (d + 2) (World (d + 2))) :
    World (d + 2) → ((Fin (d + 2) → ℝ) → (Fin (d + 2) → ℝ)) → Prop
  | start : Motion deg dx R s (begin R s).w id
  | step {s1 : LoopState (d + 2) (World (d + 2))} {dt : ℝ} {g : Fin (d + 2) → ℝ} {w : World (d + 2)}
      {Φ : (Fin (d + 2) → ℝ) → (Fin (d + 2) → ℝ)} : Motion deg dx R s s1.w Φ → StepOf R s s1 dt g w →
      Motion deg dx R s w (advect deg dx dt w ∘ Φ)

end spec

/-! ### derivatives -/

section deriv
variable {d : ℕ} {deg : Deg} {dx dt : ℝ}

lemma hasFDerivAt_shape (hd : deg ≠ .one) (X x : Fin d → ℝ) :
    HasFDerivAt (shape deg dx X) (∑ b, shapeGrad deg dx X x b • (ContinuousLinearMap.proj b : (Fin d → ℝ) →L[ℝ] ℝ)) x := by
  have h1 : ∀ a ∈ (Finset.univ : Finset (Fin d)), HasFDerivAt (fun y : Fin d → ℝ => N deg ((y a - X a) / dx))
      ((dNdu deg ((x a - X a) / dx) / dx) • (ContinuousLinearMap.proj a : (Fin d → ℝ) →L[ℝ] ℝ)) x := by
    intro a _
    have h2 : HasFDerivAt (fun y : Fin d → ℝ => (y a - X a) / dx)
        (dx⁻¹ • (ContinuousLinearMap.proj a : (Fin d → ℝ) →L[ℝ] ℝ)) x := by
      have h0 : HasFDerivAt (fun y : Fin d → ℝ => y a) (ContinuousLinearMap.proj a : (Fin d → ℝ) →L[ℝ] ℝ) x :=
        (ContinuousLinearMap.proj a : (Fin d → ℝ) →L[ℝ] ℝ).hasFDerivAt
      have := (h0.sub_const (X a)).const_mul dx⁻¹
      simpa only [div_eq_inv_mul] using this
    have := (C12_derivative hd ((x a - X a) / dx)).comp_hasFDerivAt x h2
    rw [smul_smul, ← div_eq_mul_inv] at this
    exact this
  have := HasFDerivAt.finset_prod h1
  refine this.congr_fderiv ?_
  refine Finset.sum_congr rfl fun b _ => ?_
  rw [smul_smul]
  congr 1
  unfold shapeGrad
  rw [← Finset.mul_prod_erase Finset.univ _ (Finset.mem_univ b), if_pos rfl, mul_comm]
  congr 1
  exact Finset.prod_congr rfl fun a ha => by rw [if_neg (Finset.ne_of_mem_erase ha)]

/-- The gradient of the velocity field. -/
noncomputable def velGrad (deg : Deg) (dx : ℝ) (g : Axes d ℝ) (v : ℕ → Fin d → ℝ) (y : Fin d → ℝ) :
    Matrix (Fin d) (Fin d) ℝ :=
  ∑ i ∈ gridIndices g, vecMulVec (v (flatIndex g.size i)) (shapeGrad deg dx (nodeAt g i) y)

/-- A matrix as a continuous linear map. -/
noncomputable def clm (A : Matrix (Fin d) (Fin d) ℝ) : (Fin d → ℝ) →L[ℝ] (Fin d → ℝ) :=
  LinearMap.toContinuousLinearMap (Matrix.toLin' A)

lemma clm_apply (A : Matrix (Fin d) (Fin d) ℝ) (y : Fin d → ℝ) : clm A y = A *ᵥ y := by
  simp [clm]

lemma toMatrix_clm (A : Matrix (Fin d) (Fin d) ℝ) :
    LinearMap.toMatrix' (clm A : (Fin d → ℝ) →ₗ[ℝ] (Fin d → ℝ)) = A := by
  simp [clm]

lemma jacobian_eq {Φ : (Fin d → ℝ) → (Fin d → ℝ)} {y : Fin d → ℝ} {A : Matrix (Fin d) (Fin d) ℝ}
    (h : HasFDerivAt Φ (clm A) y) : jacobian Φ y = A := by
  rw [jacobian, h.fderiv, toMatrix_clm]

lemma hasFDerivAt_field (hd : deg ≠ .one) (g : Axes d ℝ) (v : ℕ → Fin d → ℝ) (y : Fin d → ℝ) :
    HasFDerivAt (field deg dx g v) (clm (velGrad deg dx g v y)) y := by
  have h1 : ∀ i ∈ gridIndices g, HasFDerivAt (fun y => shape deg dx (nodeAt g i) y • v (flatIndex g.size i)) _ y :=
    fun i _ => (hasFDerivAt_shape hd (nodeAt g i) y).smul_const (v (flatIndex g.size i))
  have := HasFDerivAt.fun_sum h1
  refine this.congr_fderiv ?_
  ext z a
  rw [clm_apply, velGrad, Matrix.sum_mulVec, Finset.sum_apply]
  simp only [ContinuousLinearMap.sum_apply, ContinuousLinearMap.smulRight_apply, ContinuousLinearMap.smul_apply,
    ContinuousLinearMap.proj_apply, Finset.sum_apply, Pi.smul_apply, smul_eq_mul]
  refine Finset.sum_congr rfl fun i _ => ?_
  simp only [mulVec, vecMulVec_apply, dotProduct]
  rw [Finset.sum_mul]
  exact Finset.sum_congr rfl fun b _ => by ring

lemma hasFDerivAt_advect (hd : deg ≠ .one) (w : World d) (y : Fin d → ℝ) :
    HasFDerivAt (advect deg dx dt w) (clm (1 + dt • velGrad deg dx w.g w.vel y)) y := by
  have h1 : HasFDerivAt (fun y : Fin d → ℝ => y + dt • field deg dx w.g w.vel y) _ y :=
    (hasFDerivAt_id y).add ((hasFDerivAt_field (dx := dx) hd w.g w.vel y).const_smul dt)
  refine h1.congr_fderiv ?_
  ext z a
  simp [clm_apply, Matrix.add_mulVec, Matrix.smul_mulVec]

lemma jacobian_comp {Φ Ψ : (Fin d → ℝ) → (Fin d → ℝ)} {y : Fin d → ℝ} (h1 : DifferentiableAt ℝ Ψ y)
    (h2 : DifferentiableAt ℝ Φ (Ψ y)) : jacobian (Φ ∘ Ψ) y = jacobian Φ (Ψ y) * jacobian Ψ y := by
  unfold jacobian
  rw [fderiv_comp y h2 h1, ← LinearMap.toMatrix'_comp]
  rfl

lemma interpGrad_velGrad {g : Axes d ℝ} {x : Fin d → ℝ} {st : Stencil d ℝ} (hg : GoodAt deg dx g x st)
    (v : ℕ → Fin d → ℝ) : interpGrad g.size v st = velGrad deg dx g v x := by
  rw [interpGrad_eq, velGrad, ← hg.sum_nodes (fun i => vecMulVec (v (flatIndex g.size i)) (shapeGrad deg dx (nodeAt g i) x))
      fun i _ h0 => by simp only [shapeGrad_eq_zero h0, vecMulVec_zero]]
  exact Finset.sum_congr rfl fun c _ => by simp only [hg.wgrad c, hg.pos c]

lemma interpV_field {g : Axes d ℝ} {x : Fin d → ℝ} {st : Stencil d ℝ} (hg : GoodAt deg dx g x st)
    (v : ℕ → Fin d → ℝ) : interpV g.size v st = field deg dx g v x := by
  rw [interpV_eq, field, ← hg.sum_nodes (fun i => shape deg dx (nodeAt g i) x • v (flatIndex g.size i))
      fun i _ h0 => by simp only [h0, zero_smul]]
  exact Finset.sum_congr rfl fun c _ => by simp only [hg.weight c, hg.pos c]

/-- **C12** The gradient that forces and velocity gradients use is the gradient of the shape function of the node that
masses and velocities use, in every direction. -/
theorem C12_gradient (hd : deg ≠ .one) (X x : Fin d → ℝ) (b : Fin d) :
    HasDerivAt (fun t => shape deg dx X (Function.update x b t)) (shapeGrad deg dx X x b) (x b) := by
  have h1 : HasDerivAt (fun t => Function.update x b t) (Pi.single b 1) (x b) := hasDerivAt_update x b (x b)
  have h2 := hasFDerivAt_shape (dx := dx) hd X x
  rw [show x = Function.update x b (x b) by simp] at h2
  have h3 := h2.comp_hasDerivAt (x b) h1
  refine h3.congr_deriv ?_
  simp only [Function.update_eq_self, _root_.sum_apply, _root_.smul_apply,
    ContinuousLinearMap.proj_apply, smul_eq_mul]
  rw [Finset.sum_eq_single b (fun a _ ha => by rw [Pi.single_eq_of_ne ha, mul_zero]) (by simp)]
  simp

/-- **C83** Every component of the velocity gradient at a particle is at most the largest velocity difference between
neighbouring nodes around it, divided by the grid spacing. -/
theorem C83_gradient {g : Axes d ℝ} {x : Fin d → ℝ} {v : ℕ → Fin d → ℝ} {δ : ℝ} (hd : deg ≠ .one) (hdx : 0 < dx)
    (hu : ∀ a, UniformAxis dx (g a)) (hi : ∀ a, InsideAxis dx (g a) (x a)) (h : NodesAlike deg dx g v x δ)
    (a b : Fin d) : |jacobian (field deg dx g v) x a b| ≤ δ / dx := by
  obtain ⟨st, h1, h2⟩ := interpGrad_le hd hdx hu hi h a b
  have hg := goodAt (deg := deg) hdx hu hi
  rw [jacobian_eq (hasFDerivAt_field hd g v x), ← interpGrad_velGrad hg]
  rw [hg.g2p] at h1
  rwa [Option.some.inj h1]

end deriv

/-! ### a step -/

section run
variable {d : ℕ} {R : Setup (d + 2)} {s : LoopState (d + 2) (World (d + 2))} {i e : Bool} {fuel : ℕ}
variable {deg : Deg} {dx fr m vol : ℝ} {mibf : Bool}

lemma forall₂_imp_mem {α β : Type*} {P Q : α → β → Prop} : ∀ {l : List α} {r : List β}, List.Forall₂ P l r →
    (∀ a ∈ l, ∀ b, P a b → Q a b) → List.Forall₂ Q l r
  | _, _, .nil, _ => .nil
  | _, _, .cons h t, H => .cons (H _ (by simp) _ h) (forall₂_imp_mem t fun a ha => H a (by simp [ha]))

lemma forall₂_imp_mem₂ {α β : Type*} {P Q : α → β → Prop} : ∀ {l : List α} {r : List β}, List.Forall₂ P l r →
    (∀ a ∈ l, ∀ b ∈ r, P a b → Q a b) → List.Forall₂ Q l r
  | _, _, .nil, _ => .nil
  | _, _, .cons h t, H => .cons (H _ (by simp) _ (by simp) h)
      (forall₂_imp_mem₂ t fun a ha b hb => H a (by simp [ha]) b (by simp [hb]))

lemma step_motion {dt time : ℝ} {grav : Fin (d + 2) → ℝ} {n : ℕ} {w w' : World (d + 2)} {ex : Bool}
    (hS : R.S.P = mkTransferParams deg dx fr mibf m vol) (hdx : 0 < dx) (hpbc : R.S.pbc = false)
    (hch : R.S.changePos = false) (hsched : ∀ ps, (R.sched n ps).flatten.Perm ps)
    (h : physStep R w dt grav time n = some (w', ex)) :
    List.Forall₂ (fun p q => ∃ r o, plasticUpdate R dt r = some o ∧ q.F = o.1.F ∧ q.epsPlVol = o.1.epsPlVol ∧
      r.F = (1 + dt • velGrad deg dx w'.g w'.vel p.x) * p.F ∧ r.epsPlVol = p.epsPlVol ∧
      (R.S.useMusl = false → q.x = advect deg dx dt w' p.x) ∧ q.tau = o.1.tau ∧ (ex = false → o.2 = false)) w.ps w'.ps := by
  have hP : R.S.P.deg = deg := by rw [hS]; rfl
  have hP1 : R.S.P.oneOverDx = 1 / dx := by rw [hS]; rfl
  have hPdx : R.S.P.dx = dx := by rw [hS]; rfl
  have hgood := physStep_goodGrid hpbc (by rw [hPdx]; exact hdx) (by rw [hS]; rfl) h
  rw [hPdx] at hgood
  obtain ⟨bg, hbg, hbg2⟩ := physStep_choose h
  rw [hbg2] at hgood
  rw [physStep_good hpbc hP hP1 hsched hbg hgood] at h
  obtain ⟨qs, hqs, h1⟩ := Option.map_eq_some_iff.mp h
  obtain ⟨rfl, hex⟩ := Prod.mk.inj h1
  rw [List.forall₂_map_right_iff]
  refine forall₂_imp_mem₂ (mapM_forall₂ hqs) fun p hp o hoq ho => ?_
  have hg := hgood.good (deg := deg) hp
  simp only [particleStep] at ho
  refine ⟨_, o, ho, rfl, rfl, ?_, ?_, fun hu => ?_, rfl, fun h0 => ?_⟩
  · show trialF _ _ _ = _
    rw [trialF, interpGrad_velGrad hg, add_mul, one_mul, smul_mul_assoc]
  · by_cases hu : R.S.useMusl = true
    · simp only [if_pos hu]; rfl
    · simp only [if_neg hu]; rfl
  · simp only [hu, Bool.false_eq_true, if_false] at ho
    obtain ⟨out, hout, rfl⟩ := plasticUpdate_some ho
    have hm := motion_plasticity hout
    simp only [positionParticle, hch, Bool.false_eq_true, if_false, advect]
    rw [hm.1, hm.2.2.1]
    simp only [g2pTransfer]
    rw [interpV_field hg]
    congr 2
    unfold gradVel
    simp only [hu, Bool.false_eq_true, if_false]
  · rw [h0] at hex
    exact Bool.eq_false_iff.mpr fun h1 => by
      rw [List.any_eq_false] at hex
      exact hex o hoq h1

/-- **C102** A step of a run, with or without MUSL: the deformation gradient handed to the plastic model is the Jacobian
of the motion with the velocity field of the grid of the step (the one in the grid file), times the old deformation
gradient; without plasticity it is the new deformation gradient. Without MUSL the particle itself moves like that. -/
theorem C102_step {s1 : LoopState (d + 2) (World (d + 2))} {dt : ℝ} {g : Fin (d + 2) → ℝ} {w : World (d + 2)}
    (hS : R.S.P = mkTransferParams deg dx fr mibf m vol) (hd : deg ≠ .one) (hdx : 0 < dx) (hpbc : R.S.pbc = false)
    (hch : R.S.changePos = false) (hsched : ∀ k ps, (R.sched k ps).flatten.Perm ps) (hst : StepOf R s s1 dt g w) :
    List.Forall₂ (fun p q =>
      (∃ r o, plasticity R.cabs R.svd R.m dt r false = some o ∧ r.F = jacobian (advect deg dx dt w) p.x * p.F ∧
        r.epsPlVol = p.epsPlVol ∧ q.F = o.q.F ∧ q.epsPlVol = o.q.epsPlVol) ∧
      (R.m.plastic = .noPlasticity → q.F = jacobian (advect deg dx dt w) p.x * p.F) ∧
      (R.S.useMusl = false → q.x = advect deg dx dt w p.x)) s1.w.ps w.ps := by
  refine (step_motion hS hdx hpbc hch (hsched _) hst.phys).imp fun p q ⟨r, o, h1, h2, h3, h4, h5, h6, _⟩ => ?_
  obtain ⟨out, ho, rfl⟩ := plasticUpdate_some h1
  have hj : jacobian (advect deg dx dt w) p.x = 1 + dt • velGrad deg dx w.g w.vel p.x :=
    jacobian_eq (hasFDerivAt_advect hd w p.x)
  rw [← hj] at h4
  refine ⟨⟨r, out, ho, h4, h5, h2, h3⟩, fun hm => ?_, h6⟩
  obtain ⟨st, hst, rfl⟩ := plasticity_some.mp ho
  rw [h2, ← h4, ((plastModel_noPlasticity hm).mp hst).2]

/-- **C65** Every step of a run, with or without MUSL: logarithmic volume plus saved volumetric plastic strain changes by
the logarithm of the Jacobian determinant of the motion with the velocity field of the grid. Plasticity moves volume
between the two but creates none. -/
theorem C65_step {s1 : LoopState (d + 2) (World (d + 2))} {dt : ℝ} {g : Fin (d + 2) → ℝ} {w : World (d + 2)}
    (hS : R.S.P = mkTransferParams deg dx fr mibf m vol) (hd : deg ≠ .one) (hdx : 0 < dx) (hpbc : R.S.pbc = false)
    (hch : R.S.changePos = false) (hsched : ∀ k ps, (R.sched k ps).flatten.Perm ps) (hsvd : ∀ F, IsSvd F (R.svd F))
    (ok : MatOk R.m (d + 2)) (htol : 0 ≤ R.m.stressTol) (hdt : dt ≠ 0) (hst : StepOf R s s1 dt g w)
    (hb : ∀ p ∈ s1.w.ps, ∀ a, 1e-4 ≤ (R.svd (jacobian (advect deg dx dt w) p.x * p.F)).sig a) :
    List.Forall₂ (fun p q => (jacobian (advect deg dx dt w) p.x).det ≠ 0 ∧
      Real.log |q.F.det| + q.epsPlVol =
        Real.log |p.F.det| + p.epsPlVol + Real.log |(jacobian (advect deg dx dt w) p.x).det|) s1.w.ps w.ps := by
  refine forall₂_imp_mem (C102_step hS hd hdx hpbc hch hsched hst) fun p hp q ⟨⟨r, o, h1, h2, h3, h4, h5⟩, _, _⟩ => ?_
  have hb' := hb p hp
  rw [← h2] at hb'
  have hne : (jacobian (advect deg dx dt w) p.x * p.F).det ≠ 0 := by
    rw [← h2, (hsvd r.F).eq, Matrix.det_mul, Matrix.det_mul, Matrix.det_diagonal]
    refine mul_ne_zero (mul_ne_zero (orth_det_ne (hsvd _).orthU) ?_) ?_
    · exact Finset.prod_ne_zero_iff.mpr fun a _ => (lt_of_lt_of_le (by norm_num) (hb' a)).ne'
    · rw [Matrix.det_transpose]; exact orth_det_ne (hsvd _).orthV
  rw [Matrix.det_mul] at hne
  have hv := C65_volume ok htol hdt (hsvd r.F) hb' h1
  refine ⟨left_ne_zero_of_mul hne, ?_⟩
  rw [h4, h5, hv, h3, h2, Matrix.det_mul, abs_mul, Real.log_mul (abs_ne_zero.mpr (left_ne_zero_of_mul hne))
    (abs_ne_zero.mpr (right_ne_zero_of_mul hne))]
  ring

lemma motion_differentiable (hd : deg ≠ .one) {w : World (d + 2)} {Φ : (Fin (d + 2) → ℝ) → (Fin (d + 2) → ℝ)}
    (h : Motion deg dx R s w Φ) : Differentiable ℝ Φ := by
  induction h with
  | start => exact differentiable_id
  | step _ _ ih => exact Differentiable.comp (fun y => (hasFDerivAt_advect hd _ y).differentiableAt) ih

lemma begin_particles : List.Forall₂ (fun p q : Particle (d + 2) ℝ => q.x = p.x ∧ q.F = p.F ∧ q.epsPlVol = p.epsPlVol)
    s.w.ps (begin R s).w.ps := by
  rw [begin_w]
  unfold fillMuI
  by_cases hmi : R.S.P.useMibf = true
  · rw [if_pos hmi]
    split_ifs
    all_goals exact forall₂_map fun p hp => ⟨rfl, rfl, rfl⟩
  · rw [if_neg hmi]
    exact List.forall₂_same.mpr fun p hp => ⟨rfl, rfl, rfl⟩

/-- How particles of a run move. -/
lemma motion_run {P : Matrix (Fin (d + 2)) (Fin (d + 2)) ℝ → Particle (d + 2) ℝ → Particle (d + 2) ℝ → Prop}
    (hd : deg ≠ .one) (hx : ∀ s1 dt g w, StepOf R s s1 dt g w →
      List.Forall₂ (fun p q => q.x = advect deg dx dt w p.x ∧
        ∀ p0 J, P J p0 p → P (jacobian (advect deg dx dt w) p.x * J) p0 q) s1.w.ps w.ps)
    (h0 : ∀ p q : Particle (d + 2) ℝ, q.F = p.F → q.epsPlVol = p.epsPlVol → P 1 p q)
    {n : ℕ} {t : ℝ} {w : World (d + 2)}
    (hev : .particles n t w ∈ filesOf (runProgram R i e fuel s)) (hnew : .particles n t w ∉ s.out) :
    ∃ Φ, Motion deg dx R s w Φ ∧ Differentiable ℝ Φ ∧
      List.Forall₂ (fun p q => q.x = Φ p.x ∧ P (jacobian Φ p.x) p q) s.w.ps w.ps := by
  let Inv : World (d + 2) → ℝ → ℕ → (Fin (d + 2) → ℝ) → Prop := fun w _ _ _ => ∃ Φ, Motion deg dx R s w Φ ∧
    List.Forall₂ (fun p q => q.x = Φ p.x ∧ P (jacobian Φ p.x) p q) s.w.ps w.ps
  have hI0 : Inv (begin R s).w 0 s.step s.gravity := by
    refine ⟨id, .start, begin_particles.imp fun p q ⟨h1, h2, h3⟩ => ⟨h1, ?_⟩⟩
    have : jacobian id p.x = 1 := by
      unfold jacobian
      rw [fderiv_id]
      exact LinearMap.toMatrix'_id
    rw [this]
    exact h0 p q h2 h3
  have hIs : ∀ s1 dt g w, StepOf R s s1 dt g w → Inv s1.w s1.time s1.step s1.gravity →
      Inv w (s1.time + dt) (s1.step + 1) g := by
    rintro s1 dt g w hst ⟨Φ, hM, hF⟩
    refine ⟨_, hM.step hst, (forall₂_trans hF (hx s1 dt g w hst)).imp ?_⟩
    rintro p r ⟨q, ⟨h1, h2⟩, h3, h4⟩
    refine ⟨by rw [h3, h1]; rfl, ?_⟩
    rw [jacobian_comp (motion_differentiable hd hM _) (hasFDerivAt_advect hd _ _).differentiableAt, ← h1]
    exact h4 _ _ h2
  have key : Inv w 0 0 0 := by
    rcases run_particles hev hnew with ⟨rfl, rfl, rfl⟩ | ⟨s1, dt, g, hst, rfl⟩
    · exact hI0
    · exact (run_inv (Inv := Inv) hI0 hIs hst).2
  obtain ⟨Φ, hM, hF⟩ := key
  exact ⟨Φ, hM, motion_differentiable hd hM, hF⟩

/-- **C102** Without plasticity and without MUSL, in every particle file of a run: there is one motion `Φ` of the points of
space, the composition of the motions of the steps with the velocity fields of their grids, such that every particle is
at the image of its initial position, and its deformation gradient is the Jacobian of `Φ` at its initial position (times
its initial deformation gradient). -/
theorem C102_run (hS : R.S.P = mkTransferParams deg dx fr mibf m vol) (hd : deg ≠ .one) (hdx : 0 < dx)
    (hpbc : R.S.pbc = false) (hch : R.S.changePos = false) (hsched : ∀ k ps, (R.sched k ps).flatten.Perm ps)
    (hu : R.S.useMusl = false) (hm : R.m.plastic = .noPlasticity) {n : ℕ} {t : ℝ} {w : World (d + 2)}
    (hev : .particles n t w ∈ filesOf (runProgram R i e fuel s)) (hnew : .particles n t w ∉ s.out) :
    ∃ Φ, Motion deg dx R s w Φ ∧ Differentiable ℝ Φ ∧
      List.Forall₂ (fun p q => q.x = Φ p.x ∧ q.F = jacobian Φ p.x * p.F) s.w.ps w.ps :=
  motion_run (P := fun J p q => q.F = J * p.F) hd (fun s1 dt g w hst =>
    (C102_step hS hd hdx hpbc hch hsched hst).imp fun p q ⟨_, h1, h2⟩ =>
      ⟨h2 hu, fun p0 J h => by rw [h1 hm, h, Matrix.mul_assoc]⟩)
    (fun p q h _ => by rw [h, one_mul]) hev hnew

/-- **C102** With any plastic model, without MUSL, as long as the singular values of the trial deformation gradients are
at least `1e-4`: logarithmic (elastic) volume plus saved volumetric plastic strain of a particle is the logarithm of the
Jacobian determinant of the motion at its initial position (plus the initial value): elastic and plastic volume changes
multiply to the change of volume of the motion. -/
theorem C102_volume (hS : R.S.P = mkTransferParams deg dx fr mibf m vol) (hd : deg ≠ .one) (hdx : 0 < dx)
    (hpbc : R.S.pbc = false) (hch : R.S.changePos = false) (hsched : ∀ k ps, (R.sched k ps).flatten.Perm ps)
    (hu : R.S.useMusl = false) (hsvd : ∀ F, IsSvd F (R.svd F)) (ok : MatOk R.m (d + 2)) (htol : 0 ≤ R.m.stressTol)
    (hmin : 0 < R.C.minDt)
    (hb : ∀ s1 dt g w, StepOf R s s1 dt g w → ∀ p ∈ s1.w.ps, ∀ a,
      1e-4 ≤ (R.svd (jacobian (advect deg dx dt w) p.x * p.F)).sig a) {n : ℕ} {t : ℝ} {w : World (d + 2)}
    (hev : .particles n t w ∈ filesOf (runProgram R i e fuel s)) (hnew : .particles n t w ∉ s.out) :
    ∃ Φ, Motion deg dx R s w Φ ∧ Differentiable ℝ Φ ∧
      List.Forall₂ (fun p q => q.x = Φ p.x ∧ (jacobian Φ p.x).det ≠ 0 ∧
        Real.log |q.F.det| + q.epsPlVol = Real.log |p.F.det| + p.epsPlVol + Real.log |(jacobian Φ p.x).det|)
        s.w.ps w.ps := by
  refine motion_run (P := fun J p q => J.det ≠ 0 ∧
    Real.log |q.F.det| + q.epsPlVol = Real.log |p.F.det| + p.epsPlVol + Real.log |J.det|) hd (fun s1 dt g w hst => ?_)
    (fun p q h1 h2 => by rw [h1, h2]; simp) hev hnew
  have hdt : 0 < dt := lt_of_lt_of_le hmin hst.dt_ge.1
  have h1 := C102_step hS hd hdx hpbc hch hsched hst
  have h2 := C65_step hS hd hdx hpbc hch hsched hsvd ok htol hdt.ne' hst (hb s1 dt g w hst)
  have h3 : List.Forall₂ (fun p q => q.x = advect deg dx dt w p.x ∧ ((jacobian (advect deg dx dt w) p.x).det ≠ 0 ∧
      Real.log |q.F.det| + q.epsPlVol =
        Real.log |p.F.det| + p.epsPlVol + Real.log |(jacobian (advect deg dx dt w) p.x).det|)) s1.w.ps w.ps :=
    (List.forall₂_iff_zip.mp h1).elim fun hl H1 => List.forall₂_iff_zip.mpr ⟨hl, fun hp =>
      ⟨(H1 hp).2.2 hu, (List.forall₂_iff_zip.mp h2).2 hp⟩⟩
  refine h3.imp fun p q ⟨hx, hJ, hv⟩ => ⟨hx, fun p0 J ⟨hJ0, hv0⟩ => ?_⟩
  rw [Matrix.det_mul]
  refine ⟨mul_ne_zero hJ hJ0, ?_⟩
  rw [hv, hv0, abs_mul, Real.log_mul (abs_ne_zero.mpr hJ) (abs_ne_zero.mpr hJ0)]
  ring

end run

end Verif.Props
