import Verif.Lemmas.Textbook
import Verif.Lemmas.Svd
import Mathlib.Algebra.Ring.Int.Units

set_option linter.unusedSectionVars false
set_option linter.unusedSimpArgs false
set_option linter.unusedVariables false

/-!
# The method in a mirror

`sg a = -1`: direction `a` is reversed; `c` is a shift.
-/

namespace Verif
open Matrix

variable {d : ℕ}

/-! ### mirror images -/

/-- A vector in the mirror. -/
def mirV (sg : Fin d → ℤˣ) (v : Fin d → ℝ) : Fin d → ℝ := fun a => ((sg a : ℤ) : ℝ) * v a

/-- A point in the mirror. -/
def mirX (sg : Fin d → ℤˣ) (c x : Fin d → ℝ) : Fin d → ℝ := fun a => ((sg a : ℤ) : ℝ) * x a + c a

/-- A tensor in the mirror. -/
def mirM (sg : Fin d → ℤˣ) (M : Matrix (Fin d) (Fin d) ℝ) : Matrix (Fin d) (Fin d) ℝ :=
  fun a b => ((sg a : ℤ) : ℝ) * M a b * ((sg b : ℤ) : ℝ)

/-- A particle in the mirror. -/
def mirP (sg : Fin d → ℤˣ) (c : Fin d → ℝ) (p : Particle d ℝ) : Particle d ℝ :=
  { p with
    x := mirX sg c p.x
    v := mirV sg p.v
    pic := mirV sg p.pic
    flip := mirV sg p.flip
    F := mirM sg p.F
    Bmat := mirM sg p.Bmat
    tau := mirM sg p.tau }

/-- An object in the mirror. -/
def mirObj (sg : Fin d → ℤˣ) (c : Fin d → ℝ) (o : GenObject d) : GenObject d :=
  { o with
    inside := fun X => o.inside (mirV sg (X - c))
    normal := fun X => mirV sg (o.normal (mirV sg (X - c))) }

variable {sg : Fin d → ℤˣ} {c : Fin d → ℝ}

lemma sg_mul (a : Fin d) : ((sg a : ℤ) : ℝ) * ((sg a : ℤ) : ℝ) = 1 := by
  rcases Int.units_eq_one_or (sg a) with h | h <;> rw [h] <;> norm_num

lemma sg_cases (a : Fin d) : ((sg a : ℤ) : ℝ) = 1 ∨ ((sg a : ℤ) : ℝ) = -1 := by
  rcases Int.units_eq_one_or (sg a) with h | h <;> rw [h] <;> norm_num

lemma mirV_mirV (v : Fin d → ℝ) : mirV sg (mirV sg v) = v := by
  funext a; simp only [mirV, ← mul_assoc, sg_mul, one_mul]

lemma mirV_add (u v : Fin d → ℝ) : mirV sg (u + v) = mirV sg u + mirV sg v := by
  funext a; simp [mirV, mul_add]

lemma mirV_sub (u v : Fin d → ℝ) : mirV sg (u - v) = mirV sg u - mirV sg v := by
  funext a; simp [mirV, mul_sub]

lemma mirV_neg (v : Fin d → ℝ) : mirV sg (-v) = -mirV sg v := by
  funext a; simp [mirV]

lemma mirV_smul (r : ℝ) (v : Fin d → ℝ) : mirV sg (r • v) = r • mirV sg v := by
  funext a; simp only [mirV, Pi.smul_apply, smul_eq_mul]; ring

@[simp] lemma mirV_zero : mirV sg (0 : Fin d → ℝ) = 0 := by funext a; simp [mirV]

lemma mirV_dot (u v : Fin d → ℝ) : mirV sg u ⬝ᵥ mirV sg v = u ⬝ᵥ v := by
  simp only [dotProduct, mirV]
  refine Finset.sum_congr rfl fun a _ => ?_
  rw [mul_mul_mul_comm, sg_mul, one_mul]

/-- The mirror as a linear map. -/
def mirL (sg : Fin d → ℤˣ) : (Fin d → ℝ) →ₗ[ℝ] (Fin d → ℝ) where
  toFun := mirV sg
  map_add' := mirV_add
  map_smul' := mirV_smul

lemma mirX_sub (x y : Fin d → ℝ) : mirX sg c x - mirX sg c y = mirV sg (x - y) := by
  funext a; simp only [mirX, mirV, Pi.sub_apply]; ring

lemma mirX_add (x v : Fin d → ℝ) : mirX sg c x + mirV sg v = mirX sg c (x + v) := by
  funext a; simp only [mirX, mirV, Pi.add_apply]; ring

lemma mirV_mirX (x : Fin d → ℝ) : mirV sg (mirX sg c x - c) = x := by
  funext a
  simp only [mirX, mirV, Pi.sub_apply, add_sub_cancel_right, ← mul_assoc, sg_mul, one_mul]

/-- The mirror as a matrix. -/
def mirQ (sg : Fin d → ℤˣ) : Matrix (Fin d) (Fin d) ℝ := diagonal fun a => ((sg a : ℤ) : ℝ)

lemma mirQ_mul : mirQ sg * mirQ sg = 1 := by
  rw [mirQ, diagonal_mul_diagonal]
  simp only [sg_mul]
  exact diagonal_one

lemma mirQ_transpose : (mirQ sg)ᵀ = mirQ sg := diagonal_transpose _

lemma mirM_eq (M : Matrix (Fin d) (Fin d) ℝ) : mirM sg M = mirQ sg * M * mirQ sg := by
  ext a b
  rw [mirQ, mul_diagonal, diagonal_mul]
  rfl

lemma mirM_mirM (M : Matrix (Fin d) (Fin d) ℝ) : mirM sg (mirM sg M) = M := by
  ext a b
  simp only [mirM]
  calc _ = (((sg a : ℤ) : ℝ) * ((sg a : ℤ) : ℝ)) * M a b * (((sg b : ℤ) : ℝ) * ((sg b : ℤ) : ℝ)) := by ring
    _ = _ := by rw [sg_mul, sg_mul, one_mul, mul_one]

lemma mirM_mul (A B : Matrix (Fin d) (Fin d) ℝ) : mirM sg (A * B) = mirM sg A * mirM sg B := by
  simp only [mirM_eq]
  calc mirQ sg * (A * B) * mirQ sg = mirQ sg * A * 1 * B * mirQ sg := by simp only [Matrix.mul_assoc, Matrix.one_mul]
    _ = _ := by rw [← mirQ_mul (sg := sg)]; simp only [Matrix.mul_assoc]

lemma mirM_one : mirM sg (1 : Matrix (Fin d) (Fin d) ℝ) = 1 := by rw [mirM_eq, Matrix.mul_one, mirQ_mul]

lemma mirM_add (A B : Matrix (Fin d) (Fin d) ℝ) : mirM sg (A + B) = mirM sg A + mirM sg B := by
  ext a b; simp only [mirM, Matrix.add_apply]; ring

lemma mirM_sub (A B : Matrix (Fin d) (Fin d) ℝ) : mirM sg (A - B) = mirM sg A - mirM sg B := by
  ext a b; simp only [mirM, Matrix.sub_apply]; ring

lemma mirM_smul (r : ℝ) (A : Matrix (Fin d) (Fin d) ℝ) : mirM sg (r • A) = r • mirM sg A := by
  ext a b; simp only [mirM, Matrix.smul_apply, smul_eq_mul]; ring

@[simp] lemma mirM_zero : mirM sg (0 : Matrix (Fin d) (Fin d) ℝ) = 0 := by ext a b; simp [mirM]

lemma mirM_transpose (A : Matrix (Fin d) (Fin d) ℝ) : (mirM sg A)ᵀ = mirM sg Aᵀ := by
  ext a b; simp only [mirM, Matrix.transpose_apply]; ring

lemma mirM_det (A : Matrix (Fin d) (Fin d) ℝ) : (mirM sg A).det = A.det := by
  have h : (mirQ sg).det * (mirQ sg).det = 1 := by rw [← det_mul, mirQ_mul, det_one]
  rw [mirM_eq, det_mul, det_mul, mul_right_comm, h, one_mul]

lemma mirM_inv (A : Matrix (Fin d) (Fin d) ℝ) : (mirM sg A)⁻¹ = mirM sg A⁻¹ := by
  have h : (mirQ sg)⁻¹ = mirQ sg := Matrix.inv_eq_right_inv mirQ_mul
  rw [mirM_eq, mirM_eq, Matrix.mul_inv_rev, Matrix.mul_inv_rev, h, Matrix.mul_assoc]

lemma mirM_mulVec (A : Matrix (Fin d) (Fin d) ℝ) (v : Fin d → ℝ) : mirM sg A *ᵥ mirV sg v = mirV sg (A *ᵥ v) := by
  funext a
  simp only [mulVec, dotProduct, mirM, mirV, Finset.mul_sum]
  refine Finset.sum_congr rfl fun b _ => ?_
  calc _ = ((sg a : ℤ) : ℝ) * A a b * v b * (((sg b : ℤ) : ℝ) * ((sg b : ℤ) : ℝ)) := by ring
    _ = _ := by rw [sg_mul]; ring

lemma mirM_vecMulVec (u v : Fin d → ℝ) : vecMulVec (mirV sg u) (mirV sg v) = mirM sg (vecMulVec u v) := by
  ext a b; simp only [vecMulVec_apply, mirM, mirV]; ring

/-! ### the constitutive update -/

/-- The vectors in the mirror. -/
def mirSvdOf (sg : Fin d → ℤˣ) (s : Svd d) : Svd d := ⟨mirQ sg * s.U, s.sig, mirQ sg * s.V⟩

/-- The state with the particle in the mirror. -/
def mirSt (sg : Fin d → ℤˣ) (c : Fin d → ℝ) (st : PState d) : PState d := { st with q := mirP sg c st.q }

lemma sandwich_mir (U D V : Matrix (Fin d) (Fin d) ℝ) :
    mirQ sg * U * D * (mirQ sg * V)ᵀ = mirM sg (U * D * Vᵀ) := by
  rw [mirM_eq, Matrix.transpose_mul, mirQ_transpose]
  simp only [Matrix.mul_assoc]

lemma expF_mir (s : Svd d) (h : Fin d → ℝ) : (mirSvdOf sg s).expF h = mirM sg (s.expF h) := sandwich_mir _ _ _

lemma UV_mir (s : Svd d) : (mirSvdOf sg s).U * (mirSvdOf sg s).Vᵀ = mirM sg (s.U * s.Vᵀ) := by
  have := sandwich_mir (sg := sg) s.U 1 s.V
  rw [Matrix.mul_one, Matrix.mul_one] at this
  exact this

lemma mirSvdOf_isSvd {F : Matrix (Fin d) (Fin d) ℝ} {s : Svd d} (h : IsSvd F s) :
    IsSvd (mirM sg F) (mirSvdOf sg s) where
  eq := by
    have := sandwich_mir (sg := sg) s.U (diagonal s.sig) s.V
    rw [← h.eq] at this
    exact this.symm
  orthU := by
    have := sandwich_mir (sg := sg) s.U 1 s.U
    rw [Matrix.mul_one, Matrix.mul_one, h.orthU, mirM_one] at this
    exact this
  orthV := by
    have := sandwich_mir (sg := sg) s.V 1 s.V
    rw [Matrix.mul_one, Matrix.mul_one, h.orthV, mirM_one] at this
    exact this
  nonneg := h.nonneg

lemma plastMCC_mir (cabs : ℝ → ℝ) (m : Material) (dt : ℝ) (s : Svd d) (t : Trial d) (st : PState d) :
    plastMCC cabs m dt (mirSvdOf sg s) t (mirSt sg c st) = (plastMCC cabs m dt s t st).map (mirSt sg c) := by
  obtain ⟨⟨x, v, pic, fl, F, Bm, tau, e1, e2, e3, dg, vis, mui⟩, h, n, e⟩ := st
  by_cases hm : m.useMibf = true
  all_goals
    simp only [plastMCC, mirSt, mirP, Option.bind_eq_bind, hm, if_true, if_false,
      Bool.false_eq_true, expF_mir]
    cases mccReturn cabs m d true m.M e2 (-m.K d * t.trace) (m.eMu * t.norm) e with
    | none => rfl
    | some r =>
      obtain ⟨pc, r⟩ := r
      simp only [Option.bind_some]
      by_cases hd : r.did = true
      · by_cases hv : m.plastic = .mccVisc
        · simp only [if_pos hd, if_pos hv]
          simp [Option.map_bind, Function.comp_def, mirSt, mirP]
        · simp only [if_pos hd, if_neg hv]
          simp [Option.map_bind, Function.comp_def, mirSt, mirP]
      · simp only [if_neg hd]
        rfl

lemma plastMCCMui_mir (cabs : ℝ → ℝ) (m : Material) (dt : ℝ) (s : Svd d) (t : Trial d) (st : PState d) :
    plastMCCMui cabs m dt (mirSvdOf sg s) t (mirSt sg c st) = (plastMCCMui cabs m dt s t st).map (mirSt sg c) := by
  obtain ⟨⟨x, v, pic, fl, F, Bm, tau, e1, e2, e3, dg, vis, mui⟩, h, n, e⟩ := st
  simp only [plastMCCMui, mirSt, mirP, Option.bind_eq_bind, expF_mir]
  cases mccReturn cabs m d false m.mu1 e2 (-m.K d * t.trace) (m.eMu * t.norm) e with
  | none => rfl
  | some r =>
    obtain ⟨pc, r⟩ := r
    simp only [Option.bind_some]
    by_cases hd : r.did = true
    · simp only [if_pos hd]
      by_cases hq : m.eMu * t.norm > r.q + m.stressTol
      · simp only [if_pos hq]
        cases m.hardening <;> simp [Option.map_bind, Function.comp_def, mirSt, mirP]
      · simp only [if_neg hq]
        rfl
    · simp only [if_neg hd]
      rfl

lemma plastModel_mir (cabs : ℝ → ℝ) (m : Material) (dt : ℝ) (s : Svd d) (t : Trial d) (st : PState d) :
    plastModel cabs m dt (mirSvdOf sg s) t (mirSt sg c st) = (plastModel cabs m dt s t st).map (mirSt sg c) := by
  unfold plastModel
  cases m.plastic <;> simp only
  case noPlasticity =>
    have hF : (mirSt sg c st).q.F.det = st.q.F.det := mirM_det st.q.F
    rw [hF]
    split_ifs <;> rfl
  case mcc => exact plastMCC_mir ..
  case mccVisc => exact plastMCC_mir ..
  case mccMui => exact plastMCCMui_mir ..
  all_goals obtain ⟨⟨x, v, pic, fl, F, Bm, tau, e1, e2, e3, dg, vis, mui⟩, h, n, e⟩ := st
  case vm =>
    rw [Option.map_some]; congr 1
    simp only [plastVM, mirSt, mirP, expF_mir]
    split_ifs <;> rfl
  case dp =>
    rw [Option.map_some]; congr 1
    simp only [plastDP, mirSt, mirP, expF_mir]
    split_ifs <;> rfl
  case dpSoft =>
    rw [Option.map_some]; congr 1
    simp only [plastDPSoft, mirSt, mirP, expF_mir]
    split_ifs <;> rfl
  case vmVisc =>
    simp only [plastVMVisc, mirSt, mirP, Option.bind_eq_bind, expF_mir, UV_mir]
    by_cases h1 : -m.K d * t.trace < m.pMin * Real.exp (-m.xi * e2)
    · refine (if_pos h1).trans (Eq.trans ?_ (congrArg (Option.map (mirSt sg c)) (if_pos h1)).symm)
      rfl
    refine (if_neg h1).trans (Eq.trans ?_ (congrArg (Option.map (mirSt sg c)) (if_neg h1)).symm)
    by_cases h2 : m.eMu * t.norm > m.qMin + (m.qMax - m.qMin) * Real.exp (-m.xi * e1)
    · refine (if_pos h2).trans (Eq.trans ?_ (congrArg (Option.map (mirSt sg c)) (if_pos h2)).symm)
      simp only [Option.map_bind, Function.comp_def, mirSt, mirP, Option.map_some]
    · refine (if_neg h2).trans (Eq.trans ?_ (congrArg (Option.map (mirSt sg c)) (if_neg h2)).symm)
      rfl
  case dpVisc =>
    simp only [plastDPVisc, mirSt, mirP, expF_mir]
    split_ifs <;> simp [Option.map_bind, Function.comp_def, mirSt, mirP]
  case dpMui =>
    rw [Option.map_some]; congr 1
    simp only [plastDPMui, mirSt, mirP, expF_mir]
    split_ifs <;> rfl

lemma newTau_mir (m : Material) (s : Svd d) (h : Fin d → ℝ) (F : Matrix (Fin d) (Fin d) ℝ) :
    newTau m (mirSvdOf sg s) h (mirM sg F) = mirM sg (newTau m s h F) := by
  unfold newTau
  cases m.elastic with
  | hencky => exact sandwich_mir _ _ _
  | neoHookean =>
    simp only [neoHookeanTau, mirM_det, mirM_transpose, mirM_inv, ← mirM_smul, ← mirM_sub, ← mirM_add, ← mirM_mul]

/-- A singular value decomposition for the mirrored system. -/
def mirSvd (sg : Fin d → ℤˣ) (svd : Matrix (Fin d) (Fin d) ℝ → Svd d) : Matrix (Fin d) (Fin d) ℝ → Svd d :=
  fun F => mirSvdOf sg (svd (mirM sg F))

lemma plasticity_mir (cabs : ℝ → ℝ) (svd : Matrix (Fin d) (Fin d) ℝ → Svd d) (m : Material)
    (dt : ℝ) (q : Particle d ℝ) (e : Bool) :
    plasticity cabs (mirSvd sg svd) m dt (mirP sg c q) e = (plasticity cabs svd m dt q e).map (mirSt sg c) := by
  unfold plasticity
  have := plastModel_mir (sg := sg) (c := c) cabs m dt (svd q.F) (mkTrial (svd q.F).hencky) ⟨q, (svd q.F).hencky, 0, e⟩
  simp only [Option.bind_eq_bind]
  rw [show mirSvd sg svd (mirP sg c q).F = mirSvdOf sg (svd q.F) by
    show mirSvdOf sg (svd (mirM sg (mirM sg q.F))) = _; rw [mirM_mirM]]
  show Option.bind (plastModel cabs m dt (mirSvdOf sg (svd q.F)) (mkTrial (svd q.F).hencky)
    (mirSt sg c ⟨q, (svd q.F).hencky, 0, e⟩)) _ = _
  rw [this]
  cases plastModel cabs m dt (svd q.F) (mkTrial (svd q.F).hencky) ⟨q, (svd q.F).hencky, 0, e⟩ with
  | none => rfl
  | some st =>
    simp only [Option.map_some, Option.bind_some, Option.some.injEq]
    have h := newTau_mir (sg := sg) m (svd q.F) st.hencky st.q.F
    have h1 : (mirSt sg c st).hencky = st.hencky := rfl
    have h2 : (mirSt sg c st).q.F = mirM sg st.q.F := rfl
    rw [h1, h2, h]
    rfl

/-! ### objects -/

lemma normalized_mir (v : Fin d → ℝ) : normalized (mirV sg v) = mirV sg (normalized v) := by
  unfold normalized
  rw [mirV_dot]
  split_ifs
  · rw [mirV_smul]
  · rfl

lemma objectRel_mir (bc : BC) (fric : ℝ) (n v : Fin d → ℝ) :
    objectRel bc fric (mirV sg n) (mirV sg v) = mirV sg (objectRel bc fric n v) := by
  unfold objectRel
  have hn : ∀ v : Fin d → ℝ, vnorm (mirV sg v) = vnorm v := fun v => by rw [vnorm, vnorm, mirV_dot]
  cases bc <;> simp only [mirV_dot, ← mirV_smul, ← mirV_sub, hn, normalized_mir, ← mirV_add]
  · exact mirV_zero.symm
  · split_ifs <;> simp
  · split_ifs <;> simp

lemma collideObjects_mir (fr : ℝ → ℝ) (X : Fin d → ℝ) (objs : List (GenObject d)) (v : Fin d → ℝ) :
    collideObjects fr (mirX sg c X) (objs.map (mirObj sg c)) (mirV sg v) = mirV sg (collideObjects fr X objs v) := by
  unfold collideObjects
  induction objs generalizing v with
  | nil => rfl
  | cons o os ih =>
    rw [List.map_cons, List.foldl_cons, List.foldl_cons, ← ih]
    congr 1
    by_cases ho : o.inside X
    · rw [if_pos ho, if_pos (show (mirObj sg c o).inside (mirX sg c X) from by simpa only [mirObj, mirV_mirX] using ho)]
      simp only [mirObj, mirV_mirX, objectRel_mir]
    · rw [if_neg ho, if_neg (show ¬ (mirObj sg c o).inside (mirX sg c X) from by simpa only [mirObj, mirV_mirX] using ho)]

/-! ### shape functions -/

lemma N_mir {deg : Deg} (hd : deg ≠ .one) (a : Fin d) (u : ℝ) : N deg (((sg a : ℤ) : ℝ) * u) = N deg u := by
  rcases sg_cases (sg := sg) a with h | h <;> rw [h]
  · rw [one_mul]
  · rw [neg_one_mul]
    cases deg with
    | one => exact absurd rfl hd
    | two => exact N2_neg u
    | three => exact N3_neg u

lemma dN_mir {deg : Deg} (hd : deg ≠ .one) (a : Fin d) (u : ℝ) :
    dNdu deg (((sg a : ℤ) : ℝ) * u) = ((sg a : ℤ) : ℝ) * dNdu deg u := by
  rcases sg_cases (sg := sg) a with h | h <;> rw [h]
  · rw [one_mul, one_mul]
  · rw [neg_one_mul, neg_one_mul]
    cases deg with
    | one => exact absurd rfl hd
    | two => exact dN2_neg u
    | three => exact dN3_neg u

lemma mirX_diff (X x : Fin d → ℝ) (a : Fin d) (dx : ℝ) :
    (mirX sg c x a - mirX sg c X a) / dx = ((sg a : ℤ) : ℝ) * ((x a - X a) / dx) := by
  simp only [mirX]; ring

lemma shape_mir {deg : Deg} (hd : deg ≠ .one) (dx : ℝ) (X x : Fin d → ℝ) :
    shape deg dx (mirX sg c X) (mirX sg c x) = shape deg dx X x := by
  simp only [shape, mirX_diff, N_mir hd]

lemma shapeGrad_mir {deg : Deg} (hd : deg ≠ .one) (dx : ℝ) (X x : Fin d → ℝ) :
    shapeGrad deg dx (mirX sg c X) (mirX sg c x) = mirV sg (shapeGrad deg dx X x) := by
  funext b
  simp only [shapeGrad, mirX_diff, N_mir hd, dN_mir hd, mirV]
  rw [← Finset.mul_prod_erase _ _ (Finset.mem_univ b), ← Finset.mul_prod_erase _ _ (Finset.mem_univ b), if_pos rfl, if_pos rfl,
    mul_div_assoc, mul_assoc]
  congr 2
  refine Finset.prod_congr rfl fun a ha => ?_
  rw [if_neg (Finset.ne_of_mem_erase ha), if_neg (Finset.ne_of_mem_erase ha)]

/-! ### the method -/

/-- The scheme `S'` is `S` in the mirror, for friction coefficients in `A`. -/
structure MirScheme (sg : Fin d → ℤˣ) (c : Fin d → ℝ) (A : Set ℝ) (S S' : Mpm.Scheme d) : Prop where
  deg : S'.deg = S.deg
  odd : S.deg ≠ .one
  dx : S'.dx = S.dx
  mass : S'.mass = S.mass
  volume : S'.volume = S.volume
  ratio : S'.ratio = S.ratio
  musl : S'.musl = S.musl
  mibf : S'.mibf = S.mibf
  dt : S'.dt = S.dt
  gravity : S'.gravity = mirV sg S.gravity
  wall : ∀ μ ∈ A, ∀ X v, S'.wall μ (mirX sg c X) (mirV sg v) = mirV sg (S.wall μ X v)
  place : ∀ x, S'.place (mirX sg c x) = mirX sg c (S.place x)
  lattice : ∃ j : Fin d → ℤ, ∀ a, S'.origin a = ((sg a : ℤ) : ℝ) * S.origin a + c a + j a * S.dx

section scheme
variable {A : Set ℝ} {S S' : Mpm.Scheme d} (h : MirScheme sg c A S S')
include h

lemma overNodes_mir {M : Type*} [AddCommMonoid M] (f : (Fin d → ℝ) → M) :
    S'.overNodes f = S.overNodes fun X => f (mirX sg c X) := by
  obtain ⟨j, hj⟩ := h.lattice
  let e : (Fin d → ℤ) ≃ (Fin d → ℤ) :=
    { toFun := fun k a => (sg a : ℤ) * k a - j a
      invFun := fun k a => (sg a : ℤ) * (k a + j a)
      left_inv := fun k => by
        funext a
        have : (sg a : ℤ) * (sg a : ℤ) = 1 := by rcases Int.units_eq_one_or (sg a) with h | h <;> rw [h] <;> rfl
        simp only [sub_add_cancel, ← mul_assoc, this, one_mul]
      right_inv := fun k => by
        funext a
        have : (sg a : ℤ) * (sg a : ℤ) = 1 := by rcases Int.units_eq_one_or (sg a) with h | h <;> rw [h] <;> rfl
        simp only [← mul_assoc, this, one_mul, add_sub_cancel_right] }
  unfold Mpm.Scheme.overNodes
  rw [← finsum_comp_equiv e]
  refine finsum_congr fun k => congrArg f ?_
  funext a
  simp only [Mpm.Scheme.node, mirX, hj, h.dx, e, Equiv.coe_fn_mk]
  push_cast
  ring

variable (ps : List (Particle d ℝ)) (X : Fin d → ℝ)

lemma near_mir : S'.near (ps.map (mirP sg c)) (mirX sg c X) = (S.near ps X).map (mirP sg c) := by
  classical
  unfold Mpm.Scheme.near
  rw [List.filter_map]
  congr 1
  refine List.filter_congr fun p _ => ?_
  have : shape S'.deg S'.dx (mirX sg c X) (mirP sg c p).x = shape S.deg S.dx X p.x := by
    rw [h.deg, h.dx]; exact shape_mir h.odd _ _ _
  simp only [Function.comp, this]

lemma shape_mir' (p : Particle d ℝ) : shape S'.deg S'.dx (mirX sg c X) (mirP sg c p).x = shape S.deg S.dx X p.x := by
  rw [h.deg, h.dx]; exact shape_mir h.odd _ _ _

lemma nodeMass_mir : S'.nodeMass (ps.map (mirP sg c)) (mirX sg c X) = S.nodeMass ps X := by
  unfold Mpm.Scheme.nodeMass
  rw [near_mir h, List.map_map]
  congr 1
  refine List.map_congr_left fun p _ => ?_
  simp only [Function.comp]
  rw [shape_mir' h, h.mass]

omit h in
lemma mirV_sum {ι : Type*} (l : List ι) (f : ι → Fin d → ℝ) : (l.map fun p => mirV sg (f p)).sum = mirV sg (l.map f).sum := by
  induction l with
  | nil => simp
  | cons a l ih => simp only [List.map_cons, List.sum_cons, ih, mirV_add]

lemma affine_mir (p : Particle d ℝ) : S'.affine (mirP sg c p) (mirX sg c X) = mirV sg (S.affine p X) := by
  have hi : S'.inertia = S.inertia := by unfold Mpm.Scheme.inertia; rw [h.deg, h.dx]
  have ha : S'.apic ↔ S.apic := by unfold Mpm.Scheme.apic; rw [h.ratio]
  unfold Mpm.Scheme.affine
  by_cases hp : S.apic
  · rw [if_pos hp, if_pos (ha.mpr hp), hi]
    show mirV sg p.v + (1 / S.inertia) • (mirM sg p.Bmat *ᵥ (mirX sg c X - mirX sg c p.x)) = _
    rw [mirX_sub, mirM_mulVec, ← mirV_smul, ← mirV_add]
  · rw [if_neg hp, if_neg fun h => hp (ha.mp h)]
    rfl

lemma nodeMomentum_mir : S'.nodeMomentum (ps.map (mirP sg c)) (mirX sg c X) = mirV sg (S.nodeMomentum ps X) := by
  unfold Mpm.Scheme.nodeMomentum
  rw [near_mir h, List.map_map, ← mirV_sum]
  congr 1
  refine List.map_congr_left fun p _ => ?_
  simp only [Function.comp]
  rw [shape_mir' h, h.mass, affine_mir h, mirV_smul]

lemma nodeForce_mir : S'.nodeForce (ps.map (mirP sg c)) (mirX sg c X) = mirV sg (S.nodeForce ps X) := by
  unfold Mpm.Scheme.nodeForce
  rw [near_mir h, List.map_map, mirV_neg, ← mirV_sum]
  congr 2
  refine List.map_congr_left fun p _ => ?_
  simp only [Function.comp]
  rw [h.deg, h.dx, h.volume, mirV_smul, ← mirM_mulVec]
  congr 2
  exact shapeGrad_mir h.odd _ _ _

lemma nodeFriction_mir : S'.nodeFriction (ps.map (mirP sg c)) (mirX sg c X) = S.nodeFriction ps X := by
  unfold Mpm.Scheme.nodeFriction
  rw [near_mir h, nodeMass_mir h, h.mibf, List.map_map]
  congr 3
  refine List.map_congr_left fun p _ => ?_
  simp only [Function.comp]
  rw [shape_mir' h, h.mass]
  rfl

lemma before_mir : S'.before (ps.map (mirP sg c)) (mirX sg c X) = mirV sg (S.before ps X) := by
  unfold Mpm.Scheme.before
  rw [nodeMass_mir h, nodeMomentum_mir h]
  split_ifs
  · rw [mirV_smul]
  · simp

variable (hA : ∀ k, 0 < S.nodeMass ps (S.node k) → S.nodeFriction ps (S.node k) ∈ A)

include hA in
lemma after_mir (k : Fin d → ℤ) :
    S'.after (ps.map (mirP sg c)) (mirX sg c (S.node k)) = mirV sg (S.after ps (S.node k)) := by
  unfold Mpm.Scheme.after
  rw [nodeMass_mir h, nodeFriction_mir h, before_mir h, nodeForce_mir h, h.gravity, h.dt, ← mirV_smul, ← mirV_add, ← mirV_smul,
    ← mirV_add]
  split_ifs with hk
  · exact h.wall _ (hA k hk) _ _
  · simp

omit h in
lemma mirV_finsum (f : (Fin d → ℤ) → Fin d → ℝ) : ∑ᶠ k, mirV sg (f k) = mirV sg (∑ᶠ k, f k) := by
  have hinj : Function.Injective (mirL sg) := fun u v e => by rw [← mirV_mirV (sg := sg) u, show mirV sg u = mirV sg v from e, mirV_mirV]
  exact ((mirL sg).toAddMonoidHom.map_finsum_of_injective hinj f).symm

/-- The mirror for tensors as an additive map. -/
def mirMHom (sg : Fin d → ℤˣ) : Matrix (Fin d) (Fin d) ℝ →+ Matrix (Fin d) (Fin d) ℝ where
  toFun := mirM sg
  map_zero' := mirM_zero
  map_add' := mirM_add

omit h in
lemma mirM_finsum (f : (Fin d → ℤ) → Matrix (Fin d) (Fin d) ℝ) : ∑ᶠ k, mirM sg (f k) = mirM sg (∑ᶠ k, f k) := by
  have hinj : Function.Injective (mirMHom sg) := fun u v e => by
    rw [← mirM_mirM (sg := sg) u, show mirM sg u = mirM sg v from e, mirM_mirM]
  exact ((mirMHom sg).map_finsum_of_injective hinj f).symm

lemma interp_mir {V V' : (Fin d → ℝ) → Fin d → ℝ} (hV : ∀ k, V' (mirX sg c (S.node k)) = mirV sg (V (S.node k))) (x : Fin d → ℝ) :
    S'.interp V' (mirX sg c x) = mirV sg (S.interp V x) := by
  unfold Mpm.Scheme.interp
  rw [overNodes_mir h]
  unfold Mpm.Scheme.overNodes
  rw [← mirV_finsum]
  refine finsum_congr fun k => ?_
  beta_reduce
  rw [h.deg, h.dx, shape_mir h.odd, hV, mirV_smul]

lemma grad_mir {V V' : (Fin d → ℝ) → Fin d → ℝ} (hV : ∀ k, V' (mirX sg c (S.node k)) = mirV sg (V (S.node k))) (x : Fin d → ℝ) :
    S'.grad V' (mirX sg c x) = mirM sg (S.grad V x) := by
  unfold Mpm.Scheme.grad
  rw [overNodes_mir h]
  unfold Mpm.Scheme.overNodes
  rw [← mirM_finsum]
  refine finsum_congr fun k => ?_
  beta_reduce
  rw [h.deg, h.dx, shapeGrad_mir h.odd, hV, mirM_vecMulVec]

lemma moments_mir {V V' : (Fin d → ℝ) → Fin d → ℝ} (hV : ∀ k, V' (mirX sg c (S.node k)) = mirV sg (V (S.node k))) (x : Fin d → ℝ) :
    S'.moments V' (mirX sg c x) = mirM sg (S.moments V x) := by
  unfold Mpm.Scheme.moments
  rw [overNodes_mir h]
  unfold Mpm.Scheme.overNodes
  rw [← mirM_finsum]
  refine finsum_congr fun k => ?_
  beta_reduce
  rw [h.deg, h.dx, shape_mir h.odd, hV, mirX_sub, mirM_vecMulVec, mirM_smul]

include hA

lemma newVelocity_mir (p : Particle d ℝ) :
    S'.newVelocity (ps.map (mirP sg c)) (mirP sg c p) = mirV sg (S.newVelocity ps p) := by
  have h1 := interp_mir h (after_mir h ps hA) p.x
  have h2 := interp_mir h (V := fun X => S.after ps X - S.before ps X)
    (V' := fun X => S'.after (ps.map (mirP sg c)) X - S'.before (ps.map (mirP sg c)) X)
    (fun k => by rw [after_mir h ps hA, before_mir h, mirV_sub]) p.x
  simp only [Mpm.Scheme.newVelocity]
  rw [show (mirP sg c p).x = mirX sg c p.x from rfl, h1, h2, show (mirP sg c p).v = mirV sg p.v from rfl, h.ratio]
  split_ifs
  · rfl
  · rw [← mirV_add, ← mirV_smul, ← mirV_smul, ← mirV_add]

lemma newAffine_mir (p : Particle d ℝ) : S'.newAffine (ps.map (mirP sg c)) (mirP sg c p) = mirM sg (S.newAffine ps p) := by
  have ha : S'.apic ↔ S.apic := by unfold Mpm.Scheme.apic; rw [h.ratio]
  unfold Mpm.Scheme.newAffine
  by_cases hp : S.apic
  · rw [if_pos hp, if_pos (ha.mpr hp)]
    exact moments_mir h (after_mir h ps hA) p.x
  · rw [if_neg hp, if_neg fun h => hp (ha.mp h), mirM_zero]

lemma deforming_mir (k : Fin d → ℤ) :
    S'.deforming (ps.map (mirP sg c)) (mirX sg c (S.node k)) = mirV sg (S.deforming ps (S.node k)) := by
  have hp : S'.pushed (ps.map (mirP sg c)) = (S.pushed ps).map (mirP sg c) := by
    unfold Mpm.Scheme.pushed
    rw [List.map_map, List.map_map]
    refine List.map_congr_left fun p _ => ?_
    simp only [Function.comp]
    rw [newVelocity_mir h ps hA, newAffine_mir h ps hA]
    rfl
  unfold Mpm.Scheme.deforming
  rw [h.musl, hp, before_mir h, after_mir h ps hA]
  split_ifs <;> rfl

lemma trial_mir (p : Particle d ℝ) : S'.trial (ps.map (mirP sg c)) (mirP sg c p) = mirP sg c (S.trial ps p) := by
  have h2 := interp_mir h (V := fun X => S.after ps X - S.before ps X)
    (V' := fun X => S'.after (ps.map (mirP sg c)) X - S'.before (ps.map (mirP sg c)) X)
    (fun k => by rw [after_mir h ps hA, before_mir h, mirV_sub]) p.x
  have h3 := grad_mir h (deforming_mir h ps hA) p.x
  unfold Mpm.Scheme.trial
  rw [newVelocity_mir h ps hA, newAffine_mir h ps hA, h.musl, h.ratio, h.dt, show (mirP sg c p).x = mirX sg c p.x from rfl, h2, h3,
    interp_mir h (after_mir h ps hA) p.x, show (mirP sg c p).F = mirM sg p.F from rfl, ← mirM_smul, ← mirM_one (sg := sg), ← mirM_add,
    ← mirM_mul]
  by_cases hm : S.musl = true <;> by_cases hr : -1 ≤ S.ratio <;> simp only [hm, hr, if_true, if_false, Bool.false_eq_true] <;>
    simp only [mirP, mirV_zero, mirM_one]

lemma particle_mir (p : Particle d ℝ)
    (hlaw : S'.law (mirP sg c (S.trial ps p)) = (S.law (S.trial ps p)).map (Prod.map (mirP sg c) id)) :
    S'.particle (ps.map (mirP sg c)) (mirP sg c p) = (S.particle ps p).map (Prod.map (mirP sg c) id) := by
  unfold Mpm.Scheme.particle
  rw [trial_mir h ps hA, hlaw, newVelocity_mir h ps hA, show (mirP sg c p).x = mirX sg c p.x from rfl, interp_mir h (after_mir h ps hA) p.x, h.dt,
    ← mirV_smul, mirX_add, h.place, Option.map_map, Option.map_map]
  rfl

/-- A step in the mirror. -/
lemma step_mir
    (hlaw : ∀ p ∈ ps, S'.law (mirP sg c (S.trial ps p)) = (S.law (S.trial ps p)).map (Prod.map (mirP sg c) id)) :
    S'.step (ps.map (mirP sg c)) = (S.step ps).map (Prod.map (List.map (mirP sg c)) id) := by
  unfold Mpm.Scheme.step
  have key : ∀ l : List (Particle d ℝ), (∀ p ∈ l, p ∈ ps) → (l.map (mirP sg c)).mapM (S'.particle (ps.map (mirP sg c))) =
      (l.mapM (S.particle ps)).map (List.map (Prod.map (mirP sg c) id)) := by
    intro l hl
    induction l with
    | nil => rfl
    | cons p l ih =>
      rw [List.map_cons, List.mapM_cons, List.mapM_cons, ih fun q hq => hl q (List.mem_cons_of_mem _ hq),
        particle_mir h ps hA p (hlaw p (hl p List.mem_cons_self))]
      cases S.particle ps p with
      | none => rfl
      | some q => cases l.mapM (S.particle ps) <;> rfl
  rw [key ps fun _ h => h, Option.map_map, Option.map_map]
  congr 1
  funext qs
  simp only [Function.comp, List.map_map, List.any_map, Prod.map_apply, id_eq]
  congr 1

end scheme

end Verif
