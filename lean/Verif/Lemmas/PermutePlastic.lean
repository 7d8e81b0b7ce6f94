import Verif.Lemmas.Permute

set_option linter.unusedSimpArgs false
set_option linter.unusedVariables false
set_option linter.unusedSectionVars false

/-!
# The constitutive update of a renumbered system
-/

namespace Verif
open Matrix

variable {d : ℕ} {σ : Equiv.Perm (Fin d)}

/-- The rows of the vectors renumbered. -/
def permSvdOf (σ : Equiv.Perm (Fin d)) (s : Svd d) : Svd d := ⟨s.U.submatrix σ id, s.sig, s.V.submatrix σ id⟩

/-- The state with the particle in the renumbered system. -/
def permSt (σ : Equiv.Perm (Fin d)) (st : PState d) : PState d := { st with q := permP σ st.q }

lemma sandwich_perm (U D V : Matrix (Fin d) (Fin d) ℝ) :
    U.submatrix σ id * D * (V.submatrix σ id)ᵀ = (U * D * Vᵀ).submatrix σ σ := by
  ext a b
  simp [Matrix.mul_apply]

lemma expF_perm (s : Svd d) (h : Fin d → ℝ) : (permSvdOf σ s).expF h = (s.expF h).submatrix σ σ := sandwich_perm _ _ _

lemma UV_perm (s : Svd d) : (permSvdOf σ s).U * (permSvdOf σ s).Vᵀ = (s.U * s.Vᵀ).submatrix σ σ := by
  have := sandwich_perm (σ := σ) s.U 1 s.V
  rw [Matrix.mul_one, Matrix.mul_one] at this
  exact this

lemma permSvdOf_isSvd {F : Matrix (Fin d) (Fin d) ℝ} {s : Svd d} (h : IsSvd F s) :
    IsSvd (F.submatrix σ σ) (permSvdOf σ s) where
  eq := by
    have := sandwich_perm (σ := σ) s.U (diagonal s.sig) s.V
    rw [← h.eq] at this
    exact this.symm
  orthU := by
    have := sandwich_perm (σ := σ) s.U 1 s.U
    rw [Matrix.mul_one, Matrix.mul_one, h.orthU] at this
    rw [show (permSvdOf σ s).U = s.U.submatrix σ id from rfl, this]
    exact Matrix.submatrix_one_equiv σ
  orthV := by
    have := sandwich_perm (σ := σ) s.V 1 s.V
    rw [Matrix.mul_one, Matrix.mul_one, h.orthV] at this
    rw [show (permSvdOf σ s).V = s.V.submatrix σ id from rfl, this]
    exact Matrix.submatrix_one_equiv σ
  nonneg := h.nonneg

lemma plastMCC_perm (cabs : ℝ → ℝ) (m : Material) (dt : ℝ) (s : Svd d) (t : Trial d) (st : PState d) :
    plastMCC cabs m dt (permSvdOf σ s) t (permSt σ st) = (plastMCC cabs m dt s t st).map (permSt σ) := by
  obtain ⟨⟨x, v, pic, fl, F, Bm, tau, e1, e2, e3, dg, vis, mui⟩, h, n, e⟩ := st
  by_cases hm : m.useMibf = true
  all_goals
    simp only [plastMCC, permSt, permP, Option.bind_eq_bind, hm, if_true, if_false,
      Bool.false_eq_true, expF_perm]
    cases mccReturn cabs m d true m.M e2 (-m.K d * t.trace) (m.eMu * t.norm) e with
    | none => rfl
    | some r =>
      obtain ⟨pc, r⟩ := r
      simp only [Option.bind_some]
      by_cases hd : r.did = true
      · by_cases hv : m.plastic = .mccVisc
        · simp only [if_pos hd, if_pos hv]
          simp [Option.map_bind, Function.comp_def, permSt, permP]
        · simp only [if_pos hd, if_neg hv]
          simp [Option.map_bind, Function.comp_def, permSt, permP]
      · simp only [if_neg hd]
        rfl

lemma plastMCCMui_perm (cabs : ℝ → ℝ) (m : Material) (dt : ℝ) (s : Svd d) (t : Trial d) (st : PState d) :
    plastMCCMui cabs m dt (permSvdOf σ s) t (permSt σ st) = (plastMCCMui cabs m dt s t st).map (permSt σ) := by
  obtain ⟨⟨x, v, pic, fl, F, Bm, tau, e1, e2, e3, dg, vis, mui⟩, h, n, e⟩ := st
  simp only [plastMCCMui, permSt, permP, Option.bind_eq_bind, expF_perm]
  cases mccReturn cabs m d false m.mu1 e2 (-m.K d * t.trace) (m.eMu * t.norm) e with
  | none => rfl
  | some r =>
    obtain ⟨pc, r⟩ := r
    simp only [Option.bind_some]
    by_cases hd : r.did = true
    · simp only [if_pos hd]
      by_cases hq : m.eMu * t.norm > r.q + m.stressTol
      · simp only [if_pos hq]
        cases m.hardening <;> simp [Option.map_bind, Function.comp_def, permSt, permP]
      · simp only [if_neg hq]
        rfl
    · simp only [if_neg hd]
      rfl

lemma plastModel_perm (cabs : ℝ → ℝ) (m : Material) (dt : ℝ) (s : Svd d) (t : Trial d) (st : PState d) :
    plastModel cabs m dt (permSvdOf σ s) t (permSt σ st) = (plastModel cabs m dt s t st).map (permSt σ) := by
  unfold plastModel
  cases m.plastic <;> simp only
  case noPlasticity =>
    have hF : (permSt σ st).q.F.det = st.q.F.det := Matrix.det_submatrix_equiv_self σ st.q.F
    rw [hF]
    split_ifs <;> rfl
  case mcc => exact plastMCC_perm ..
  case mccVisc => exact plastMCC_perm ..
  case mccMui => exact plastMCCMui_perm ..
  all_goals obtain ⟨⟨x, v, pic, fl, F, Bm, tau, e1, e2, e3, dg, vis, mui⟩, h, n, e⟩ := st
  case vm =>
    rw [Option.map_some]; congr 1
    simp only [plastVM, permSt, permP, expF_perm]
    split_ifs <;> rfl
  case dp =>
    rw [Option.map_some]; congr 1
    simp only [plastDP, permSt, permP, expF_perm]
    split_ifs <;> rfl
  case dpSoft =>
    rw [Option.map_some]; congr 1
    simp only [plastDPSoft, permSt, permP, expF_perm]
    split_ifs <;> rfl
  case vmVisc =>
    simp only [plastVMVisc, permSt, permP, Option.bind_eq_bind, expF_perm, UV_perm]
    by_cases h1 : -m.K d * t.trace < m.pMin * Real.exp (-m.xi * e2)
    · refine (if_pos h1).trans (Eq.trans ?_ (congrArg (Option.map (permSt σ)) (if_pos h1)).symm)
      rfl
    refine (if_neg h1).trans (Eq.trans ?_ (congrArg (Option.map (permSt σ)) (if_neg h1)).symm)
    by_cases h2 : m.eMu * t.norm > m.qMin + (m.qMax - m.qMin) * Real.exp (-m.xi * e1)
    · refine (if_pos h2).trans (Eq.trans ?_ (congrArg (Option.map (permSt σ)) (if_pos h2)).symm)
      simp only [Option.map_bind, Function.comp_def, permSt, permP, Option.map_some]
    · refine (if_neg h2).trans (Eq.trans ?_ (congrArg (Option.map (permSt σ)) (if_neg h2)).symm)
      rfl
  case dpVisc =>
    simp only [plastDPVisc, permSt, permP, expF_perm]
    split_ifs <;> simp [Option.map_bind, Function.comp_def, permSt, permP]
  case dpMui =>
    rw [Option.map_some]; congr 1
    simp only [plastDPMui, permSt, permP, expF_perm]
    split_ifs <;> rfl

lemma newTau_perm (m : Material) (s : Svd d) (h : Fin d → ℝ) (F : Matrix (Fin d) (Fin d) ℝ) :
    newTau m (permSvdOf σ s) h (F.submatrix σ σ) = (newTau m s h F).submatrix σ σ := by
  unfold newTau
  cases m.elastic with
  | hencky => exact sandwich_perm _ _ _
  | neoHookean =>
    simp only [neoHookeanTau, Matrix.det_submatrix_equiv_self, Matrix.transpose_submatrix]
    rw [Matrix.inv_submatrix_equiv, ← submatrix_mul_perm]
    rfl

/-- A singular value decomposition for the renumbered system. -/
def permSvd (σ : Equiv.Perm (Fin d)) (svd : Matrix (Fin d) (Fin d) ℝ → Svd d) : Matrix (Fin d) (Fin d) ℝ → Svd d :=
  fun F => permSvdOf σ (svd (F.submatrix σ.symm σ.symm))

lemma permSvd_apply (svd : Matrix (Fin d) (Fin d) ℝ → Svd d) (F : Matrix (Fin d) (Fin d) ℝ) :
    permSvd σ svd (F.submatrix σ σ) = permSvdOf σ (svd F) := by
  have : (F.submatrix σ σ).submatrix σ.symm σ.symm = F := by ext a b; simp
  rw [permSvd, this]

lemma plasticity_perm (cabs : ℝ → ℝ) (svd : Matrix (Fin d) (Fin d) ℝ → Svd d) (m : Material)
    (dt : ℝ) (q : Particle d ℝ) (e : Bool) :
    plasticity cabs (permSvd σ svd) m dt (permP σ q) e = (plasticity cabs svd m dt q e).map (permSt σ) := by
  unfold plasticity
  have := plastModel_perm (σ := σ) cabs m dt (svd q.F) (mkTrial (svd q.F).hencky) ⟨q, (svd q.F).hencky, 0, e⟩
  simp only [Option.bind_eq_bind]
  rw [show (permP σ q).F = q.F.submatrix σ σ from rfl, permSvd_apply]
  show Option.bind (plastModel cabs m dt (permSvdOf σ (svd q.F)) (mkTrial (svd q.F).hencky)
    (permSt σ ⟨q, (svd q.F).hencky, 0, e⟩)) _ = _
  rw [this]
  cases plastModel cabs m dt (svd q.F) (mkTrial (svd q.F).hencky) ⟨q, (svd q.F).hencky, 0, e⟩ with
  | none => rfl
  | some st =>
    simp only [Option.map_some, Option.bind_some, Option.some.injEq]
    have h := newTau_perm (σ := σ) m (svd q.F) st.hencky st.q.F
    have h1 : (permSt σ st).hencky = st.hencky := rfl
    have h2 : (permSt σ st).q.F = st.q.F.submatrix σ σ := rfl
    rw [h1, h2, h]
    rfl

end Verif
