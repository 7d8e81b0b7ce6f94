import Verif.Props.Stress
import Verif.Lemmas.PlasticEx
import Verif.Lemmas.Svd
import Verif.Props.Run

set_option linter.unusedSectionVars false
set_option linter.unusedSimpArgs false

/-!
# C101: the choice of the singular value decomposition does not matter
-/

namespace Verif.Props
open Matrix

variable {d : ℕ}

/-- **C101** Whichever singular value decompositions two versions of the linear algebra library return (other orders, other
signs, other bases for equal singular values), the plastic update of a particle whose trial deformation is not singular gives
the same particle, for all elastic and plastic models, or is undefined for both. -/
theorem C101_update {cabs} {svd svd' : Matrix (Fin d) (Fin d) ℝ → Svd d} (m : Material) (dt : ℝ) (q : Particle d ℝ)
    (exit : Bool) (hF : q.F.det ≠ 0) (h₁ : IsSvd q.F (svd q.F)) (h₂ : IsSvd q.F (svd' q.F)) :
    (plasticity cabs svd' m dt q exit).map (fun o => (o.q, o.count, o.exit)) =
      (plasticity cabs svd m dt q exit).map fun o => (o.q, o.count, o.exit) := by
  have e : (1 : Matrix (Fin d) (Fin d) ℝ) * q.F * (1 : Matrix (Fin d) (Fin d) ℝ)ᵀ = q.F := by simp
  have h := objective_two (cabs := cabs) (svd := svd) (svd' := svd') (m := m) dt q exit (R := 1) (Q := 1) (by simp) (by simp)
    (by simp) (by simp) hF h₁ (by rw [e]; exact h₂)
  rw [e] at h
  rcases h with ⟨h3, h4⟩ | ⟨a, b, h3, h4, h5, h6, h7⟩
  · rw [show plasticity cabs svd' m dt q exit = none from h4, h3]
  · rw [show plasticity cabs svd' m dt q exit = some b from h4, h3, Option.map_some, Option.map_some, h5, h6, h7]
    simp

/-- Spec: two functions that return singular value decompositions, and the same one for singular matrices. -/
def BothSvd (svd svd' : Matrix (Fin d) (Fin d) ℝ → Svd d) : Prop :=
  ∀ F, (F.det ≠ 0 → IsSvd F (svd F) ∧ IsSvd F (svd' F)) ∧ (F.det = 0 → svd' F = svd F)

lemma plasticUpdate_svd {R : Setup d} {svd' : Matrix (Fin d) (Fin d) ℝ → Svd d} (h : BothSvd R.svd svd') :
    plasticUpdate { R with svd := svd' } = plasticUpdate R := by
  funext dt q
  simp only [plasticUpdate]
  by_cases hF : q.F.det = 0
  · have : plasticity R.cabs svd' R.m dt q false = plasticity R.cabs R.svd R.m dt q false := by
      simp only [plasticity, (h q.F).2 hF]
    rw [this]
  · have := C101_update (cabs := R.cabs) R.m dt q false hF ((h q.F).1 hF).1 ((h q.F).1 hF).2
    have := congrArg (Option.map fun t : Particle d ℝ × ℕ × Bool => (t.1, t.2.2)) this
    simpa only [Option.map_map, Function.comp_def] using this

lemma physics_svd {R : Setup (d + 2)} {svd' : Matrix (Fin (d + 2)) (Fin (d + 2)) ℝ → Svd (d + 2)} (h : BothSvd R.svd svd') :
    physics { R with svd := svd' } = physics R := by
  have hp := plasticUpdate_svd h
  have hg : g2pFullParticle { R with svd := svd' } = g2pFullParticle R := by
    funext dt n e ps; simp only [g2pFullParticle, hp]
  have hd : deformFullParticle { R with svd := svd' } = deformFullParticle R := by
    funext dt n e ps; simp only [deformFullParticle, hp]
  have hs : physStep { R with svd := svd' } = physStep R := by
    funext w dt g t n
    simp only [physStep, g2pFull, deformFull, hg, hd]
  simp only [physics, hs]

/-- **C101** Two programs that only differ in the singular value decompositions (and agree on those of singular matrices) have
the same runs: the same files and the same final state, whether the run ends, stops early or is undefined. -/
theorem C101_run {R : Setup (d + 2)} {svd' : Matrix (Fin (d + 2)) (Fin (d + 2)) ℝ → Svd (d + 2)} (h : BothSvd R.svd svd')
    (isInitialized exit : Bool) (fuel : ℕ) (s : LoopState (d + 2) (World (d + 2))) :
    runProgram { R with svd := svd' } isInitialized exit fuel s = runProgram R isInitialized exit fuel s := by
  simp only [runProgram, physics_svd h]

namespace RunEx

/-- The decomposition with all vectors reversed. -/
noncomputable def reversed (s : Svd d) : Svd d := ⟨-s.U, s.sig, -s.V⟩

/-- A library that reverses all vectors of regular matrices meets the hypothesis, and returns something else. -/
example : ∃ svd svd' : Matrix (Fin 2) (Fin 2) ℝ → Svd 2, BothSvd svd svd' ∧ (svd' 1).U ≠ (svd 1).U := by
  refine ⟨someSvd, fun F => if F.det = 0 then someSvd F else reversed (someSvd F), fun F => ⟨fun hF => ?_, fun hF => if_pos hF⟩, ?_⟩
  · have h := someSvd_isSvd F
    simp only [if_neg hF]
    exact ⟨h, by simpa [reversed] using h.eq, by simpa [reversed] using h.orthU, by simpa [reversed] using h.orthV, h.nonneg⟩
  · have h := (someSvd_isSvd (1 : Matrix (Fin 2) (Fin 2) ℝ)).orthU
    have h1 : ¬ (1 : Matrix (Fin 2) (Fin 2) ℝ).det = 0 := by simp
    simp only [if_neg h1, reversed]
    intro hc
    have h2 : (someSvd (1 : Matrix (Fin 2) (Fin 2) ℝ)).U = 0 := by
      have : (2 : ℝ) • (someSvd (1 : Matrix (Fin 2) (Fin 2) ℝ)).U = 0 := by
        rw [two_smul]; nth_rw 1 [← hc]; simp
      simpa using this
    rw [h2] at h
    simp at h

/-- A particle squeezed flat. -/
noncomputable def flat : Particle 2 ℝ := { (Particle.init : Particle 2 ℝ) with F := diagonal ![1, 0] }

/-- One decomposition of its deformation gradient, with `s` (1 or -1) the sign of the second left vector. -/
noncomputable def flatSvd (s : ℝ) : Matrix (Fin 2) (Fin 2) ℝ → Svd 2 := fun _ => ⟨diagonal ![1, s], ![1, 0], 1⟩

lemma flatSvd_ok {s : ℝ} (hs : s * s = 1) : IsSvd flat.F (flatSvd s flat.F) where
  eq := by
    ext i j
    fin_cases i <;> fin_cases j <;> simp [flat, flatSvd]
  orthU := by
    ext i j
    fin_cases i <;> fin_cases j <;> simp [flatSvd, hs]
  orthV := by simp [flatSvd]
  nonneg := by intro i; fin_cases i <;> simp [flatSvd]

/-- **C101** For a singular deformation the decomposition matters: the von Mises update of a particle squeezed flat can turn
the squeezed direction either way round. -/
theorem C101_singular_false : ∃ a b, IsSvd flat.F (flatSvd 1 flat.F) ∧ IsSvd flat.F (flatSvd (-1) flat.F) ∧
    plasticity abs (flatSvd 1) (Ex.mat .vm) 1 flat false = some a ∧
    plasticity abs (flatSvd (-1)) (Ex.mat .vm) 1 flat false = some b ∧ 0 < a.q.F 1 1 ∧ b.q.F 1 1 < 0 := by
  have hlog : Real.log (1 / 10 ^ 4) < -(1 / 2) := by
    have := Real.log_le_sub_one_of_pos (x := 1 / 10 ^ 4) (by norm_num)
    norm_num at this ⊢
    linarith
  have hh : ∀ s, (flatSvd s flat.F).hencky = ![0, Real.log (1 / 10 ^ 4)] := by
    intro s
    funext i
    fin_cases i
    · simp only [Svd.hencky, flatSvd, Fin.zero_eta, Matrix.cons_val_zero, abs_one]
      rw [max_eq_left (by norm_num), Real.log_one]
    · simp only [Svd.hencky, flatSvd, Fin.mk_one, Matrix.cons_val_one, Matrix.cons_val_zero, abs_zero]
      rw [max_eq_right (by norm_num)]; norm_num
  set l := Real.log (1 / 10 ^ 4) with hl
  have hn : (1 : ℝ) / 4 / Real.sqrt 2 < (mkTrial ![0, l]).norm := by
    rw [mkTrial_norm, vnorm]
    have h1 : devOf ![0, l] ⬝ᵥ devOf ![0, l] = l * l / 2 := by
      simp [dotProduct, devOf, Fin.sum_univ_two]; ring
    rw [h1]
    apply Real.lt_sqrt_of_sq_lt
    rw [div_pow, Real.sq_sqrt (by norm_num)]
    nlinarith
  have hrun : ∀ s, plasticity abs (flatSvd s) (Ex.mat .vm) 1 flat false = some
      { plastVM (Ex.mat .vm) 1 (flatSvd s flat.F) (mkTrial ![0, l]) ⟨flat, ![0, l], 0, false⟩ with
        q := { (plastVM (Ex.mat .vm) 1 (flatSvd s flat.F) (mkTrial ![0, l]) ⟨flat, ![0, l], 0, false⟩).q with
          tau := newTau (Ex.mat .vm) (flatSvd s flat.F) (plastVM (Ex.mat .vm) 1 (flatSvd s flat.F) (mkTrial ![0, l])
            ⟨flat, ![0, l], 0, false⟩).hencky
            (plastVM (Ex.mat .vm) 1 (flatSvd s flat.F) (mkTrial ![0, l]) ⟨flat, ![0, l], 0, false⟩).q.F } } := by
    intro s
    rw [plasticity_some]
    refine ⟨_, ?_, rfl⟩
    rw [hh]
    rfl
  have hF : ∀ s, (plastVM (Ex.mat .vm) 1 (flatSvd s flat.F) (mkTrial ![0, l]) ⟨flat, ![0, l], 0, false⟩).q.F =
      (flatSvd s flat.F).expF ((mkTrial ![0, l]).hencky - ((mkTrial ![0, l]).norm - 1 / 4 / Real.sqrt 2) • (mkTrial ![0, l]).dir) := by
    intro s
    have hq : (Ex.mat .vm).qMax = 1 / 4 := rfl
    simp only [plastVM, Ex.mat_eMu, hq]
    rw [if_pos (by linarith)]
  have hpos := fun s => hF s
  refine ⟨_, _, flatSvd_ok (by norm_num), flatSvd_ok (by norm_num), hrun 1, hrun (-1), ?_, ?_⟩
  · show 0 < (plastVM _ _ _ _ _).q.F 1 1
    rw [hF]
    simp [Svd.expF, flatSvd, Matrix.mul_apply, Matrix.diagonal, Real.exp_pos]
  · show (plastVM _ _ _ _ _).q.F 1 1 < 0
    rw [hF]
    simp [Svd.expF, flatSvd, Matrix.mul_apply, Matrix.diagonal, Real.exp_pos]

end RunEx

end Verif.Props
