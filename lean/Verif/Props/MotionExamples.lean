import Verif.Props.Motion
import Verif.Props.InversionExamples

set_option linter.unusedSectionVars false
set_option linter.unusedSimpArgs false
set_option linter.unusedVariables false

/-!
# C65, C102: examples
-/

namespace Verif.Props.RunEx
open Verif Matrix
noncomputable section

/-- The motion around the squeezed particle. -/
lemma squeezed_jacobian {β : ℝ} {s1 : LoopState 2 (World 2)} {dt : ℝ} {g' : Fin 2 → ℝ} {w : World 2}
    (hst : StepOf (d := 0) (blended false (-2)) (start (squeezed β) 0) s1 dt g' w) :
    jacobian (advect .two 1 dt w) 0 = !![1 - dt * (4 * β), 0; 0, 1] := by
  obtain ⟨hps, hgood, hv⟩ := squeezed_step hst
  have hG := hgood.good (deg := .two) (show ({ Particle.init with Bmat := !![-β, 0; 0, 0] } : Particle 2 ℝ) ∈ squeezed β by
    simp [squeezed])
  have hpx : ({ Particle.init with Bmat := !![-β, 0; 0, 0] } : Particle 2 ℝ).x = 0 := rfl
  rw [hpx] at hG
  obtain ⟨D, hD⟩ := hG.gradOK (by simp)
  have hgrad : velGrad .two 1 w.g w.vel 0 = !![-(4 * β), 0; 0, 0] := by
    rw [← interpGrad_velGrad hG, interpGrad_eq]
    have hterm : ∀ c, vecMulVec (w.vel (flatIndex w.g.size ((stencilOf .two 1 w.g 0).node c)))
        ((stencilOf .two 1 w.g 0).weightGrad c) =
        vecMulVec (![-(4 * β * (stencilOf .two 1 w.g 0).nodePos c 0), 0]) ((stencilOf .two 1 w.g 0).weightGrad c) := by
      intro c
      rcases (hG.ok.weight_nonneg c).eq_or_lt with h0 | h0
      · rw [hG.ok.grad_zero hD h0.symm, vecMulVec_zero, vecMulVec_zero]
      · rw [hG.weight, hG.pos] at h0
        rw [hv _ (hG.ok.node_lt c) h0, hG.pos]
    rw [Finset.sum_congr rfl fun c _ => hterm c]
    have key : ∀ b, ∑ c, -(4 * β * (stencilOf .two 1 w.g 0).nodePos c 0) * (stencilOf .two 1 w.g 0).weightGrad c b =
        -(4 * β) * if 0 = b then 1 else 0 := by
      intro b
      rw [← hG.ok.sum_grad_pos hD 0 b, Finset.mul_sum]
      refine Finset.sum_congr rfl fun c _ => ?_
      rw [Pi.zero_apply]; ring
    ext a b
    rw [Matrix.sum_apply]
    simp only [vecMulVec_apply]
    fin_cases a
    · simp only [Fin.zero_eta, cons_val_zero]
      rw [key]
      fin_cases b <;> simp
    · fin_cases b <;> simp
  rw [jacobian_eq (hasFDerivAt_advect (by simp) w 0), hgrad]
  ext a b
  fin_cases a <;> fin_cases b <;> simp <;> ring

/-- The singular values of a diagonal matrix with an entry `c` between 0 and 1 and an entry 1 are at least `c`. -/
lemma diag_sig {c : ℝ} (h0 : 0 ≤ c) (h1 : c ≤ 1) {s : Svd 2} (hs : IsSvd !![c, 0; 0, 1] s) (a : Fin 2) : c ≤ s.sig a := by
  have hV : s.V * s.Vᵀ = 1 := hs.orthV
  have hV' : s.Vᵀ * s.V = 1 := mul_eq_one_comm.mp hV
  have hU' : s.Uᵀ * s.U = 1 := mul_eq_one_comm.mp hs.orthU
  have e : !![c, 0; 0, 1] * s.V = s.U * diagonal s.sig := by
    conv_lhs => rw [hs.eq]
    rw [Matrix.mul_assoc, hV', Matrix.mul_one]
  have e2 : (!![c, 0; 0, 1] * s.V)ᵀ * (!![c, 0; 0, 1] * s.V) = diagonal s.sig * diagonal s.sig := by
    rw [e, transpose_mul, Matrix.mul_assoc, ← Matrix.mul_assoc s.Uᵀ, hU', Matrix.one_mul, diagonal_transpose]
  have h2 := congrFun (congrFun e2 a) a
  have h3 := congrFun (congrFun hV' a) a
  simp [Matrix.mul_apply, Fin.sum_univ_two, Matrix.diagonal] at h2 h3
  have h4 := hs.nonneg a
  have h5 : c * c ≤ s.sig a * s.sig a := by
    rw [← h2]
    have hcc : c * c ≤ 1 := by nlinarith
    have : c * c * (s.V 1 a * s.V 1 a) ≤ 1 * (s.V 1 a * s.V 1 a) :=
      mul_le_mul_of_nonneg_right hcc (mul_self_nonneg _)
    simp only [vecMul, dotProduct, Fin.sum_univ_two, cons_val_zero, cons_val_one, zero_mul, add_zero, zero_add, one_mul]
    have h6 : c * c * (s.V 0 a * s.V 0 a) + c * c * (s.V 1 a * s.V 1 a) = c * c := by rw [← mul_add, h3, mul_one]
    linarith
  exact le_of_not_gt fun h => absurd (mul_self_lt_mul_self h4 h) (not_lt.mpr h5)

lemma squeezed_dt {β : ℝ} {s1 : LoopState 2 (World 2)} {dt : ℝ} {g' : Fin 2 → ℝ} {w : World 2}
    (hst : StepOf (d := 0) (blended false (-2)) (start (squeezed β) 0) s1 dt g' w) : 0 < dt ∧ dt ≤ 1 := by
  have h1 : max (blended false (-2)).C.dtMax (blended false (-2)).C.minDt ≤ 1 := by
    norm_num [blended, setup, cfg, exConfig, TimeConfig.dtMax, TimeConfig.waveSpeed]
  have h2 : (blended false (-2)).C.minDt = 1 / 10 := by norm_num [blended, setup, cfg, exConfig]
  exact ⟨lt_of_lt_of_le (by rw [h2]; norm_num) hst.dt_ge.1, hst.dt_le.trans h1⟩

lemma squeezed_sig {s1 : LoopState 2 (World 2)} {dt : ℝ} {g' : Fin 2 → ℝ} {w : World 2}
    (hst : StepOf (d := 0) (blended false (-2)) (start (squeezed (1 / 16)) 0) s1 dt g' w) :
    ∀ p ∈ s1.w.ps, ∀ a, 1e-4 ≤ ((blended false (-2)).svd (jacobian (advect .two 1 dt w) p.x * p.F)).sig a := by
  intro p hp a
  rw [(squeezed_step hst).1] at hp
  obtain ⟨-, -, hx, hF⟩ := squeezed_rest p hp
  rw [hx, hF, mul_one, squeezed_jacobian hst]
  have hdt := squeezed_dt hst
  refine le_trans ?_ (diag_sig (by linarith) (by linarith) (someSvd_isSvd _) a)
  norm_num
  linarith

/-- `C102_volume`, `C65_step`: a squeezed von Mises particle. The motion squeezes the material, and that is accounted for
in the file. -/
example : ∃ t w, .particles 1 t w ∈ filesOf (runProgram (blended false (-2)) true false 10 (start (squeezed (1 / 16)) 0)) ∧
    ∃ Φ, Motion (d := 0) .two 1 (blended false (-2)) (start (squeezed (1 / 16)) 0) w Φ ∧ Differentiable ℝ Φ ∧
      List.Forall₂ (fun p q => q.x = Φ p.x ∧ (jacobian Φ p.x).det ≠ 0 ∧
        Real.log |q.F.det| + q.epsPlVol = Real.log |p.F.det| + p.epsPlVol + Real.log |(jacobian Φ p.x).det|)
        (squeezed (1 / 16)) w.ps := by
  obtain ⟨t, w, hev⟩ := squeezed_run (1 / 16)
  refine ⟨t, w, hev, ?_⟩
  exact C102_volume (d := 0) (R := blended false (-2)) (s := start (squeezed (1 / 16)) 0) (deg := .two) (dx := 1) (fr := -2)
    (m := 3) (vol := 1) (mibf := false) rfl (by simp) one_pos rfl rfl (fun _ _ => by simp [blended, setup]) rfl
    someSvd_isSvd (Ex.mat_ok _) (by norm_num [blended, setup, Ex.mat]) (by norm_num [blended, setup, cfg, exConfig])
    (fun s1 dt g w hst => squeezed_sig hst) hev (by simp [start])

/-- `C65_step`, `C102_step`: in the only step of that run the volume changes by the factor `1 - dt / 4`. -/
example : ∃ s1 dt g w, StepOf (d := 0) (blended false (-2)) (start (squeezed (1 / 16)) 0) s1 dt g w ∧ 0 < dt ∧
    List.Forall₂ (fun p q : Particle 2 ℝ => q.x = advect .two 1 dt w p.x ∧
      Real.log |q.F.det| + q.epsPlVol = Real.log (1 - dt / 4)) (squeezed (1 / 16)) w.ps := by
  obtain ⟨t, w, hev⟩ := squeezed_run (1 / 16)
  rcases run_particles (d := 0) hev (by simp [start]) with ⟨hh, -, -⟩ | ⟨s1, dt, g, hst, rfl⟩
  · cases hh
  have hdt := squeezed_dt hst
  refine ⟨s1, dt, g, w, hst, hdt.1, ?_⟩
  have h1 := C102_step (d := 0) (R := blended false (-2)) (deg := .two) (dx := 1) (fr := -2) (m := 3) (vol := 1)
    (mibf := false) rfl (by simp) one_pos rfl rfl (fun _ _ => by simp [blended, setup]) hst
  have h2 := C65_step (d := 0) (R := blended false (-2)) (deg := .two) (dx := 1) (fr := -2) (m := 3) (vol := 1)
    (mibf := false) rfl (by simp) one_pos rfl rfl (fun _ _ => by simp [blended, setup]) someSvd_isSvd (Ex.mat_ok _)
    (by norm_num [blended, setup, Ex.mat]) hdt.1.ne' hst (squeezed_sig hst)
  rw [(squeezed_step hst).1] at h1 h2
  have h3 := List.forall₂_iff_zip.mp h1
  refine List.forall₂_iff_zip.mpr ⟨h3.1, fun {p q} hpq => ⟨(h3.2 hpq).2.2 rfl, ?_⟩⟩
  have hp : p ∈ squeezed (1 / 16) := (List.of_mem_zip hpq).1
  obtain ⟨-, -, hx, hF⟩ := squeezed_rest p hp
  have he : p.epsPlVol = 0 := by
    simp only [squeezed, List.mem_cons, List.not_mem_nil, or_false] at hp
    subst hp; rfl
  have := ((List.forall₂_iff_zip.mp h2).2 hpq).2
  rw [this, hF, he, hx, squeezed_jacobian hst, Matrix.det_one, Matrix.det_fin_two]
  simp only [of_apply, cons_val', cons_val_zero, cons_val_one, cons_val_fin_one]
  rw [show (1 - dt * (4 * (1 / 16))) * 1 - 0 * 0 = 1 - dt / 4 by ring, abs_of_pos (by linarith)]
  simp

/-- `C83_gradient`: the velocity gradient in the only step of that run. -/
example : ∃ s1 dt g w, StepOf (d := 0) (blended false (-2)) (start (squeezed (1 / 16)) 0) s1 dt g w ∧
    ∀ a b, |jacobian (field .two 1 w.g w.vel) 0 a b| ≤ 1 / 4 := by
  obtain ⟨t, w, hev⟩ := squeezed_run (1 / 16)
  rcases run_particles (d := 0) hev (by simp [start]) with ⟨hh, -, -⟩ | ⟨s1, dt, g, hst, rfl⟩
  · cases hh
  refine ⟨s1, dt, g, w, hst, fun a b => ?_⟩
  obtain ⟨hps, hgood, -⟩ := squeezed_step hst
  obtain ⟨p, hp⟩ : ∃ p, p ∈ squeezed (1 / 16) := ⟨_, List.mem_cons_self⟩
  have hx := (squeezed_rest p hp).2.2.1
  have h1 := C83_gradient (deg := .two) (by simp) one_pos hgood.uniform (hgood.inside p hp)
    (squeezed_alike hst p (hps ▸ hp)) a b
  rw [hx] at h1
  refine h1.trans (le_of_eq ?_)
  rw [abs_of_pos (by norm_num)]
  norm_num

/-- `C102_run`: a stretched elastic particle in gravity. -/
example : ∃ t w, .particles 1 t w ∈
      filesOf (runProgram (setup false 1 .noPlasticity) true false 10 (start stretched ![0, -10])) ∧
    ∃ Φ, Motion (d := 0) .two 1 (setup false 1 .noPlasticity) (start stretched ![0, -10]) w Φ ∧ Differentiable ℝ Φ ∧
      List.Forall₂ (fun p q => q.x = Φ p.x ∧ q.F = jacobian Φ p.x * p.F) stretched w.ps := by
  obtain ⟨r, h1, t, w, h2⟩ := one_step_run_of (R := setup false 1 .noPlasticity) (musl := false) rfl rfl
    (fun _ _ => by simp [setup]) (.inl (.inl ⟨rfl, rfl⟩)) (.inl rfl) rfl (ps := stretched) (by simp [stretched])
    (by simp [stretched, Particle.init]) ![0, -10]
  have hev : .particles 1 t w ∈
      filesOf (runProgram (setup false 1 .noPlasticity) true false 10 (start stretched ![0, -10])) := by
    rw [h1]; exact h2
  exact ⟨t, w, hev, C102_run (d := 0) (R := setup false 1 .noPlasticity) (s := start stretched ![0, -10]) (deg := .two)
    (dx := 1) (fr := -19 / 20) (m := 3) (vol := 1) (mibf := false) rfl (by simp) one_pos rfl rfl
    (fun _ _ => by simp [setup]) rfl rfl hev (by simp [start])⟩

end
end Verif.Props.RunEx
