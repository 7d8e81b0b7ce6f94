import Verif.Props.Inversion
import Verif.Props.SpinExamples

set_option linter.unusedSectionVars false
set_option linter.unusedSimpArgs false
set_option linter.unusedVariables false

/-!
# C83: a particle squeezed by its own affine velocity field
-/

namespace Verif.Props.RunEx
open Verif Matrix
noncomputable section

/-- One particle at rest whose affine field squeezes it along `x`. -/
def squeezed (β : ℝ) : List (Particle 2 ℝ) := [{ Particle.init with Bmat := !![-β, 0; 0, 0] }]

lemma squeezed_rest {β : ℝ} : ∀ p ∈ squeezed β, p.v = 0 ∧ p.tau = 0 ∧ p.x = 0 ∧ p.F = 1 := by
  intro p hp
  simp only [squeezed, List.mem_cons, List.not_mem_nil, or_false] at hp
  subst hp
  exact ⟨rfl, rfl, rfl, rfl⟩

lemma squeezed_run (β : ℝ) : ∃ t w, .particles 1 t w ∈
    filesOf (runProgram (blended false (-2)) true false 10 (start (squeezed β) 0)) := by
  have hcrit := only_begin_of (R := blended false (-2)) rfl (ps := squeezed β) (by simp [squeezed])
    (fun p hp => (squeezed_rest p hp).1) 0 (pl := [])
  obtain ⟨r, h1, -, t, w, h2, -⟩ := C61_completes (R := blended false (-2)) (s := start (squeezed β) 0) (deg := .two)
    (dx := 1) (fr := -2) (m := 3) (vol := 1) (i := true) (e := false) (fuel := 10)
    rfl one_pos rfl rfl (by simp [start, squeezed]) (fun _ _ => by simp [blended, setup]) (blended_robust _ _)
    (.inr (.inl rfl)) rfl (by norm_num [blended, setup, cfg, exConfig]) (by norm_num)
    (by norm_num [blended, setup, cfg, exConfig])
    (by norm_num [blended, setup, cfg, exConfig]) rfl (by norm_num [blended, setup, cfg, exConfig])
    (fun k s1 hr hk => absurd (hcrit k s1 hr) hk.ne')
  refine ⟨t 1, w 1, ?_⟩
  rw [h1]
  show _ ∈ r.out
  rw [h2]
  simp [frameFiles, blended, setup, cfg, exConfig]

/-- The only step of this run: the nodes around the particle move according to its affine field. -/
lemma squeezed_step {β : ℝ} {s1 : LoopState 2 (World 2)} {dt : ℝ} {g' : Fin 2 → ℝ} {w : World 2}
    (hst : StepOf (d := 0) (blended false (-2)) (start (squeezed β) 0) s1 dt g' w) :
    s1.w.ps = squeezed β ∧ GoodGrid 1 w.g (squeezed β) ∧
      (∀ i, IsNode w.g i → 0 < shape .two 1 (nodeAt w.g i) 0 →
        w.vel (flatIndex w.g.size i) = ![-(4 * β * nodeAt w.g i 0), 0]) := by
  obtain ⟨m0, h0, h1⟩ := run_lattice (d := 0) (R := blended false (-2)) (dx := 1) rfl one_pos rfl rfl
    (by simp [start, squeezed]) hst
  have hgood := physStep_goodGrid (d := 0) (R := blended false (-2)) rfl one_pos rfl hst.phys
  have hg := hst.dt_ge.2
  have hst' := hst
  obtain ⟨k, hr, -⟩ := hst
  have hk := only_begin_of (R := blended false (-2)) rfl (ps := squeezed β) (by simp [squeezed])
    (fun p hp => (squeezed_rest p hp).1) 0 k s1 hr
  subst hk
  cases hr
  have hw : (begin (d := 0) (blended false (-2)) (start (squeezed β) 0)).w.ps = squeezed β := by
    rw [begin_w]; simp [fillMuI, blended, start, mkTransferParams]
  have hpl : (begin (d := 0) (blended false (-2)) (start (squeezed β) 0)).w.plates = [] := by
    rw [begin_w]; simp [fillMuI, blended, start, mkTransferParams]
  have hgr : g' = 0 := by
    rw [hg, begin_gravity, rampGravity]; rfl
  subst hgr
  have hm : ∀ a, m0 a = 0 := by
    intro a
    rcases (h0 a).1 with ⟨x, hx, e⟩ | ⟨r, hr, _⟩
    · obtain ⟨q, hq, rfl⟩ := List.mem_map.mp hx
      rw [← e, (squeezed_rest q hq).2.2.1]; rfl
    · cases hr
  have hnode : ∀ i, IsNode w.g i → ∀ a, ∃ k : ℤ, nodeAt w.g i a = k := by
    intro j hj a
    obtain ⟨k, hk⟩ := h1 a _ (List.getElem_mem (hj a))
    refine ⟨k, ?_⟩
    rw [nodeAt, List.getD_eq_getElem?_getD, List.getElem?_eq_getElem (hj a), Option.getD_some, hk, hm]
    push_cast; ring
  have hgood' : GoodGrid 1 w.g (squeezed β) := by rw [← hw]; exact hgood
  refine ⟨hw, hgood', fun i hi hpos => ?_⟩
  obtain ⟨-, hvel, -⟩ := physStep_grid (d := 0) (R := blended false (-2)) (deg := .two) (dx := 1) rfl rfl rfl
    (fun ps => by simp [blended, setup]) hst'.phys hgood
  rw [hw] at hvel
  have htiny : 1 / 10 ^ 25 < shape .two (1 : ℝ) (nodeAt w.g i) 0 := by
    have hN : ∀ a, N .two ((0 - nodeAt w.g i a) / 1) = 0 ∨ 1 / 8 ≤ N .two ((0 - nodeAt w.g i a) / 1) := by
      intro a
      obtain ⟨z, hz⟩ := hnode i hi a
      have : (0 - nodeAt w.g i a) / 1 = ((-z : ℤ) : ℝ) := by rw [hz]; push_cast; ring
      rw [this]
      exact N2_int _
    rw [shape2] at hpos ⊢
    simp only [Pi.zero_apply] at hpos ⊢
    rcases hN 0 with h0 | h0
    · rw [h0, zero_mul] at hpos; exact absurd hpos (lt_irrefl _)
    rcases hN 1 with h1 | h1
    · rw [h1, mul_zero] at hpos; exact absurd hpos (lt_irrefl _)
    have := mul_le_mul h0 h1 (by norm_num) (by linarith)
    refine lt_of_lt_of_le ?_ this
    norm_num
  obtain ⟨n1, n2⟩ := node_values (d := 0) (S := (blended false (-2)).S) (deg := .two) (dx := 1) (fr := -2) (m := 3)
    (vol := 1) (mibf := false) (ps := squeezed β) (dt := dt) (grav := 0) rfl (by norm_num) hgood' hi
  have hmass : massAt .two 1 3 (squeezed β) (nodeAt w.g i) = 3 * shape .two 1 (nodeAt w.g i) 0 := by
    simp only [massAt, squeezed, List.filter_cons, List.filter_nil, Particle.init]
    rw [if_pos (decide_eq_true htiny)]
    simp
  have hat := (eulerUpdate_at (blended false (-2)).S.P dt 0
    (stepWalls (d := 0) (blended false (-2)) dt (begin (d := 0) (blended false (-2)) (start (squeezed β) 0)).w w) w.g
    (p2gFinish (blended false (-2)).S.P (raw (blended false (-2)).S.P .two 1 w.g (squeezed β))) (i := i) hi).1
  have hwalls : ∀ l X v, stepWalls (d := 0) (blended false (-2)) dt
      (begin (d := 0) (blended false (-2)) (start (squeezed β) 0)).w w l X v = v := by
    intro l X v
    simp only [stepWalls, hpl]
    rfl
  rw [hwalls, if_pos (by rw [n1, hmass]; linarith)] at hat
  have he : w.vel (flatIndex w.g.size i) =
      beforeWalls (d := 0) (blended false (-2)).S .two 1 dt 0 w.g (squeezed β) (flatIndex w.g.size i) := by
    rw [hvel]
    exact hat
  rw [he]
  rw [hmass] at n2
  have hne : (3 * shape .two 1 (nodeAt w.g i) 0 : ℝ) ≠ 0 := by linarith
  refine smul_right_injective _ hne ?_
  show _ • _ = _ • _
  rw [n2]
  have hD : (blended false (-2)).S.P.apicDinverse = 4 := by norm_num [blended, mkTransferParams]
  simp only [freeMomentum, hD, squeezed, List.filter_cons, List.filter_nil, Particle.init]
  rw [if_pos (decide_eq_true htiny)]
  ext a
  fin_cases a <;> simp [Matrix.mulVec, dotProduct, Fin.sum_univ_two] <;> ring

/-- The velocities of neighbouring nodes around the particle differ by at most `4 |β|`. -/
lemma squeezed_alike {β : ℝ} {s1 : LoopState 2 (World 2)} {dt : ℝ} {g' : Fin 2 → ℝ} {w : World 2}
    (hst : StepOf (d := 0) (blended false (-2)) (start (squeezed β) 0) s1 dt g' w) :
    ∀ p ∈ s1.w.ps, NodesAlike .two 1 w.g w.vel p.x (4 * |β|) := by
  obtain ⟨h1, hg, hv⟩ := squeezed_step hst
  intro p hp i b hi hi' hs hs' a
  rw [h1] at hp
  rw [(squeezed_rest p hp).2.2.1] at hs hs'
  rw [hv _ hi hs, hv _ hi' hs']
  have hx : nodeAt w.g (Function.update i b (i b + 1)) 0 - nodeAt w.g i 0 = if b = 0 then 1 else 0 := by
    obtain ⟨x0, hu⟩ := hg.uniform 0
    have hat : ∀ k, k < (w.g 0).length → (w.g 0).getD k 0 = x0 + k * 1 := by
      intro k hk
      rw [List.getD_eq_getElem?_getD, List.getElem?_eq_getElem hk, Option.getD_some]
      rw [List.getElem_of_eq hu]
      simp
    simp only [nodeAt]
    rw [hat _ (hi 0), hat _ (hi' 0)]
    by_cases hb : b = 0
    · subst hb; simp
    · rw [Function.update_of_ne (Ne.symm hb)]; simp [hb]
  fin_cases a
  · simp only [Fin.zero_eta, cons_val_zero]
    have e : -(4 * β * nodeAt w.g (Function.update i b (i b + 1)) 0) - -(4 * β * nodeAt w.g i 0) =
        -(4 * β * (nodeAt w.g (Function.update i b (i b + 1)) 0 - nodeAt w.g i 0)) := by ring
    rw [e, hx]
    split_ifs
    · rw [mul_one, abs_neg, abs_mul, abs_of_pos (by norm_num : (0:ℝ) < 4)]
    · simp
  · simp

/-- `C83_run` for the particle squeezed moderately. -/
example : ∃ t w, .particles 1 t w ∈ filesOf (runProgram (blended false (-2)) true false 10 (start (squeezed (1 / 16)) 0)) ∧
    ∀ p ∈ w.ps, 0 < p.F.det := by
  obtain ⟨t, w, hev⟩ := squeezed_run (1 / 16)
  refine ⟨t, w, hev, ?_⟩
  refine C83_run (d := 0) (R := blended false (-2)) (s := start (squeezed (1 / 16)) 0) (deg := .two) (dx := 1) (fr := -2)
    (m := 3) (vol := 1) (mibf := false) rfl (by simp) one_pos rfl (fun _ _ => by simp [blended, setup]) someSvd_isSvd
    (by norm_num [blended, setup, cfg, exConfig]) ?_ ?_ hev (by simp [start])
  · intro s1 dt g w hst
    refine ⟨4 * |1 / 16|, ?_, squeezed_alike hst⟩
    have := hst.dt_le
    have h1 : max (blended false (-2)).C.dtMax (blended false (-2)).C.minDt ≤ 1 := by
      norm_num [blended, setup, cfg, exConfig, TimeConfig.dtMax, TimeConfig.waveSpeed]
    rw [abs_of_pos (by norm_num)]
    have : dt ≤ 1 := by linarith
    push_cast
    linarith
  · intro p hp
    rw [(squeezed_rest p hp).2.2.2]
    simp

/-- `C83_run_speed` for the particle squeezed slightly. -/
example : ∃ t w, .particles 1 t w ∈ filesOf (runProgram (blended false (-2)) true false 10 (start (squeezed (1 / 64)) 0)) ∧
    ∀ p ∈ w.ps, 0 < p.F.det := by
  obtain ⟨t, w, hev⟩ := squeezed_run (1 / 64)
  refine ⟨t, w, hev, ?_⟩
  refine C83_run_speed (d := 0) (R := blended false (-2)) (s := start (squeezed (1 / 64)) 0) (deg := .two) (dx := 1)
    (fr := -2) (m := 3) (vol := 1) (mibf := false) rfl (by simp) one_pos rfl (fun _ _ => by simp [blended, setup])
    someSvd_isSvd (by norm_num [blended, setup, cfg, exConfig]) ?_ ?_ hev (by simp [start])
  · intro s1 dt g w hst
    have := hst.dt_le
    have h1 : max (blended false (-2)).C.dtMax (blended false (-2)).C.minDt ≤ 1 := by
      norm_num [blended, setup, cfg, exConfig, TimeConfig.dtMax, TimeConfig.waveSpeed]
    refine ⟨1 / 8, ?_, ?_⟩
    · have : dt ≤ 1 := by linarith
      push_cast
      linarith
    · obtain ⟨hps, -, hv⟩ := squeezed_step hst
      intro p hp j hj hs a
      rw [hps] at hp
      rw [(squeezed_rest p hp).2.2.1] at hs
      rw [hv j hj hs]
      have hx : |nodeAt w.g j 0| < 2 := by
        by_contra hc
        rw [shape2, N_out] at hs
        · simp at hs
        · simp only [Pi.zero_apply, zero_sub, div_one, abs_neg]
          exact not_lt.mp hc
      have := abs_lt.mp hx
      fin_cases a
      · simp only [Fin.zero_eta, cons_val_zero]
        rw [abs_le]
        constructor <;> linarith [this.1, this.2]
      · simp
  · intro p hp
    rw [(squeezed_rest p hp).2.2.2]
    simp

/-- **C83** The program's own limits on the time step do not prevent it: a particle at rest with a strongly squeezing
affine field, in a run with nothing else, without gravity and walls, is turned inside out by its first step. -/
theorem C83_cfl_false : ∃ (R : Setup 2) (s : LoopState 2 (World 2)) (t : ℝ) (w : World 2),
    R.C.cfl ≤ 1 / 2 ∧ (∀ p ∈ s.w.ps, p.v = 0 ∧ p.F = 1 ∧ p.tau = 0) ∧ s.gravity = 0 ∧ s.w.plates = [] ∧ R.objs = [] ∧
    (∀ F, IsSvd F (R.svd F)) ∧ s.out = [] ∧
    .particles 1 t w ∈ filesOf (runProgram (d := 0) R true false 10 s) ∧ ∃ p ∈ w.ps, p.F.det < 0 := by
  obtain ⟨t, w, hev⟩ := squeezed_run 10
  refine ⟨blended false (-2), start (squeezed 10) 0, t, w, le_refl _, ?_, rfl, rfl, rfl, someSvd_isSvd, rfl, hev, ?_⟩
  · intro p hp
    obtain ⟨h1, h2, -, h4⟩ := squeezed_rest p hp
    exact ⟨h1, h4, h2⟩
  rcases run_particles (d := 0) hev (by simp [start]) with ⟨hh, -, -⟩ | ⟨s1, dt, g, hst, rfl⟩
  · cases hh
  obtain ⟨hps, hgood, hv⟩ := squeezed_step hst
  have hdt : 1 / 10 ≤ dt := hst.dt_ge.1
  obtain ⟨-, hvel, hstep⟩ := physStep_grid (d := 0) (R := blended false (-2)) (deg := .two) (dx := 1) rfl rfl rfl
    (fun ps => by simp [blended, setup]) hst.phys (by rw [hps]; exact hgood)
  rw [hps] at hvel hstep
  obtain ⟨F, hF, hFp⟩ := stepOnGrid_eq (d := 0) (S := (blended false (-2)).S) (deg := .two) (dx := 1) (dt := dt) (grav := g)
    (bc := stepWalls (d := 0) (blended false (-2)) dt s1.w w) (plast := plastTotal (blended false (-2)) dt)
    (threads := (blended false (-2)).sched s1.step (squeezed 10)) rfl rfl hgood (by simp [blended, setup])
    (plastTotal_keeps _ dt)
  have hw : w.ps = (squeezed 10).map F := Option.some.inj (hstep.symm.trans hF)
  let p : Particle 2 ℝ := { Particle.init with Bmat := !![-10, 0; 0, 0] }
  have hp : p ∈ squeezed 10 := by simp [squeezed, p]
  have hpx : p.x = 0 := rfl
  refine ⟨F p, by rw [hw]; exact List.mem_map_of_mem hp, ?_⟩
  obtain ⟨-, -, -, -, r, hr, -, -, hrF, -⟩ := hFp p hp
  rw [← hvel, hpx] at hrF
  have hG := hgood.good (deg := .two) hp
  rw [hpx] at hG
  obtain ⟨D, hD⟩ := hG.gradOK (by simp)
  have hgrad : interpGrad w.g.size w.vel (stencilOf .two 1 w.g 0) = !![-40, 0; 0, 0] := by
    rw [interpGrad_eq]
    have hterm : ∀ c, vecMulVec (w.vel (flatIndex w.g.size ((stencilOf .two 1 w.g 0).node c)))
        ((stencilOf .two 1 w.g 0).weightGrad c) =
        vecMulVec (![-(40 * (stencilOf .two 1 w.g 0).nodePos c 0), 0]) ((stencilOf .two 1 w.g 0).weightGrad c) := by
      intro c
      rcases (hG.ok.weight_nonneg c).eq_or_lt with h0 | h0
      · rw [hG.ok.grad_zero hD h0.symm, vecMulVec_zero, vecMulVec_zero]
      · rw [hG.weight, hG.pos] at h0
        rw [hv _ (hG.ok.node_lt c) h0, hG.pos]
        rw [show (4 * 10 : ℝ) = 40 by norm_num]
    rw [Finset.sum_congr rfl fun c _ => hterm c]
    have key : ∀ b, ∑ c, -(40 * (stencilOf .two 1 w.g 0).nodePos c 0) * (stencilOf .two 1 w.g 0).weightGrad c b =
        -40 * if 0 = b then 1 else 0 := by
      intro b
      rw [← hG.ok.sum_grad_pos hD 0 b, Finset.mul_sum]
      refine Finset.sum_congr rfl fun c _ => ?_
      rw [Pi.zero_apply]; ring
    ext a b
    rw [Matrix.sum_apply]
    simp only [vecMulVec_apply]
    fin_cases a
    · simp only [Fin.zero_eta, cons_val_zero]
      rw [key]
      fin_cases b <;> simp
    · fin_cases b <;> simp
  have hrdet : r.F.det = 1 - 40 * dt := by
    rw [hrF, hgrad, trialF]
    show (1 + dt • ((!![-40, 0; 0, 0] : Matrix (Fin 2) (Fin 2) ℝ) * 1)).det = _
    rw [mul_one, Matrix.det_fin_two]
    simp
    ring
  have hneg : r.F.det < 0 := by rw [hrdet]; linarith
  rw [hr]
  unfold plastTotal
  cases hu : plasticUpdate (blended false (-2)) dt r with
  | none => simpa using hneg
  | some u =>
    obtain ⟨out, ho, rfl⟩ := plasticUpdate_some (d := 0) hu
    obtain ⟨c, hc, e⟩ := C83_plastic (someSvd_isSvd _) hneg.ne ho
    simp only [Option.map_some, Option.getD_some]
    rw [e]
    exact mul_neg_of_pos_of_neg hc hneg

end
end Verif.Props.RunEx
