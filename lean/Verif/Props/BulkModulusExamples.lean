import Verif.Props.BulkModulus
import Verif.Props.StrengthExamples
import Verif.Props.GridFile

set_option linter.unusedSectionVars false
set_option linter.unusedSimpArgs false
set_option linter.unusedVariables false

/-!
# C93: a clamped body
-/

namespace Verif.Props.InputEx
open Verif Matrix RunEx
noncomputable section

/-- In a step in which all nodes are held, no deformation gradient and no position changes (elastic material). -/
lemma clamped_step {d : ℕ} {R : Setup (d + 2)} {w w' : World (d + 2)} {dt t : ℝ} {g : Fin (d + 2) → ℝ} {n : ℕ} {ex : Bool}
    (hpbc : R.S.pbc = false) (hmusl : R.S.useMusl = false) (hdx : 0 < R.S.P.dx) (h1 : R.S.P.oneOverDx = 1 / R.S.P.dx)
    (hm : 0 < R.S.P.particleMass) (hsched : ∀ ps, (R.sched n ps).flatten.Perm ps) (hpl : R.m.plastic = .noPlasticity)
    (hhold : ∀ l X v, stepWalls R dt w w' l X v = 0) (h : physStep R w dt g t n = some (w', ex)) :
    w'.ps.map (·.F) = w.ps.map (·.F) ∧ (R.S.changePos = false → w'.ps.map (·.x) = w.ps.map (·.x)) := by
  have hgood := physStep_goodGrid hpbc hdx h1 h
  obtain ⟨-, -, hstep⟩ := physStep_grid (deg := R.S.P.deg) (dx := R.S.P.dx) hpbc rfl h1 hsched h hgood
  obtain ⟨F, hF, hall⟩ := stepOnGrid_eq (S := R.S) (deg := R.S.P.deg) (dx := R.S.P.dx) (dt := dt) (grav := g)
    (bc := stepWalls R dt w w') (plast := plastTotal R dt) rfl h1 hgood (hsched w.ps) (plastTotal_keeps R dt)
  have hw : w'.ps = w.ps.map F := Option.some.inj (hstep.symm.trans hF)
  rw [hw, List.map_map, List.map_map]
  have hv : ∀ i, IsNode w'.g i → (stepEuler R.S R.S.P.deg R.S.P.dx dt g (stepWalls R dt w w') w'.g w.ps).v
      (flatIndex w'.g.size i) = 0 := by
    intro i hi
    have := (eulerUpdate_at R.S.P dt g (stepWalls R dt w w') w'.g
      (p2gFinish R.S.P (raw R.S.P R.S.P.deg R.S.P.dx w'.g w.ps)) hi).1
    refine this.trans ?_
    split_ifs with hpos
    · exact hhold _ _ _
    · simp only [p2gFinish] at hpos ⊢
      rw [if_neg fun h => hpos (mul_pos h hm)]
  have hnode : ∀ p ∈ w.ps, ∀ c, IsNode w'.g ((stencilOf R.S.P.deg R.S.P.dx w'.g p.x).node c) := by
    intro p hp c a
    have := (hgood.good (deg := R.S.P.deg) hp).ok.range a
    have := (c a).2
    simp only [Stencil.node, Axes.size] at *
    omega
  constructor
  · refine List.map_congr_left fun p hp => ?_
    obtain ⟨-, -, -, -, r, hr, -, -, hrF, -⟩ := hall p hp
    have hg0 : interpGrad w'.g.size (gradVel R.S R.S.P.deg R.S.P.dx dt g (stepWalls R dt w w') w'.g w.ps)
        (stencilOf R.S.P.deg R.S.P.dx w'.g p.x) = 0 := by
      have e : gradVel R.S R.S.P.deg R.S.P.dx dt g (stepWalls R dt w w') w'.g w.ps =
          (stepEuler R.S R.S.P.deg R.S.P.dx dt g (stepWalls R dt w w') w'.g w.ps).v := by
        simp [gradVel, hmusl]
      rw [e]
      unfold interpGrad loopSum
      refine List.sum_eq_zero ?_
      intro A hA
      obtain ⟨c, -, rfl⟩ := List.mem_map.mp hA
      rw [hv _ (hnode p hp c)]
      simp [vecMulVec]; rfl
    have e1 : (plastTotal R dt r).F = r.F := by
      by_cases hne : R.m.elastic = .neoHookean ∧ r.F.det ≤ 0 <;>
        simp [plastTotal, plasticUpdate, plasticity, plastModel, hpl, hne]
    show (F p).F = p.F
    rw [hr, e1, hrF, hg0, trialF]; simp
  · intro hcp
    refine List.map_congr_left fun p hp => ?_
    obtain ⟨-, -, -, hx, -⟩ := hall p hp
    have hg0 : interpV w'.g.size (stepEuler R.S R.S.P.deg R.S.P.dx dt g (stepWalls R dt w w') w'.g w.ps).v
        (stencilOf R.S.P.deg R.S.P.dx w'.g p.x) = 0 := by
      unfold interpV loopSum
      refine List.sum_eq_zero ?_
      intro A hA
      obtain ⟨c, -, rfl⟩ := List.mem_map.mp hA
      rw [hv _ (hnode p hp c), smul_zero]
    show (F p).x = p.x
    rw [hx]
    simp only [positionParticle, g2pTransfer, hg0, hpbc, hcp, Bool.false_eq_true, if_false, smul_zero, add_zero]

lemma no_plates {d : ℕ} {R : Setup (d + 2)} {dt t : ℝ} {g : Fin (d + 2) → ℝ} {n : ℕ} {w w' : World (d + 2)} {ex : Bool}
    (hpbc : R.S.pbc = false) (hpl : w.plates = []) (h : physStep R w dt g t n = some (w', ex)) : w'.plates = [] := by
  simp only [physStep, Option.bind_eq_bind, Option.bind_eq_some_iff] at h
  obtain ⟨bg, h1, h⟩ := h
  simp only [hpbc, Bool.false_eq_true, if_false, ne_eq, not_true_eq_false, and_false, Option.bind_some,
    Option.bind_eq_some_iff] at h
  obtain ⟨arr, h2, qs, h3, h⟩ := h
  by_cases hu : R.S.useMusl = true
  · simp only [if_pos hu, Option.bind_eq_some_iff] at h
    obtain ⟨r, h4, qv, h5m, h⟩ := h
    obtain ⟨qs', h5, rfl⟩ := Option.map_eq_some_iff.mp h5m
    obtain ⟨rfl, -⟩ := Prod.mk.inj (Option.some.inj h)
    simp [hpl]
  · simp only [if_neg hu, Option.bind_some] at h
    obtain ⟨rfl, -⟩ := Prod.mk.inj (Option.some.inj h)
    simp [hpl]

/-- A lower bound for the principal stretches in the plane. -/
lemma stretch_ge {F : Matrix (Fin 2) (Fin 2) ℝ} {c D : ℝ} (hc : 0 < c) (hD : 0 < D) (hdet : F.det = D)
    (htr : (Fᵀ * F).trace ≤ c ^ 2) {σ : Svd 2} (hσ : IsSvd F σ) (a : Fin 2) : D / c ≤ σ.sig a := by
  have h1 := abs_det_svd hσ
  rw [hdet, abs_of_pos hD, Fin.prod_univ_two] at h1
  have e : (Fᵀ * F).trace = σ.sig 0 ^ 2 + σ.sig 1 ^ 2 := by
    have hU := mul_eq_one_comm.mp hσ.orthU
    have hV := mul_eq_one_comm.mp hσ.orthV
    have : Fᵀ * F = σ.V * (diagonal σ.sig * diagonal σ.sig) * σ.Vᵀ := by
      conv_lhs => rw [hσ.eq]
      simp only [transpose_mul, transpose_transpose, diagonal_transpose, Matrix.mul_assoc]
      rw [← Matrix.mul_assoc σ.Uᵀ, hU, Matrix.one_mul]
    rw [this, Matrix.mul_assoc, trace_mul_comm, Matrix.mul_assoc, hV, Matrix.mul_one, diagonal_mul_diagonal,
      trace_diagonal, Fin.sum_univ_two]
    ring
  rw [e] at htr
  have n0 := hσ.nonneg 0
  have n1 := hσ.nonneg 1
  have b0 : σ.sig 0 ≤ c := by nlinarith
  have b1 : σ.sig 1 ≤ c := by nlinarith
  rw [div_le_iff₀ hc]
  fin_cases a <;> simp only [Fin.zero_eta, Fin.mk_one] <;> nlinarith

/-- Terrain that holds every node. -/
def holdAll : List (GenObject 2) := [⟨.noSlip, 0, fun _ => True, fun _ => 0⟩]

/-- Two particles, compressed to one half and to one quarter of their volume. -/
def squeezed : List (Particle 2 ℝ) :=
  [{ Particle.init with x := ![1 / 3, 0], F := diagonal ![1, 1 / 2] },
    { Particle.init with x := ![2 / 3, 0], F := diagonal ![1 / 2, 1 / 2] }]

def clampSim : Sim 2 := { exSim false with objects := holdAll, particles := squeezed }

lemma clampSim_solid : Solid (d := 0) clampSim exBuild where
  dim := .inl rfl
  hE := by norm_num [clampSim, exSim]
  nu1 := by norm_num [clampSim, exSim]
  nu2 := by norm_num [clampSim, exSim]
  hq := by simp [clampSim, exSim]
  hel := rfl
  svd := someSvd_isSvd
  minDt := by norm_num [clampSim, exSim]

lemma clampSim_file : ∃ t w, .particles 1 t w ∈ filesOf (Sim.simulate (d := 0) clampSim exBuild 10) ∧
    w.ps.map (·.F) = [diagonal ![1, 1 / 2], diagonal ![1 / 2, 1 / 2]] := by
  obtain ⟨r, h, t, w, hw⟩ := one_step_run_of (R := clampSim.setup exBuild (Nat.succ_pos 1) 1 3 1) (musl := false)
    rfl (by simp only [Sim.setup, clampSim, exSim, exBuild, RunEx.setup]; norm_num)
    (fun _ _ => by simp [Sim.setup, exBuild]) (.inl (.inl ⟨rfl, rfl⟩)) (.inl rfl) rfl (ps := squeezed)
    (by simp [squeezed]) (by simp [squeezed, Particle.init]) ![0, -10]
  have hrun : Sim.simulate (d := 0) clampSim exBuild 10 = .finished r := h
  refine ⟨t, w, by rw [hrun]; exact hw, ?_⟩
  have hev : .particles 1 t w ∈ filesOf (runProgram (clampSim.setup exBuild (Nat.succ_pos 1) 1 3 1) true false 10
      (start squeezed ![0, -10])) := by rw [h]; exact hw
  rcases run_particles (d := 0) hev (by simp [start]) with ⟨hh, -, -⟩ | ⟨s1, dt, g, hst, -⟩
  · cases hh
  refine ((run_inv (d := 0) (Inv := fun w _ _ _ => w.plates = [] ∧
    w.ps.map (·.F) = [diagonal ![1, 1 / 2], diagonal ![1 / 2, 1 / 2]]) ?_ (fun s1 dt g w hst hI => ?_) hst).2).2
  · rw [begin_w]
    have : (clampSim.setup exBuild (Nat.succ_pos 1) 1 3 1).S.P.useMibf = false := rfl
    simp [fillMuI, start, squeezed, this]
  · refine ⟨no_plates rfl hI.1 hst.phys, ?_⟩
    rw [← hI.2]
    have hdx : (clampSim.setup exBuild (Nat.succ_pos 1) 1 3 1).S.P.dx = 1 := rfl
    have h1 : (clampSim.setup exBuild (Nat.succ_pos 1) 1 3 1).S.P.oneOverDx = 1 / 1 := rfl
    have hm : (clampSim.setup exBuild (Nat.succ_pos 1) 1 3 1).S.P.particleMass = 3 := rfl
    refine (clamped_step (d := 0) rfl rfl (by rw [hdx]; norm_num) (by rw [hdx, h1]) (by rw [hm]; norm_num) (fun ps => ?_) rfl
      (fun l X v => ?_) hst.phys).1
    · simp [Sim.setup, exBuild]
    · have ho : (clampSim.setup exBuild (Nat.succ_pos 1) 1 3 1).objs = holdAll := rfl
      simp only [stepWalls, boundaryCollision, ho, hI.1, holdAll, collideObjects, collidePlates, List.foldl_cons,
        List.foldl_nil, if_true, objectRel]

/-- `C93` for two particles of one half and one quarter of their initial volume, which are held in place: the mean
volume ratio is 3/8, and the measured bulk modulus is too small. -/
example : ∃ t w c k, .particles 1 t w ∈ filesOf (Sim.simulate (d := 0) clampSim exBuild 10) ∧
    computeAvg w.ps = some (c, k, 3 / 8) ∧ measuredK k (3 / 8) < bulkModulus 1 (1 / 4) 2 ∧
    1 / 2 * bulkModulus 1 (1 / 4) 2 ≤ measuredK k (3 / 8) := by
  obtain ⟨t, w, hev, hF⟩ := clampSim_file
  obtain ⟨p, q, hw⟩ : ∃ p q, w.ps = [p, q] := List.length_eq_two.mp (by
    have := congrArg List.length hF; simpa using this)
  rw [hw] at hF
  simp only [List.map_cons, List.map_nil, List.cons.injEq, and_true] at hF
  have d1 : p.F.det = 1 / 2 := by rw [hF.1, det_diagonal]; simp
  have d2 : q.F.det = 1 / 4 := by
    rw [hF.2, det_diagonal]
    refine (Fin.prod_univ_two _).trans ?_
    norm_num
  have hr : Regular (d := 0) w := by
    intro r hr
    rw [hw] at hr
    simp only [List.mem_cons, List.not_mem_nil, or_false] at hr
    rcases hr with rfl | rfl
    · refine ⟨by rw [d1]; norm_num, fun σ hσ a => le_trans (by norm_num) (stretch_ge (c := 2) (by norm_num) (by norm_num) d1 ?_ hσ a)⟩
      rw [hF.1, diagonal_transpose, diagonal_mul_diagonal, trace_diagonal, Fin.sum_univ_two]; norm_num
    · refine ⟨by rw [d2]; norm_num, fun σ hσ a => le_trans (by norm_num) (stretch_ge (c := 2) (by norm_num) (by norm_num) d2 ?_ hσ a)⟩
      rw [hF.2, diagonal_transpose, diagonal_mul_diagonal, trace_diagonal, Fin.sum_univ_two]; norm_num
  have h0 : ∀ p ∈ clampSim.particles, p.epsPlVol = 0 := by simp [clampSim, squeezed, Particle.init]
  obtain ⟨c, k, J, h, -, h1, -, h3⟩ := C93_measured clampSim_solid rfl h0 hev (by norm_num) hr (by simp [hw])
  obtain ⟨c', k', J', h', -, -, h4, -⟩ := C93_error clampSim_solid rfl h0 hev (by norm_num) hr (by simp [hw])
    (lo := 1 / 4) (hi := 1 / 2) (by norm_num) (by norm_num) (by
      intro r hr
      rw [hw] at hr
      simp only [List.mem_cons, List.not_mem_nil, or_false] at hr
      rcases hr with rfl | rfl
      · rw [d1]; norm_num
      · rw [d2]; norm_num)
  rw [h] at h'
  obtain ⟨rfl, rfl, rfl⟩ : c = c' ∧ k = k' ∧ J = J' := by simpa using h'
  have hJ : J = 3 / 8 := by
    have hp := (sim_pressure clampSim_solid rfl h0 hev (by norm_num) hr)
    obtain ⟨_, _, J', h', _, _, h3⟩ := C49_means (ps := w.ps) (by simp [hw]) fun r hr' => by
      rw [(hp r hr').1]; exact (hr r hr').1
    rw [h] at h'
    obtain rfl : J = J' := by
      have := Option.some.inj h'; exact congrArg (fun x => x.2.2) this
    rw [h3, weightedMean, hw]
    simp only [List.map_cons, List.map_nil, List.sum_cons, List.sum_nil, (hp p (by simp [hw])).1, (hp q (by simp [hw])).1,
      d1, d2]
    norm_num
  subst hJ
  have hE : bulkModulus clampSim.E clampSim.nu (0 + 2) = bulkModulus 1 (1 / 4) 2 := rfl
  rw [hE] at h1 h3 h4
  refine ⟨t, w, c, k, hev, h, lt_of_le_of_ne (h1 (by norm_num)) fun e => ?_, ?_⟩
  · have := (h3 (by norm_num)).mp e p (by simp [hw])
    rw [d1] at this; norm_num at this
  · refine le_trans (le_of_eq ?_) h4
    congr 1
    have : (1 / 4 : ℝ) = (1 / 2) ^ 2 := by norm_num
    rw [this, Real.log_pow]
    have : Real.log (1 / 2) ≠ 0 := (Real.log_neg (by norm_num) (by norm_num)).ne
    push_cast
    field_simp

end
end Verif.Props.InputEx
