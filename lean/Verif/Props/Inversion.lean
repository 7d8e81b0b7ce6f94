import Verif.Lemmas.Gradient
import Verif.Lemmas.Consistent
import Verif.Lemmas.GridFile
import Verif.Props.Run
import Verif.Props.Reproduce

set_option linter.unusedSectionVars false
set_option linter.unusedSimpArgs false
set_option linter.unusedVariables false

/-!
# C83: particles are not turned inside out while neighbouring nodes move alike
-/

namespace Verif.Props
open Verif Matrix

/-! ### the plastic update -/

section plastic
variable {d : ℕ} {cabs : ℝ → ℝ} {svd : Matrix (Fin d) (Fin d) ℝ → Svd d} {m : Material} {dt : ℝ} {q : Particle d ℝ}
  {ex : Bool} {out : PState d}

/-- **C83** The plastic update of any model never turns a particle inside out: it multiplies the volume ratio by a
positive number. -/
theorem C83_plastic (hsvd : IsSvd q.F (svd q.F)) (hF : q.F.det ≠ 0) (h : plasticity cabs svd m dt q ex = some out) :
    ∃ c, 0 < c ∧ out.q.F.det = c * q.F.det := by
  obtain ⟨st, hst, rfl⟩ := plasticity_some.mp h
  set s := svd q.F with hs
  have hdet : q.F.det = s.U.det * (∏ a, s.sig a) * s.V.det := by
    conv_lhs => rw [hsvd.eq]
    rw [det_mul, det_mul, det_diagonal, det_transpose]
  have hpos : 0 < ∏ a, s.sig a := by
    have h0 : 0 ≤ ∏ a, s.sig a := Finset.prod_nonneg fun a _ => hsvd.nonneg a
    refine lt_of_le_of_ne h0 fun e => hF ?_
    rw [hdet, ← e, mul_zero, zero_mul]
  have key : ∀ r : ℝ, 0 < r → ∃ c, 0 < c ∧ s.U.det * r * s.V.det = c * q.F.det := by
    intro r hr
    refine ⟨r / ∏ a, s.sig a, div_pos hr hpos, ?_⟩
    rw [hdet]
    field_simp
  have hexp : ∀ k, ∃ c, 0 < c ∧ (s.expF k).det = c * q.F.det := by
    intro k
    rw [Svd.expF, det_mul, det_mul, det_diagonal, det_transpose]
    exact key _ (Finset.prod_pos fun a _ => Real.exp_pos _)
  by_cases hc : m.plastic = .vmVisc ∧ Capped m (mkTrial s.hencky) q
  · obtain ⟨hm, hc⟩ := hc
    unfold Capped at hc
    simp only [plastModel, hm, plastVMVisc] at hst
    rw [if_pos hc] at hst
    obtain rfl := Option.some.inj hst
    simp only
    rw [det_mul, det_transpose]
    have := key 1 one_pos
    rwa [mul_one] at this
  · rcases cons_plastModel (fun hm hcap => hc ⟨hm, hcap⟩) hst with h | ⟨h, -⟩
    · simp only
      rw [h]
      exact hexp _
    · exact ⟨1, one_pos, by simp only; rw [h, one_mul]⟩

end plastic

/-! ### the run -/

/-- Along every axis, the velocities of any two neighbouring nodes whose shape functions are both positive at `x`
differ by at most `δ` in each component. -/
def NodesAlike {d : ℕ} (deg : Deg) (dx : ℝ) (g : Axes d ℝ) (v : ℕ → Fin d → ℝ) (x : Fin d → ℝ) (δ : ℝ) : Prop :=
  ∀ i b, IsNode g i → IsNode g (Function.update i b (i b + 1)) → 0 < shape deg dx (nodeAt g i) x →
    0 < shape deg dx (nodeAt g (Function.update i b (i b + 1))) x →
    ∀ a, |v (flatIndex g.size (Function.update i b (i b + 1))) a - v (flatIndex g.size i) a| ≤ δ

section grad
variable {d : ℕ} {deg : Deg} {dx : ℝ} {g : Axes d ℝ} {x : Fin d → ℝ} {v : ℕ → Fin d → ℝ} {δ : ℝ}

/-- Every component of the velocity gradient at a particle is at most the largest velocity difference between
neighbouring nodes around it, divided by the grid spacing. -/
lemma interpGrad_le (hd : deg ≠ .one) (hdx : 0 < dx) (hu : ∀ a, UniformAxis dx (g a))
    (hi : ∀ a, InsideAxis dx (g a) (x a)) (h : NodesAlike deg dx g v x δ) (a b : Fin d) :
    ∃ s, stencilG2P deg (1 / dx) g x = some s ∧ |interpGrad g.size v s a b| ≤ δ / dx := by
  refine ⟨_, (goodAt hdx hu hi).g2p, ?_⟩
  rw [interpGrad_eq]
  simp only [Matrix.sum_apply, vecMulVec_apply]
  exact grad_le (u := fun i => v (flatIndex g.size i) a) hd hdx hu hi b
    (fun i h1 h2 h3 h4 => h i b h1 h2 h3 h4 a)

end grad

section run
variable {d : ℕ} {R : Setup (d + 2)} {s : LoopState (d + 2) (World (d + 2))} {i e : Bool} {fuel : ℕ}
variable {deg : Deg} {dx fr m vol : ℝ} {mibf : Bool}

/-- **C83** One step, quadratic or cubic splines, any material and walls, with or without MUSL: if around every particle
neighbouring nodes move alike, up to `δ` with `(number of dimensions) · dt · δ < dx`, then no particle is turned inside
out. The velocities are those in the grid file of the step. -/
theorem C83_step {dt time : ℝ} {grav : Fin (d + 2) → ℝ} {n : ℕ} {w w' : World (d + 2)} {ex : Bool} {δ : ℝ}
    (hS : R.S.P = mkTransferParams deg dx fr mibf m vol) (hd : deg ≠ .one) (hdx : 0 < dx) (hpbc : R.S.pbc = false)
    (hsched : ∀ ps, (R.sched n ps).flatten.Perm ps) (hsvd : ∀ F, IsSvd F (R.svd F)) (hdt : 0 ≤ dt)
    (h : physStep R w dt grav time n = some (w', ex))
    (hv : ∀ p ∈ w.ps, NodesAlike deg dx w'.g w'.vel p.x δ) (hδ : (d + 2) * (dt * δ) < dx) :
    List.Forall₂ (fun p q => ∃ c, 0 < c ∧ (p.F.det ≠ 0 → q.F.det = c * p.F.det)) w.ps w'.ps := by
  have hP : R.S.P.deg = deg := by rw [hS]; rfl
  have hP1 : R.S.P.oneOverDx = 1 / dx := by rw [hS]; rfl
  have hPdx : R.S.P.dx = dx := by rw [hS]; rfl
  have hgood := physStep_goodGrid hpbc (by rw [hPdx]; exact hdx) (by rw [hS]; rfl) h
  rw [hPdx] at hgood
  obtain ⟨-, hvel, hstep⟩ := physStep_grid hpbc hP hP1 hsched h hgood
  obtain ⟨F, hF, hFp⟩ := stepOnGrid_eq (S := R.S) (dt := dt) (grav := grav) (bc := stepWalls R dt w w')
    (plast := plastTotal R dt) (threads := R.sched n w.ps) hP hP1 hgood (hsched _) (plastTotal_keeps R dt)
  have hw : w'.ps = w.ps.map F := Option.some.inj (hstep.symm.trans hF)
  rw [hw]
  refine forall₂_map fun p hp => ?_
  obtain ⟨-, -, -, -, r, hr, -, -, hrF, -⟩ := hFp p hp
  rw [← hvel] at hrF
  have hL : ∀ a b, |(dt • interpGrad w'.g.size w'.vel (stencilOf deg dx w'.g p.x)) a b| ≤ dt * (δ / dx) := by
    intro a b
    rw [Matrix.smul_apply, smul_eq_mul, abs_mul, abs_of_nonneg hdt]
    refine mul_le_mul_of_nonneg_left ?_ hdt
    obtain ⟨st, h1, h2⟩ := interpGrad_le hd hdx hgood.uniform (hgood.inside p hp) (hv p hp) a b
    rw [(hgood.good (deg := deg) hp).g2p] at h1
    rwa [Option.some.inj h1]
  have hdet : 0 < (1 + dt • interpGrad w'.g.size w'.vel (stencilOf deg dx w'.g p.x)).det := by
    refine det_one_add_pos fun a => ?_
    calc _ ≤ ∑ b : Fin (d + 2), dt * (δ / dx) := Finset.sum_le_sum fun b _ => hL a b
      _ = (d + 2) * (dt * δ) / dx := by
        rw [Finset.sum_const, Finset.card_univ, Fintype.card_fin, nsmul_eq_mul]; push_cast; ring
      _ < 1 := by rw [div_lt_one hdx]; exact hδ
  have hrdet : r.F.det = (1 + dt • interpGrad w'.g.size w'.vel (stencilOf deg dx w'.g p.x)).det * p.F.det := by
    rw [hrF, trialF, ← det_mul, add_mul, one_mul, smul_mul_assoc]
  rw [hr]
  by_cases hp0 : p.F.det = 0
  · exact ⟨1, one_pos, fun hne => absurd hp0 hne⟩
  have hr0 : r.F.det ≠ 0 := by rw [hrdet]; exact mul_ne_zero hdet.ne' hp0
  unfold plastTotal
  cases hu : plasticUpdate R dt r with
  | none => exact ⟨_, hdet, fun _ => by simp only [Option.map_none, Option.getD_none]; exact hrdet⟩
  | some u =>
    obtain ⟨out, ho, rfl⟩ := plasticUpdate_some hu
    obtain ⟨c, hc, e⟩ := C83_plastic (hsvd _) hr0 ho
    refine ⟨_, mul_pos hc hdet, fun _ => ?_⟩
    simp only [Option.map_some, Option.getD_some]
    rw [e, hrdet, mul_assoc]

/-- **C83** Particles which are not turned inside out at the start of a run (`det F > 0`) never are, in no particle
file, as long as in every step neighbouring nodes around a particle move alike, up to `δ` with
`(number of dimensions) · dt · δ < dx` (`δ` may be another one in every step). -/
theorem C83_run (hS : R.S.P = mkTransferParams deg dx fr mibf m vol) (hd : deg ≠ .one) (hdx : 0 < dx)
    (hpbc : R.S.pbc = false) (hsched : ∀ k ps, (R.sched k ps).flatten.Perm ps) (hsvd : ∀ F, IsSvd F (R.svd F))
    (hmin : 0 ≤ R.C.minDt)
    (hv : ∀ s1 dt g w, StepOf R s s1 dt g w →
      ∃ δ, (d + 2) * (dt * δ) < dx ∧ ∀ p ∈ s1.w.ps, NodesAlike deg dx w.g w.vel p.x δ)
    (hF : ∀ p ∈ s.w.ps, 0 < p.F.det) {n : ℕ} {t : ℝ} {w : World (d + 2)}
    (hev : .particles n t w ∈ filesOf (runProgram R i e fuel s)) (hnew : .particles n t w ∉ s.out) :
    ∀ p ∈ w.ps, 0 < p.F.det := by
  let Inv : World (d + 2) → ℝ → ℕ → (Fin (d + 2) → ℝ) → Prop := fun w _ _ _ => ∀ p ∈ w.ps, 0 < p.F.det
  have h0 : Inv (begin R s).w 0 s.step s.gravity := by
    show ∀ p ∈ (begin R s).w.ps, 0 < p.F.det
    rw [begin_w]
    unfold fillMuI
    by_cases hmi : R.S.P.useMibf = true
    · rw [if_pos hmi]
      split_ifs
      all_goals
        simp only [List.mem_map]
        rintro _ ⟨p, hp, rfl⟩
        exact hF p hp
    · rw [if_neg hmi]; exact hF
  have hstep : ∀ s1 dt g w, StepOf R s s1 dt g w → Inv s1.w s1.time s1.step s1.gravity →
      Inv w (s1.time + dt) (s1.step + 1) g := by
    intro s1 dt g w hst hi p hp
    obtain ⟨δ, h1, h2⟩ := hv _ _ _ _ hst
    have := C83_step hS hd hdx hpbc (hsched _) hsvd (hmin.trans hst.dt_ge.1) hst.phys h2 h1
    obtain ⟨k, hk, rfl⟩ := List.mem_iff_getElem.mp hp
    have hk' : k < s1.w.ps.length := by rw [this.length_eq]; exact hk
    obtain ⟨c, hc, h3⟩ := (List.forall₂_iff_get.mp this).2 k hk' hk
    have hq := hi _ (List.getElem_mem hk')
    simp only [List.get_eq_getElem] at h3
    rw [h3 hq.ne']
    exact mul_pos hc hq
  rcases run_particles hev hnew with ⟨rfl, rfl, rfl⟩ | ⟨s1, dt, g, hst, rfl⟩
  · exact h0
  · exact (run_inv (Inv := Inv) h0 hstep hst).2

/-- **C83** In particular if in no step a node near a particle moves by the fraction `1 / (2 · number of dimensions)` of
the grid spacing or more along any axis. -/
theorem C83_run_speed (hS : R.S.P = mkTransferParams deg dx fr mibf m vol) (hd : deg ≠ .one) (hdx : 0 < dx)
    (hpbc : R.S.pbc = false) (hsched : ∀ k ps, (R.sched k ps).flatten.Perm ps) (hsvd : ∀ F, IsSvd F (R.svd F))
    (hmin : 0 ≤ R.C.minDt)
    (hv : ∀ s1 dt g w, StepOf R s s1 dt g w →
      ∃ V, 2 * (d + 2) * (dt * V) < dx ∧ ∀ p ∈ s1.w.ps, ∀ j, IsNode w.g j → 0 < shape deg dx (nodeAt w.g j) p.x →
        ∀ a, |w.vel (flatIndex w.g.size j) a| ≤ V)
    (hF : ∀ p ∈ s.w.ps, 0 < p.F.det) {n : ℕ} {t : ℝ} {w : World (d + 2)}
    (hev : .particles n t w ∈ filesOf (runProgram R i e fuel s)) (hnew : .particles n t w ∉ s.out) :
    ∀ p ∈ w.ps, 0 < p.F.det := by
  refine C83_run hS hd hdx hpbc hsched hsvd hmin (fun s1 dt g w hst => ?_) hF hev hnew
  obtain ⟨V, h1, h2⟩ := hv _ _ _ _ hst
  refine ⟨2 * V, by linarith, fun p hp j b hj hj' hs hs' a => ?_⟩
  have e1 := abs_le.mp (h2 p hp _ hj hs a)
  have e2 := abs_le.mp (h2 p hp _ hj' hs' a)
  rw [abs_le]
  constructor <;> linarith [e1.1, e1.2, e2.1, e2.2]

end run
end Verif.Props
