import Verif.Props.Energy
import Verif.Lemmas.GridFile

set_option linter.unusedSectionVars false
set_option linter.unusedSimpArgs false
set_option linter.unusedVariables false

/-!
# C86: the energy balance of a run between resting walls
-/

namespace Verif.Props
open Verif Matrix
noncomputable section
variable {d : ℕ}

/-! ### resting walls only take energy -/

lemma Shrinks.work {r r' : Fin d → ℝ} (h : Shrinks r r') : (r' - r) ⬝ᵥ r' ≤ 0 := by
  refine Finset.sum_nonpos fun a _ => ?_
  obtain ⟨c, h0, h1, e⟩ := h a
  rw [Pi.sub_apply, e]
  have : (c * r a - r a) * (c * r a) = -((1 - c) * c * (r a * r a)) := by ring
  rw [this]
  have := mul_nonneg (mul_nonneg (sub_nonneg.mpr h1) h0) (mul_self_nonneg (r a))
  linarith

lemma coulomb_factor {μ x : ℝ} (hμ : 0 ≤ μ) (t : Fin d → ℝ) : ∃ c : ℝ, 0 ≤ c ∧ c ≤ 1 ∧ coulomb μ x t = c • t := by
  unfold coulomb
  split_ifs with h
  · exact ⟨0, le_rfl, zero_le_one, by simp⟩
  · have hf : 0 ≤ μ * |x| := mul_nonneg hμ (abs_nonneg _)
    have hlt := not_le.mp h
    have hp := lt_of_le_of_lt hf hlt
    refine ⟨1 - μ * |x| / vnorm t, ?_, ?_, rfl⟩
    · rw [sub_nonneg, div_le_one hp]; exact hlt.le
    · linarith [div_nonneg hf hp.le]

lemma objectRel_work {bc : BC} {μ : ℝ} (hμ : 0 ≤ μ) {n : Fin d → ℝ} (hn : n ⬝ᵥ n = 1) (v : Fin d → ℝ) :
    (objectRel bc μ n v - v) ⬝ᵥ objectRel bc μ n v ≤ 0 := by
  rw [objectRel_eq hμ]
  set ν : ℝ := if v ⬝ᵥ n < 0 then μ else 0
  have hν : 0 ≤ ν := by simp only [ν]; split_ifs <;> simp [hμ]
  have key : ∀ x, (coulomb ν x (v - (v ⬝ᵥ n) • n) - v) ⬝ᵥ coulomb ν x (v - (v ⬝ᵥ n) • n) ≤ 0 := by
    intro x
    obtain ⟨c, h0, h1, e⟩ := coulomb_factor (x := x) hν (v - (v ⬝ᵥ n) • n)
    set t := v - (v ⬝ᵥ n) • n with ht
    have hvt : v ⬝ᵥ t = t ⬝ᵥ t := by
      have : t ⬝ᵥ n = 0 := tangential_dot hn v
      have h2 : v = t + (v ⬝ᵥ n) • n := by rw [ht]; abel
      conv_lhs => rw [h2]
      rw [add_dotProduct, smul_dotProduct, dotProduct_comm n t, this]; simp
    rw [e, sub_dotProduct, dotProduct_smul, smul_dotProduct, dotProduct_smul, hvt]
    simp only [smul_eq_mul]
    have : 0 ≤ t ⬝ᵥ t := Finset.sum_nonneg fun a _ => mul_self_nonneg _
    nlinarith [mul_nonneg (mul_nonneg h0 (sub_nonneg.mpr h1)) this]
  cases bc
  · simp [wallLaw]
  · exact key _
  · simp only [wallLaw]
    split_ifs
    · exact key _
    · simp

/-- Plates that brake: with a friction coefficient that is not negative, every component of the relative velocity is
multiplied by a factor between 0 and 1; a plate that was not given a velocity stays at rest. -/
structure BrakeOps {d : ℕ} (ops : PlateOps d) : Prop where
  shrinks : ∀ t bc μ r, 0 ≤ μ → Shrinks r (ops.rel t bc μ r)
  rests : ∀ p dt f t, p.velOrig = 0 → (ops.move p dt f t).vel = 0 ∧ (ops.move p dt f t).velOrig = 0 ∧
    (ops.move p dt f t).friction = p.friction

lemma brake2 : BrakeOps plateOps2 where
  shrinks _ _ _ _ h := plateRel2_shrinks h _
  rests p dt f t h := by
    have e : ![p.velOrig 0 * p.factor f t, p.velOrig 1 * p.factor f t] = 0 := by
      funext a; fin_cases a <;> simp [h]
    simp only [plateOps2, Plate.move2, e]
    cases p.type <;> exact ⟨rfl, h, rfl⟩

lemma brake3 : BrakeOps plateOps3 where
  shrinks _ _ _ _ h := plateRel3_shrinks h _
  rests p dt f t h := by
    have e : ![p.velOrig 0 * p.factor f t, p.velOrig 1 * p.factor f t, p.velOrig 2 * p.factor f t] = 0 := by
      funext a; fin_cases a <;> simp [h]
    simp only [plateOps3, Plate.move3, e]
    cases p.type <;> exact ⟨rfl, h, rfl⟩

/-- A plate that does not move, with a friction coefficient that is not negative. -/
def PlateRests (p : Plate d) : Prop := p.vel = 0 ∧ p.velOrig = 0 ∧ 0 ≤ p.friction

/-- Nothing but resting plates, or nothing but one terrain object with unit normals; friction is not negative. -/
def StillWalls (objs : List (GenObject d)) (plates : List (Plate d)) : Prop :=
  (objs = [] ∧ ∀ p ∈ plates, PlateRests p) ∨
  plates = [] ∧ ∃ o, objs = [o] ∧ 0 ≤ o.friction ∧ ∀ X, o.inside X → o.normal X ⬝ᵥ o.normal X = 1

lemma wall_work {ops : PlateOps d} (hops : BrakeOps ops) {objs : List (GenObject d)} {plates : List (Plate d)}
    (h : StillWalls objs plates) (gf : ℕ → ℝ) (dt : ℝ) (l : ℕ) (X v : Fin d → ℝ) :
    (boundaryCollision ops false gf dt objs plates l X v - v) ⬝ᵥ boundaryCollision ops false gf dt objs plates l X v ≤ 0 := by
  have hf : ∀ x, wallFriction false gf l x = x := fun x => by simp [wallFriction]
  unfold boundaryCollision
  rcases h with ⟨rfl, h⟩ | ⟨rfl, o, rfl, h1, h2⟩
  · have := collidePlates_shrinks (inside := ops.inside) (rel := ops.rel) (fr := wallFriction false gf l)
      (X := X + dt • v) (V := 0) (L := plates) (fun p hp _ r => hops.shrinks _ _ _ _ (by rw [hf]; exact (h p hp).2.2))
      (fun p hp _ => (h p hp).1) v
    rw [sub_zero, sub_zero] at this
    exact this.work
  · have e : ∀ w, collidePlates ops.inside ops.rel (wallFriction false gf l) (X + dt • v) [] w = w := fun _ => rfl
    simp only [e]
    by_cases ho : o.inside (X + dt • v)
    · rw [collideObjects_cons o [] ho, hf]
      exact objectRel_work h1 (h2 _ ho) v
    · rw [collideObjects_none (fun q hq => by rw [List.mem_singleton.mp hq]; exact ho)]
      simp

/-! ### runs -/

variable {R : Setup (d + 2)} {s : LoopState (d + 2) (World (d + 2))} {i e : Bool} {fuel : ℕ}

/-- A step of a run: the state before and after it, its length and its gravity. -/
structure StepRecord (d : ℕ) where
  before : World d
  after : World d
  dt : ℝ
  grav : Fin d → ℝ

/-- `Steps R s hist w`: in a run on the state `s` the steps `hist`, in this order, lead to `w`. -/
inductive Steps (R : Setup (d + 2)) (s : LoopState (d + 2) (World (d + 2))) :
    List (StepRecord (d + 2)) → World (d + 2) → Prop
  | nil : Steps R s [] (begin R s).w
  | snoc {hist s1 dt g w} : Steps R s hist s1.w → StepOf R s s1 dt g w → Steps R s (hist ++ [⟨s1.w, w, dt, g⟩]) w

/-- The work of the stresses in a step: the stress of each particle before the step times its volume `vol`, on the
gradient of the grid velocity the step leaves, for the time `dt`. -/
def stressWork (deg : Deg) (dx vol : ℝ) (r : StepRecord (d + 2)) : ℝ :=
  r.dt * vol * (r.before.ps.map fun p => ddot p.tau
    (∑ i ∈ gridIndices r.after.g, vecMulVec (r.after.vel (flatIndex r.after.g.size i))
      (shapeGrad deg dx (nodeAt r.after.g i) p.x))).sum

/-- The work of gravity on particles of mass `m` in a step. -/
def gravityWork (m : ℝ) (r : StepRecord (d + 2)) : ℝ :=
  r.grav ⬝ᵥ (firstMoment m r.after.ps - firstMoment m r.before.ps)

lemma gravity_sum {m : ℝ} {grav : Fin (d + 2) → ℝ} {ps : List (Particle (d + 2) ℝ)}
    (F : Particle (d + 2) ℝ → Particle (d + 2) ℝ) :
    (ps.map fun p => m * (grav ⬝ᵥ ((F p).x - p.x))).sum = grav ⬝ᵥ (firstMoment m (ps.map F) - firstMoment m ps) := by
  induction ps with
  | nil => simp [firstMoment]
  | cons p ps ih =>
    simp only [firstMoment, List.map_cons, List.sum_cons] at ih ⊢
    rw [ih]
    simp only [dotProduct_sub, dotProduct_add, dotProduct_smul, smul_eq_mul]
    ring

lemma walls_stay (hops : BrakeOps R.ops) (hw : StillWalls R.objs s.w.plates)
    {s1 : LoopState (d + 2) (World (d + 2))} {dt : ℝ} {g : Fin (d + 2) → ℝ} {w : World (d + 2)}
    (hst : StepOf R s s1 dt g w) : StillWalls R.objs s1.w.plates := by
  rcases hw with ⟨h1, h2⟩ | ⟨h1, h2⟩
  · refine .inl ⟨h1, run_plates (Q := PlateRests) ?_ h2 hst⟩
    rintro p dt t ⟨-, b, c⟩
    obtain ⟨e1, e2, e3⟩ := hops.rests p dt R.C.frameDt t b
    exact ⟨e1, e2, by rw [e3]; exact c⟩
  · refine .inr ⟨?_, h2⟩
    exact List.eq_nil_iff_forall_not_mem.mpr (run_plates (Q := fun _ => False) (fun _ _ _ h => h) (by simp [h1]) hst)

/-- **C86** One step of a run between resting walls: the kinetic energy grows by no more than the work of gravity and
of the stresses. `v` is the velocity of the grid that moves the particles; without MUSL it is the one saved with the
grid. -/
theorem C86_run_step {deg : Deg} {dx fr m vol : ℝ}
    (hS : R.S.P = mkTransferParams deg dx fr false m vol) (hd : deg ≠ .one) (hdx : 0 < dx) (hm : 0 < m)
    (hfr : fr < -1 ∨ 0 ≤ fr ∧ fr ≤ 1) (hpbc : R.S.pbc = false) (hcp : R.S.changePos = false)
    (hsched : ∀ k ps, (R.sched k ps).flatten.Perm ps) (hops : BrakeOps R.ops) (hw : StillWalls R.objs s.w.plates)
    {s1 : LoopState (d + 2) (World (d + 2))} {dt : ℝ} {g : Fin (d + 2) → ℝ} {w : World (d + 2)}
    (hst : StepOf R s s1 dt g w) (hn : NoTinyWeights deg dx w.g s1.w.ps) :
    ∃ v : (Fin (d + 2) → ℕ) → Fin (d + 2) → ℝ,
      (R.S.useMusl = false → ∀ i, v i = w.vel (flatIndex w.g.size i)) ∧
      List.Forall₂ (fun p q : Particle (d + 2) ℝ => q.x = p.x + dt •
        ∑ i ∈ gridIndices w.g, shape deg dx (nodeAt w.g i) p.x • v i) s1.w.ps w.ps ∧
      motionEnergy m (affineFactor deg dx fr) w.ps ≤ motionEnergy m (affineFactor deg dx fr) s1.w.ps +
        g ⬝ᵥ (firstMoment m w.ps - firstMoment m s1.w.ps) -
        dt * vol * (s1.w.ps.map fun p => ddot p.tau
          (∑ i ∈ gridIndices w.g, vecMulVec (v i) (shapeGrad deg dx (nodeAt w.g i) p.x))).sum := by
  have hP : R.S.P.deg = deg := by rw [hS]; rfl
  have hP1 : R.S.P.oneOverDx = 1 / dx := by rw [hS]; rfl
  have hPd : R.S.P.dx = dx := by rw [hS]; rfl
  have hgood : GoodGrid dx w.g s1.w.ps := by
    have := physStep_goodGrid (R := R) hpbc (by rw [hPd]; exact hdx) (by rw [hP1, hPd]) hst.phys
    rwa [hPd] at this
  obtain ⟨-, hvel, hstep⟩ := physStep_grid hpbc hP hP1 (hsched _) hst.phys hgood
  obtain ⟨F, hF, -, hwall, hx, -, hE⟩ := energy_step (dt := dt) (grav := g) (bc := stepWalls R dt s1.w w)
    (plast := plastTotal R dt) (threads := R.sched s1.step s1.w.ps) hS hd hm hfr hpbc hcp hgood hn (hsched _ _)
    (plastTotal_keeps _ dt)
  have hps : w.ps = s1.w.ps.map F := Option.some.inj (hstep.symm.trans hF)
  refine ⟨fun i => (stepEuler R.S deg dx dt g (stepWalls R dt s1.w w) w.g s1.w.ps).v (flatIndex w.g.size i),
    ?_, ?_, ?_⟩
  · intro hu i
    rw [hvel]
    simp [gradVel, hu]
  · rw [hps]
    exact forall₂_map fun p hp => hx p hp
  · rw [hps, ← gravity_sum]
    refine hE.trans ?_
    have : ∑ i ∈ gridIndices w.g, massAt deg dx m s1.w.ps (nodeAt w.g i) *
        (((stepEuler R.S deg dx dt g (stepWalls R dt s1.w w) w.g s1.w.ps).v (flatIndex w.g.size i) -
          beforeWalls R.S deg dx dt g w.g s1.w.ps (flatIndex w.g.size i)) ⬝ᵥ
            (stepEuler R.S deg dx dt g (stepWalls R dt s1.w w) w.g s1.w.ps).v (flatIndex w.g.size i)) ≤ 0 := by
      refine Finset.sum_nonpos fun i hi => ?_
      have hW : 0 ≤ massAt deg dx m s1.w.ps (nodeAt w.g i) := by
        refine mul_nonneg hm.le (List.sum_nonneg ?_)
        simp only [List.mem_map, List.mem_filter]
        rintro _ ⟨p, ⟨-, hp⟩, rfl⟩
        exact le_trans (by positivity) (of_decide_eq_true hp).le
      rcases hW.eq_or_lt with h0 | h0
      · rw [← h0, zero_mul]
      · have hw' := hwall i (mem_gridIndices.mp hi) h0
        simp only at hw'
        rw [hw']
        refine mul_nonpos_of_nonneg_of_nonpos hW ?_
        have hmi : R.S.P.useMibf = false := by rw [hS]; rfl
        simp only [stepWalls, hmi]
        exact wall_work hops (walls_stay hops hw hst) _ _ _ _ _
    linarith

lemma run_steps {n : ℕ} {t : ℝ} {w : World (d + 2)}
    (hev : .particles n t w ∈ filesOf (runProgram R i e fuel s)) (hnew : .particles n t w ∉ s.out) :
    ∃ hist, Steps R s hist w ∧ t = (hist.map fun r => r.dt).sum := by
  rcases run_particles hev hnew with ⟨-, rfl, rfl⟩ | ⟨s1, dt, g, hst, rfl⟩
  · exact ⟨[], .nil, rfl⟩
  · refine (run_inv (Inv := fun w t _ _ => ∃ hist, Steps R s hist w ∧ t = (hist.map fun r => r.dt).sum)
      ⟨[], .nil, rfl⟩ ?_ hst).2
    rintro s1 dt g w hst ⟨hist, h1, h2⟩
    exact ⟨_, h1.snoc hst, by simp [h2]⟩

lemma motionEnergy_begin (m κ : ℝ) : motionEnergy m κ (begin R s).w.ps = motionEnergy m κ s.w.ps := by
  rw [begin_w]
  unfold fillMuI
  split_ifs <;> simp [motionEnergy, Function.comp_def]

lemma firstMoment_begin (m : ℝ) : firstMoment m (begin R s).w.ps = firstMoment m s.w.ps := by
  rw [begin_w]
  unfold fillMuI
  split_ifs <;> simp [firstMoment, Function.comp_def]

/-- **C86** The energy in the files of a run without MUSL between resting walls: the kinetic energy is at most the
initial one plus the work gravity and stresses have done in the steps before. If gravity is not ramped, the work of
gravity is that on the displacement of the centre of mass. -/
theorem C86_run {deg : Deg} {dx fr m vol : ℝ}
    (hS : R.S.P = mkTransferParams deg dx fr false m vol) (hd : deg ≠ .one) (hdx : 0 < dx) (hm : 0 < m)
    (hfr : fr < -1 ∨ 0 ≤ fr ∧ fr ≤ 1) (hpbc : R.S.pbc = false) (hcp : R.S.changePos = false)
    (hmusl : R.S.useMusl = false)
    (hsched : ∀ k ps, (R.sched k ps).flatten.Perm ps) (hops : BrakeOps R.ops) (hw : StillWalls R.objs s.w.plates)
    (hn : ∀ s1 dt g w, StepOf R s s1 dt g w → NoTinyWeights deg dx w.g s1.w.ps)
    {n : ℕ} {t : ℝ} {w : World (d + 2)}
    (hev : .particles n t w ∈ filesOf (runProgram R i e fuel s)) (hnew : .particles n t w ∉ s.out) :
    ∃ hist, Steps R s hist w ∧ t = (hist.map fun r => r.dt).sum ∧
      motionEnergy m (affineFactor deg dx fr) w.ps ≤ motionEnergy m (affineFactor deg dx fr) s.w.ps +
        (hist.map fun r => gravityWork m r - stressWork deg dx vol r).sum ∧
      (R.C.gravitySpecial = false → motionEnergy m (affineFactor deg dx fr) w.ps ≤
        motionEnergy m (affineFactor deg dx fr) s.w.ps + s.gravity ⬝ᵥ (firstMoment m w.ps - firstMoment m s.w.ps) -
          (hist.map (stressWork deg dx vol)).sum) := by
  obtain ⟨hist, h1, h2⟩ := run_steps hev hnew
  refine ⟨hist, h1, h2, ?_⟩
  have hgrav : R.C.gravitySpecial = false → ∀ {s1 dt g w}, StepOf R s s1 dt g w → g = s.gravity := by
    intro hg s1 dt g w hst
    refine (run_inv (Inv := fun _ _ _ g => g = s.gravity) rfl ?_ hst).2
    intro s1 dt g w hst h
    rw [hst.dt_ge.2, rampGravity, hg, if_neg (by simp), h]
  clear h2 hev hnew
  induction h1 with
  | nil =>
    rw [motionEnergy_begin, firstMoment_begin]
    simp
  | @snoc hist s1 dt g w hh hst ih =>
    obtain ⟨v, c1, -, c3⟩ := C86_run_step hS hd hdx hm hfr hpbc hcp hsched hops hw hst (hn _ _ _ _ hst)
    simp only [c1 hmusl] at c3
    have c4 : motionEnergy m (affineFactor deg dx fr) w.ps ≤ motionEnergy m (affineFactor deg dx fr) s1.w.ps +
        gravityWork m ⟨s1.w, w, dt, g⟩ - stressWork deg dx vol ⟨s1.w, w, dt, g⟩ := c3
    simp only [List.map_append, List.map_cons, List.map_nil, List.sum_append, List.sum_cons, List.sum_nil, add_zero]
    refine ⟨by linarith [ih.1], fun hg => ?_⟩
    have h3 := ih.2 hg
    have h4 : gravityWork m ⟨s1.w, w, dt, g⟩ = s.gravity ⬝ᵥ (firstMoment m w.ps - firstMoment m s1.w.ps) := by
      simp only [gravityWork, hgrav hg hst]
    rw [h4] at c4
    simp only [dotProduct_sub] at c4 h3 ⊢
    linarith

end
end Verif.Props
