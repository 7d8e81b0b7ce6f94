import Verif.Props.GridFile

set_option linter.unusedSectionVars false
set_option linter.unusedSimpArgs false
set_option linter.unusedVariables false

/-!
# C78: walls in the grid files
-/

namespace Verif.Props
open Verif Matrix

/-- What is needed of the plates: without velocity they stay as they are, and no-slip plates take the relative
velocity away. Holds in 2D and 3D. -/
structure StillOps {d : ℕ} (ops : PlateOps d) : Prop where
  move : ∀ p dt f t, p.velOrig = 0 → p.vel = 0 → ops.move p dt f t = p
  stick : ∀ type fric r, ops.rel type .noSlip fric r = 0

lemma still2 : StillOps plateOps2 where
  move := by
    rintro ⟨pos, type, bc, fr, lo, up, vel, vo, vm, lf⟩ dt f t h1 h2
    simp only at h1 h2
    subst h1 h2
    have : ![(0 : ℝ), 0] = 0 := by ext i; fin_cases i <;> rfl
    cases type <;> simp [plateOps2, Plate.move2, this]
  stick := by
    intro type fric r
    simp [plateOps2, plateRel2]

lemma still3 : StillOps plateOps3 where
  move := by
    rintro ⟨pos, type, bc, fr, lo, up, vel, vo, vm, lf⟩ dt f t h1 h2
    simp only at h1 h2
    subst h1 h2
    have : ![(0 : ℝ), 0, 0] = 0 := by ext i; fin_cases i <;> rfl
    cases type <;> simp [plateOps3, Plate.move3, this]
  stick := by
    intro type fric r
    simp [plateOps3, plateRel3]

open Classical in
lemma noSlip_collision {d : ℕ} {ops : PlateOps d} (ho : StillOps ops) {fr : ℝ → ℝ} {Y : Fin d → ℝ} :
    ∀ (plates : List (Plate d)) (u : Fin d → ℝ), (∀ p ∈ plates, p.bc = .noSlip ∧ p.vel = 0) →
      ((∃ p ∈ plates, ops.inside p Y) ∨ u = 0 → collidePlates ops.inside ops.rel fr Y plates u = 0) ∧
      ((∀ p ∈ plates, ¬ ops.inside p Y) → collidePlates ops.inside ops.rel fr Y plates u = u) := by
  intro plates
  induction plates with
  | nil =>
    intro u _
    refine ⟨?_, fun _ => rfl⟩
    rintro (⟨p, hp, -⟩ | h)
    · cases hp
    · exact h
  | cons p ps ih =>
    intro u h
    obtain ⟨hp1, hp2⟩ := h p List.mem_cons_self
    have := ih (if ops.inside p Y then ops.rel p.type p.bc (fr p.friction) (u - p.vel) + p.vel else u)
      (fun q hq => h q (List.mem_cons_of_mem _ hq))
    simp only [collidePlates, List.foldl_cons] at this ⊢
    constructor
    · intro hc
      apply this.1
      by_cases hi : ops.inside p Y
      · right
        rw [if_pos hi, hp1, ho.stick, hp2, add_zero]
      · rw [if_neg hi]
        rcases hc with ⟨q, hq, hqi⟩ | hc
        · rcases List.mem_cons.mp hq with rfl | hq
          · exact absurd hqi hi
          · exact .inl ⟨q, hq, hqi⟩
        · exact .inr hc
    · intro hc
      have hi := hc p List.mem_cons_self
      rw [if_neg hi] at this ⊢
      exact this.2 fun q hq => hc q (List.mem_cons_of_mem _ hq)

section run
variable {d : ℕ} {R : Setup (d + 2)} {i e : Bool} {fuel : ℕ} {s : LoopState (d + 2) (World (d + 2))}
variable {deg : Deg} {dx fr m vol : ℝ} {mibf : Bool} {n : ℕ} {t : ℝ} {w : World (d + 2)}

/-- Without MUSL the velocity in a row with mass is what the walls make of the velocity `u` which the node would have
without them. -/
lemma row_velocity (hS : R.S.P = mkTransferParams deg dx fr mibf m vol) (hdx : 0 < dx) (hm : 0 < m)
    (hpbc : R.S.pbc = false) (hsched : ∀ k ps, (R.sched k ps).flatten.Perm ps) (hu : R.S.useMusl = false)
    {s1 : LoopState (d + 2) (World (d + 2))} {dt : ℝ} {g : Fin (d + 2) → ℝ} (hst : StepOf R s s1 dt g w)
    {r : (Fin (d + 2) → ℝ) × (Fin (d + 2) → ℝ) × ℝ} (hr : r ∈ gridRows w) (hpos : 0 < r.2.2) :
    ∃ j u, IsNode w.g j ∧ r.1 = nodeAt w.g j ∧ 0 < massAt deg dx m s1.w.ps (nodeAt w.g j) ∧
      massAt deg dx m s1.w.ps (nodeAt w.g j) • u =
        freeMomentum deg dx fr R.S.P.apicDinverse m vol dt g s1.w.ps (nodeAt w.g j) ∧
      r.2.1 = boundaryCollision R.ops R.S.P.useMibf w.friction dt R.objs s1.w.plates (flatIndex w.g.size j)
        (nodeAt w.g j) u := by
  have hP : R.S.P.deg = deg := by rw [hS]; rfl
  have hP1 : R.S.P.oneOverDx = 1 / dx := by rw [hS]; rfl
  have hPdx : R.S.P.dx = dx := by rw [hS]; rfl
  have hgood := physStep_goodGrid hpbc (by rw [hPdx]; exact hdx) (by rw [hS]; rfl) hst.phys
  rw [hPdx] at hgood
  obtain ⟨h1, h2, h3⟩ := physStep_grid (deg := deg) (dx := dx) hpbc hP hP1 (hsched _) hst.phys hgood
  rw [gridRows_eq] at hr
  obtain ⟨j, hj, rfl⟩ := List.mem_map.mp hr
  have hj' : IsNode w.g j := mem_allNodes.mp hj
  obtain ⟨n1, n2⟩ := node_values (dt := dt) (grav := g) hS hm hgood hj'
  have hmass : 0 < (p2gFinish R.S.P (raw R.S.P deg dx w.g s1.w.ps) (flatIndex w.g.size j)).mass := by
    rw [← h1]; exact hpos
  refine ⟨j, _, hj', rfl, n1 ▸ hmass, n2, ?_⟩
  have hat := (eulerUpdate_at R.S.P dt g (stepWalls R dt s1.w w) w.g
    (p2gFinish R.S.P (raw R.S.P deg dx w.g s1.w.ps)) hj').1
  rw [if_pos hmass] at hat
  simp only [h2, gradVel, hu, Bool.false_eq_true, if_false]
  exact hat

/-- **C78** Without MUSL no node behind a fixed plate moves further back in a grid file: in every row with mass and
with a position behind the surface of `q` the velocity along the normal `b` does not point into the plate. All
boundary conditions; hypotheses as in `C70_run`. -/
theorem C78_usl (hS : R.S.P = mkTransferParams deg dx fr false m vol) (hdx : 0 < dx)
    (hm : 0 < m) (hpbc : R.S.pbc = false) (hu : R.S.useMusl = false) (hops : HoldOps R.ops)
    (hsched : ∀ k ps, (R.sched k ps).flatten.Perm ps) (hmin : 0 < R.C.minDt)
    {b : Fin (d + 2)} {q : Plate (d + 2)} (hq : q ∈ s.w.plates) (hn : normalAxis q.type = b)
    (hv : q.velOrig = 0) (hobj : ∀ o ∈ R.objs, StillObject b o) (hpl : ∀ p ∈ s.w.plates, StillPlate b p)
    (hcov : ∀ s1 dt g w, StepOf R s s1 dt g w → ∀ j, IsNode w.g j → ∀ u, 0 < massAt deg dx m s1.w.ps (nodeAt w.g j) →
      massAt deg dx m s1.w.ps (nodeAt w.g j) • u =
        freeMomentum deg dx fr R.S.P.apicDinverse m vol dt g s1.w.ps (nodeAt w.g j) →
      Covers q (nodeAt w.g j + dt • u))
    (hev : .grid n t w ∈ filesOf (runProgram R i e fuel s)) (hnew : .grid n t w ∉ s.out) :
    ∀ r ∈ gridRows w, 0 < r.2.2 → openSide q.type * r.1 b ≤ openSide q.type * q.pos →
      0 ≤ openSide q.type * r.2.1 b := by
  have hmib : R.S.P.useMibf = false := by rw [hS]; rfl
  have hb : (begin R s).w = s.w := by
    rw [begin_w, fillMuI, hmib]; simp
  let Inv : World (d + 2) → ℝ → ℕ → (Fin (d + 2) → ℝ) → Prop := fun w _ _ _ =>
    (∀ p ∈ w.plates, StillPlate b p) ∧
    ∃ q' ∈ w.plates, q'.type = q.type ∧ q'.pos = q.pos ∧ q'.lower = q.lower ∧ q'.upper = q.upper ∧ q'.velOrig = 0
  have hi0 : Inv (begin R s).w 0 s.step s.gravity := by
    refine ⟨?_, q, ?_, rfl, rfl, rfl, rfl, hv⟩ <;> rw [hb] <;> assumption
  have hstep : ∀ s1 dt g w, StepOf R s s1 dt g w → Inv s1.w s1.time s1.step s1.gravity →
      Inv w (s1.time + dt) (s1.step + 1) g := by
    rintro s1 dt g w hst ⟨i2, q', hq', t1, t2, t3, t4, t5⟩
    have hplates := physStep_plates hst.phys
    refine ⟨?_, ?_⟩
    · intro p hp
      rw [hplates, List.mem_map] at hp
      obtain ⟨p, hp, rfl⟩ := hp
      obtain ⟨a1, a2, a3⟩ := i2 p hp
      obtain ⟨b1, b2, b3, b4, b5, -⟩ := hops.move p dt R.C.frameDt s1.time
      exact ⟨by rw [b3]; exact a1, b5 b a3, by rw [b4]; exact a3⟩
    · refine ⟨R.ops.move q' dt R.C.frameDt s1.time, by rw [hplates]; exact List.mem_map_of_mem hq', ?_⟩
      obtain ⟨b1, b2, b3, b4, b5, b6⟩ := hops.move q' dt R.C.frameDt s1.time
      obtain ⟨c1, c2, c3⟩ := b6 t5
      exact ⟨by rw [b1, t1], by rw [c1, t2], by rw [c2, t3], by rw [c3, t4], by rw [b4, t5]⟩
  obtain ⟨s1, dt, g, hst, rfl⟩ := run_grid hev hnew
  obtain ⟨i2, q', hq', t1, t2, t3, t4, t5⟩ := (run_inv (Inv := Inv) hi0 hstep hst).1
  have hdt : 0 < dt := hmin.trans_le hst.dt_ge.1
  intro r hr hpos hbehind
  obtain ⟨j, u, hj, hX, h1, h2, h3⟩ := row_velocity hS hdx hm hpbc hsched hu hst hr hpos
  have hc := hcov s1 dt g w hst j hj u h1 h2
  have hc' : Covers q' (nodeAt w.g j + dt • u) := by
    unfold Covers at hc ⊢
    rw [t1, t3, t4]
    exact hc
  have := C70_node (gf := w.friction) hops hdt.le hobj i2 hq' (by rw [t1]; exact hn) (flatIndex w.g.size j) hc'
  rw [hmib] at h3
  rw [t1, t2, ← h3, ← hX, min_eq_left hbehind, mul_add, mul_left_comm] at this
  exact nonneg_of_mul_nonneg_right (by linarith) hdt

/-- **C78** Only fixed no-slip plates, without MUSL: every row with mass is at rest, or its node does not reach any of
the plates in the step. -/
theorem C78_noslip (hS : R.S.P = mkTransferParams deg dx fr mibf m vol) (hdx : 0 < dx)
    (hm : 0 < m) (hpbc : R.S.pbc = false) (hu : R.S.useMusl = false) (hops : StillOps R.ops)
    (hsched : ∀ k ps, (R.sched k ps).flatten.Perm ps) (hobj : R.objs = [])
    (hpl : ∀ p ∈ s.w.plates, p.bc = .noSlip ∧ p.velOrig = 0 ∧ p.vel = 0)
    (hev : .grid n t w ∈ filesOf (runProgram R i e fuel s)) (hnew : .grid n t w ∉ s.out) :
    ∃ s1 dt g, StepOf R s s1 dt g w ∧ t = s1.time + dt ∧
      ∀ r ∈ gridRows w, 0 < r.2.2 → r.2.1 = 0 ∨ ∀ q ∈ s.w.plates, ¬ R.ops.inside q (r.1 + dt • r.2.1) := by
  have hb : (begin R s).w.plates = s.w.plates := by
    rw [begin_w, fillMuI]; split_ifs <;> rfl
  let Inv : World (d + 2) → ℝ → ℕ → (Fin (d + 2) → ℝ) → Prop := fun w _ _ _ => w.plates = s.w.plates
  have hstep : ∀ s1 dt g w, StepOf R s s1 dt g w → Inv s1.w s1.time s1.step s1.gravity →
      Inv w (s1.time + dt) (s1.step + 1) g := by
    intro s1 dt g w hst hinv
    have hplates := physStep_plates hst.phys
    show w.plates = s.w.plates
    rw [hplates, show s1.w.plates = s.w.plates from hinv]
    conv_rhs => rw [← List.map_id s.w.plates]
    refine List.map_congr_left fun p hp => ?_
    exact hops.move p _ _ _ (hpl p hp).2.1 (hpl p hp).2.2
  obtain ⟨s1, dt, g, hst, rfl⟩ := run_grid hev hnew
  have hinv : s1.w.plates = s.w.plates := (run_inv (Inv := Inv) hb hstep hst).1
  refine ⟨s1, dt, g, hst, rfl, fun r hr hpos => ?_⟩
  obtain ⟨j, u, hj, hX, h1, h2, h3⟩ := row_velocity hS hdx hm hpbc hsched hu hst hr hpos
  simp only [boundaryCollision, hobj, hinv, collideObjects, List.foldl_nil] at h3
  obtain ⟨a1, a2⟩ := noSlip_collision hops (fr := wallFriction R.S.P.useMibf w.friction (flatIndex w.g.size j))
    (Y := nodeAt w.g j + dt • u) s.w.plates u (fun p hp => ⟨(hpl p hp).1, (hpl p hp).2.2⟩)
  by_cases hc : ∃ p ∈ s.w.plates, R.ops.inside p (nodeAt w.g j + dt • u)
  · left
    rw [h3]
    exact a1 (.inl hc)
  · right
    have hne : ∀ p ∈ s.w.plates, ¬ R.ops.inside p (nodeAt w.g j + dt • u) := fun p hp hi => hc ⟨p, hp, hi⟩
    have hv : r.2.1 = u := h3.trans (a2 hne)
    rw [hv, hX]
    exact hne

/-- **C78** With MUSL the velocities in the grid files are not those the walls acted on: in every row they are averages of
the velocities of the particles in the particle file of the frame, weighted with the positions before the step. -/
theorem C78_musl (hS : R.S.P = mkTransferParams deg dx fr mibf m vol) (hdx : 0 < dx) (hm : 0 < m)
    (hpbc : R.S.pbc = false) (hsched : ∀ k ps, (R.sched k ps).flatten.Perm ps) (hu : R.S.useMusl = true)
    (hev : .grid n t w ∈ filesOf (runProgram R i e fuel s)) (hnew : .grid n t w ∉ s.out) :
    ∃ s1 dt g, StepOf R s s1 dt g w ∧ t = s1.time + dt ∧ s1.w.ps.length = w.ps.length ∧
      ∀ r ∈ gridRows w, r.2.2 • r.2.1 = m • (((s1.w.ps.zip w.ps).filter fun pq =>
        1 / 10 ^ 25 < shape deg dx r.1 pq.1.x).map fun pq => shape deg dx r.1 pq.1.x • (pq.2.v +
          if fr < 0 then R.S.P.apicDinverse • (pq.2.Bmat *ᵥ (r.1 - pq.1.x)) else 0)).sum := by
  have hP : R.S.P.deg = deg := by rw [hS]; rfl
  have hP1 : R.S.P.oneOverDx = 1 / dx := by rw [hS]; rfl
  have hPdx : R.S.P.dx = dx := by rw [hS]; rfl
  have hPm : R.S.P.particleMass = m := by rw [hS]; rfl
  obtain ⟨s1, dt, g, hst, rfl⟩ := run_grid hev hnew
  have hgood := physStep_goodGrid hpbc (by rw [hPdx]; exact hdx) (by rw [hS]; rfl) hst.phys
  rw [hPdx] at hgood
  obtain ⟨h1, h2, h3⟩ := physStep_grid (deg := deg) (dx := dx) hpbc hP hP1 (hsched _) hst.phys hgood
  obtain ⟨F, hF, hF2⟩ := stepOnGrid_eq (S := R.S) (dt := dt) (grav := g) (bc := stepWalls R dt s1.w w) hP hP1 hgood
    (hsched s1.step _) (plastTotal_keeps R dt)
  have hps : w.ps = s1.w.ps.map F := Option.some.inj (h3.symm.trans hF)
  refine ⟨s1, dt, g, hst, rfl, by rw [hps, List.length_map], ?_⟩
  intro r hr
  rw [gridRows_eq] at hr
  obtain ⟨j, hj, rfl⟩ := List.mem_map.mp hr
  have hj' : IsNode w.g j := mem_allNodes.mp hj
  let up : Particle (d + 2) ℝ → Particle (d + 2) ℝ := fun p =>
    let q := g2pTransfer R.S.P w.g.size (stepEuler R.S deg dx dt g (stepWalls R dt s1.w w) w.g s1.w.ps) p
      (stencilOf deg dx w.g p.x)
    { q with v := blendVelocity R.S.P q }
  have hup : ∀ p ∈ s1.w.ps, (up p).x = p.x := fun p _ => rfl
  have hgv : gradVel R.S deg dx dt g (stepWalls R dt s1.w w) w.g s1.w.ps = muslFinish R.S.P
      (fun l => (p2gFinish R.S.P (raw R.S.P deg dx w.g s1.w.ps) l).mass)
      (fun l => (raw R.S.P deg dx w.g (s1.w.ps.map up) l).v) := by
    simp only [gradVel, if_pos hu]; rfl
  simp only
  rw [h1, h2, hgv, musl_momentum (P := R.S.P) (hPm ▸ hm) hup, hPm]
  congr 1
  have hzip : s1.w.ps.zip (s1.w.ps.map F) = s1.w.ps.map fun p => (p, F p) := by
    rw [List.zip_map_right, List.zip_eq_zipWith, List.zipWith_self, List.map_map]; rfl
  rw [show (raw R.S.P deg dx w.g (s1.w.ps.map up) (flatIndex w.g.size j)).v = Cell.vHom _ from rfl,
    raw_node (hgood.map hup) hj', map_list_sum, List.map_map, List.map_map, hps, hzip]
  have key : ∀ L : List (Particle (d + 2) ℝ), (∀ p ∈ L, p ∈ s1.w.ps) →
      (L.map ((⇑Cell.vHom ∘ fun p => if shape deg dx (nodeAt w.g j) p.x > cutoff then
        nodeContribution deg dx R.S.P p (nodeAt w.g j) else 0) ∘ up)).sum =
      (((L.map fun p => (p, F p)).filter fun pq => decide (1 / 10 ^ 25 < shape deg dx (nodeAt w.g j) pq.1.x)).map
        fun pq => shape deg dx (nodeAt w.g j) pq.1.x • (pq.2.v +
          if fr < 0 then R.S.P.apicDinverse • (pq.2.Bmat *ᵥ (nodeAt w.g j - pq.1.x)) else 0)).sum := by
    intro L
    induction L with
    | nil => intro _; rfl
    | cons p L ih =>
      intro hL
      have hp := hL p List.mem_cons_self
      obtain ⟨f1, -, f3, -⟩ := hF2 p hp
      rw [List.map_cons, List.sum_cons, ih fun q hq => hL q (List.mem_cons_of_mem _ hq), List.map_cons,
        List.filter_cons]
      by_cases hq : 1 / 10 ^ 25 < shape deg dx (nodeAt w.g j) p.x
      · have hq' : shape deg dx (nodeAt w.g j) (up p).x > cutoff := hq
        simp only [Function.comp, hq, hq', if_true, decide_true, List.map_cons, List.sum_cons]
        congr 1
        rw [f1, f3]
        have hfr : R.S.P.flipRatio = fr := by rw [hS]; rfl
        show shape deg dx (nodeAt w.g j) p.x • (up p).v + (if R.S.P.flipRatio < 0 then
          (R.S.P.apicDinverse * shape deg dx (nodeAt w.g j) p.x) • ((up p).Bmat *ᵥ (nodeAt w.g j - p.x)) else 0) = _
        rw [hfr]
        split_ifs
        · rw [smul_add, smul_smul, mul_comm R.S.P.apicDinverse]
        · simp [up]
      · have hq' : ¬ shape deg dx (nodeAt w.g j) (up p).x > cutoff := hq
        simp only [Function.comp, hq, hq', if_false, decide_false, map_zero, zero_add, Bool.false_eq_true]
  exact key _ fun p hp => hp

end run
end Verif.Props
