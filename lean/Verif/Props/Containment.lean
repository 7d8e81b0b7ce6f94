import Verif.Props.Walls
import Verif.Props.WallMomentum
import Verif.Props.FreeFall
import Verif.Lemmas.Barrier

set_option linter.unusedSectionVars false
set_option linter.unusedSimpArgs false
set_option linter.unusedVariables false

/-!
# C70: walls hold the material back
-/

namespace Verif.Props
open Verif Matrix

section step
variable {K : Type*} [Field K] [LinearOrder K] [IsStrictOrderedRing K] [FloorRing K] {d : ℕ}
variable {deg : Deg} {dx fr m vol : K} {mibf : Bool} {g : Axes (d + 2) K} {S : StepParams (d + 2) K}
  {ps : List (Particle (d + 2) K)} {dt : K} {grav : Fin (d + 2) → K}
  {bc : ℕ → (Fin (d + 2) → K) → (Fin (d + 2) → K) → (Fin (d + 2) → K)}
  {plast : Particle (d + 2) K → Particle (d + 2) K} {threads : List (List (Particle (d + 2) K))}

/-- **C70** One step. Let `z` be the coordinate of a row of nodes of axis `b` (possibly outside of the grid), and let
the boundary treatment `bc` never move a node both further back than it was and behind the row (`σ = 1`: below,
`σ = -1`: above). Then particles that were at most `leak` cells behind the row stay so, where `leak` is `0` for linear,
`1/2` for quadratic and `1` for cubic splines. For every `flip_ratio`, all stresses and every constitutive update, with
or without MUSL; `u` is the velocity the node would have without walls. -/
theorem C70_step (hS : S.P = mkTransferParams deg dx fr mibf m vol) (hm : 0 < m) (hpbc : S.pbc = false)
    (hcp : S.changePos = false) (h : GoodGrid dx g ps) (ht : threads.flatten.Perm ps) (hk : KeepsMotion plast)
    {b : Fin (d + 2)} {σ z : K} (hσ : σ = 1 ∨ σ = -1) (hz : ∀ y ∈ g b, ∃ k : ℤ, y = z + k * dx)
    (hbc : ∀ i u, IsNode g i → 0 < massAt deg dx m ps (nodeAt g i) →
      massAt deg dx m ps (nodeAt g i) • u =
        freeMomentum deg dx fr S.P.apicDinverse m vol dt grav ps (nodeAt g i) →
      min (σ * nodeAt g i b) (σ * z) ≤ σ * (nodeAt g i b + dt * bc (flatIndex g.size i) (nodeAt g i) u b))
    (hin : ∀ p ∈ ps, σ * z - leak deg * dx ≤ σ * p.x b) :
    ∃ qs, stepOnGrid S dt grav bc plast g [] threads ps = some qs ∧
      ∀ q ∈ qs, σ * z - leak deg * dx ≤ σ * q.x b := by
  have hP : S.P.deg = deg := by rw [hS]; rfl
  have hP1 : S.P.oneOverDx = 1 / dx := by rw [hS]; rfl
  obtain ⟨F, hF, hF2⟩ := stepOnGrid_eq (S := S) (dt := dt) (grav := grav) (bc := bc) hP hP1 h ht hk
  refine ⟨_, hF, ?_⟩
  simp only [List.mem_map]
  rintro _ ⟨p, hp, rfl⟩
  obtain ⟨-, -, -, hx, -⟩ := hF2 p hp
  have hg := goodAt (deg := deg) h.dx_pos h.uniform (h.inside p hp)
  rw [hx]
  simp only [positionParticle, hpbc, hcp, Bool.false_eq_true, if_false, g2pTransfer, Pi.add_apply, Pi.smul_apply,
    smul_eq_mul, interpV_eq, Finset.sum_apply]
  set e := stepEuler S deg dx dt grav bc g ps with he
  set s := stencilOf deg dx g p.x with hs
  have := barrier (deg := deg) h.dx_pos h.uniform (h.inside p hp) b hσ hz (hin p hp)
    (D := fun c => dt * e.v (flatIndex g.size (s.node c)) b) ?_
  · refine this.trans (le_of_eq ?_)
    congr 2
    rw [Finset.mul_sum]
    exact Finset.sum_congr rfl fun c _ => by rw [← hs]; ring
  · intro c
    rw [← hs, hg.pos c]
    set i := s.node c with hi'
    have hi : IsNode g i := fun a => hg.ok.node_lt c a
    obtain ⟨n1, n2⟩ := node_values (dt := dt) (grav := grav) hS hm h hi
    have hat := (eulerUpdate_at S.P dt grav bc g (p2gFinish S.P (raw S.P deg dx g ps)) hi).1
    by_cases hpos : (p2gFinish S.P (raw S.P deg dx g ps) (flatIndex g.size i)).mass > 0
    · rw [if_pos hpos] at hat
      have hv : e.v (flatIndex g.size i) = bc (flatIndex g.size i) (nodeAt g i)
          (beforeWalls S deg dx dt grav g ps (flatIndex g.size i)) := hat
      rw [hv]
      exact hbc i _ hi (n1 ▸ hpos) n2
    · rw [if_neg hpos] at hat
      have hv : e.v (flatIndex g.size i) = 0 := by
        refine (show e.v (flatIndex g.size i) = _ from hat).trans ?_
        simp only [p2gFinish] at hpos ⊢
        rw [if_neg]
        intro hc
        exact hpos (mul_pos hc (by rw [hS]; exact hm))
      rw [hv]
      simp

end step

section walls

/-- The range of a plate along the surface: the positions beside which it ends count as not covered. In 3D plates are
unlimited along `z`, and `back`, `front` altogether. -/
def Covers {d : ℕ} (p : Plate (d + 2)) (X : Fin (d + 2) → ℝ) : Prop :=
  match p.type with
  | .left | .right => p.lower < X 1 ∧ X 1 < p.upper
  | .bottom | .top => p.lower < X 0 ∧ X 0 < p.upper
  | .back | .front => True

/-- What is needed of the plates; holds in 2D and 3D. -/
structure HoldOps {d : ℕ} (ops : PlateOps (d + 2)) : Prop where
  inside : ∀ (p : Plate (d + 2)) (b : Fin (d + 2)) X, normalAxis p.type = b → Covers p X →
    openSide p.type * X b ≤ openSide p.type * p.pos → ops.inside p X
  shrinks : ∀ type bc fric r b, 0 ≤ fric → ∃ a, 0 ≤ a ∧ a ≤ 1 ∧ ops.rel type bc fric r b = a * r b
  holds : ∀ type bc fric r (b : Fin (d + 2)), normalAxis type = b → 0 ≤ openSide type * ops.rel type bc fric r b
  move : ∀ p dt f t, (ops.move p dt f t).type = p.type ∧ (ops.move p dt f t).bc = p.bc ∧
    (ops.move p dt f t).friction = p.friction ∧ (ops.move p dt f t).velOrig = p.velOrig ∧
    (∀ b, p.velOrig b = 0 → (ops.move p dt f t).vel b = 0) ∧
    (p.velOrig = 0 → (ops.move p dt f t).pos = p.pos ∧ (ops.move p dt f t).lower = p.lower ∧
      (ops.move p dt f t).upper = p.upper)

lemma hold2 : HoldOps (d := 0) plateOps2 where
  inside := by
    rintro ⟨pos, type, bc, fr, lo, up, vel, vo, vm, lf⟩ b X h1 h2 h3
    simp only [plateOps2, Plate.inside2]
    fin_cases b <;> cases type <;> simp_all [Covers, normalAxis, openSide]
  shrinks := fun type bc fric r b hf => plateRel2_shrinks hf r b
  holds := by
    intro type bc fric r b h
    simp only [plateOps2]
    fin_cases b <;> cases type <;> cases bc <;> simp_all [plateRel2, normalAxis, openSide] <;>
      split_ifs <;> simp_all
  move := by
    rintro p dt f t
    simp only [plateOps2, Plate.move2]
    refine ⟨?_, ?_, ?_, ?_, ?_, ?_⟩
    · cases h : p.type <;> simp
    · cases h : p.type <;> simp
    · cases h : p.type <;> simp
    · cases h : p.type <;> simp
    · intro b hb
      fin_cases b <;> cases h : p.type <;> simp_all
    · intro hv
      cases h : p.type <;> simp [hv]

lemma hold3 : HoldOps (d := 1) plateOps3 where
  inside := by
    rintro ⟨pos, type, bc, fr, lo, up, vel, vo, vm, lf⟩ b X h1 h2 h3
    simp only [plateOps3, Plate.inside3]
    fin_cases b <;> cases type <;> simp_all [Covers, normalAxis, openSide]
  shrinks := fun type bc fric r b hf => plateRel3_shrinks hf r b
  holds := by
    intro type bc fric r b h
    simp only [plateOps3]
    fin_cases b <;> cases type <;> cases bc <;> simp_all [plateRel3, normalAxis, openSide] <;>
      split_ifs <;> simp_all
  move := by
    rintro p dt f t
    simp only [plateOps3, Plate.move3]
    refine ⟨?_, ?_, ?_, ?_, ?_, ?_⟩
    · cases h : p.type <;> simp
    · cases h : p.type <;> simp
    · cases h : p.type <;> simp
    · cases h : p.type <;> simp
    · intro b hb
      fin_cases b <;> cases h : p.type <;> simp_all
    · intro hv
      cases h : p.type <;> simp [hv]

/-- A wall that does not push along axis `b`: it does not move along it, and its friction is not negative. -/
def StillPlate {d : ℕ} (b : Fin d) (p : Plate d) : Prop :=
  0 ≤ p.friction ∧ p.vel b = 0 ∧ p.velOrig b = 0

/-- An object that does not push along axis `b`. -/
def StillObject {d : ℕ} (b : Fin d) (o : GenObject d) : Prop := o.bc = .noSlip ∨ ObjectBeside b o

variable {d : ℕ} {ops : PlateOps (d + 2)} {gf : ℕ → ℝ} {dt : ℝ} {objs : List (GenObject (d + 2))}
  {plates : List (Plate (d + 2))}

lemma shrink_mul {a a' x y w : ℝ} (h0 : 0 ≤ a) (h1 : a ≤ 1) (h0' : 0 ≤ a') (h1' : a' ≤ 1) (e : x = a * y)
    (e' : y = a' * w) : ∃ c, 0 ≤ c ∧ c ≤ 1 ∧ x = c * w :=
  ⟨a * a', mul_nonneg h0 h0', mul_le_one₀ h1 h0' h1', by rw [e, e', mul_assoc]⟩

open Classical in
lemma objects_shrink {b : Fin (d + 2)} (h : ∀ o ∈ objs, StillObject b o) (Y : Fin (d + 2) → ℝ) :
    ∀ w : Fin (d + 2) → ℝ, ∃ a, 0 ≤ a ∧ a ≤ 1 ∧ collideObjects (fun own => own) Y objs w b = a * w b := by
  induction objs with
  | nil => exact fun w => ⟨1, zero_le_one, le_rfl, (one_mul _).symm⟩
  | cons o os ih =>
    intro w
    have := ih (fun o ho => h o (List.mem_cons_of_mem _ ho))
    simp only [collideObjects, List.foldl_cons] at this ⊢
    obtain ⟨a, a0, a1, ha⟩ := this (if o.inside Y then objectRel o.bc o.friction (o.normal Y) w else w)
    have h2 : ∃ a' : ℝ, 0 ≤ a' ∧ a' ≤ 1 ∧
        (if o.inside Y then objectRel o.bc o.friction (o.normal Y) w else w) b = a' * w b := by
      split_ifs
      · rcases h o List.mem_cons_self with hn | hb
        · exact ⟨0, le_rfl, zero_le_one, by rw [hn]; simp [objectRel]⟩
        · exact ⟨1, zero_le_one, le_rfl, by rw [objectRel_beside hb, one_mul]⟩
      · exact ⟨1, zero_le_one, le_rfl, (one_mul _).symm⟩
    obtain ⟨a', a0', a1', ha'⟩ := h2
    exact shrink_mul a0 a1 a0' a1' ha ha'

open Classical in
lemma plates_shrink (ho : HoldOps ops) {b : Fin (d + 2)} (h : ∀ p ∈ plates, StillPlate b p)
    (Y : Fin (d + 2) → ℝ) : ∀ w : Fin (d + 2) → ℝ,
    (∃ a, 0 ≤ a ∧ a ≤ 1 ∧ collidePlates ops.inside ops.rel (fun own => own) Y plates w b = a * w b) ∧
    ∀ q ∈ plates, normalAxis q.type = b → ops.inside q Y →
      0 ≤ openSide q.type * collidePlates ops.inside ops.rel (fun own => own) Y plates w b := by
  induction plates with
  | nil => exact fun w => ⟨⟨1, zero_le_one, le_rfl, (one_mul _).symm⟩, by simp⟩
  | cons p os ih =>
    intro w
    have hp := h p List.mem_cons_self
    have := ih (fun o ho => h o (List.mem_cons_of_mem _ ho))
    simp only [collidePlates, List.foldl_cons] at this ⊢
    obtain ⟨⟨a, a0, a1, ha⟩, h3⟩ :=
      this (if ops.inside p Y then ops.rel p.type p.bc p.friction (w - p.vel) + p.vel else w)
    have h2 : ∃ a' : ℝ, 0 ≤ a' ∧ a' ≤ 1 ∧
        (if ops.inside p Y then ops.rel p.type p.bc p.friction (w - p.vel) + p.vel else w) b = a' * w b := by
      split_ifs
      · obtain ⟨c, c0, c1, hc⟩ := ho.shrinks p.type p.bc p.friction (w - p.vel) b hp.1
        exact ⟨c, c0, c1, by rw [Pi.add_apply, hc, Pi.sub_apply, hp.2.1]; ring⟩
      · exact ⟨1, zero_le_one, le_rfl, (one_mul _).symm⟩
    obtain ⟨a', a0', a1', ha'⟩ := h2
    refine ⟨shrink_mul a0 a1 a0' a1' ha ha', ?_⟩
    intro q hq hn hi
    rcases List.mem_cons.mp hq with rfl | hq
    · rw [ha, if_pos hi, Pi.add_apply, hp.2.1, add_zero]
      have := mul_nonneg a0 (ho.holds q.type q.bc q.friction (w - q.vel) b hn)
      linarith
    · exact h3 q hq hn hi

/-- **C70** A wall normal to axis `b` that does not move along its normal: as long as the position the node would
reach is beside the wall's surface, `boundaryCollision` does not move the node both further back than it was and
behind the wall. All boundary conditions, any other walls that do not push along `b`. -/
theorem C70_node (ho : HoldOps ops) (hdt : 0 ≤ dt) {b : Fin (d + 2)} (h1 : ∀ o ∈ objs, StillObject b o)
    (h2 : ∀ p ∈ plates, StillPlate b p) {q : Plate (d + 2)} (hq : q ∈ plates) (hn : normalAxis q.type = b) (l : ℕ)
    {X v : Fin (d + 2) → ℝ} (hc : Covers q (X + dt • v)) :
    min (openSide q.type * X b) (openSide q.type * q.pos) ≤
      openSide q.type * (X b + dt * boundaryCollision ops false gf dt objs plates l X v b) := by
  simp only [boundaryCollision, show wallFriction false gf l = fun own => own from rfl]
  obtain ⟨a, a0, a1, ha⟩ := objects_shrink h1 (X + dt • v) v
  obtain ⟨⟨c, c0, c1, hcc⟩, hh⟩ := plates_shrink ho h2 (X + dt • v)
    (collideObjects (fun own => own) (X + dt • v) objs v)
  set V := collidePlates ops.inside ops.rel (fun own => own) (X + dt • v) plates
    (collideObjects (fun own => own) (X + dt • v) objs v) b
  set s := openSide q.type
  by_cases hi : ops.inside q (X + dt • v)
  · have := mul_nonneg hdt (hh q hq hn hi)
    refine (min_le_left _ _).trans ?_
    linarith
  · obtain ⟨f, f0, f1, hf⟩ := shrink_mul c0 c1 a0 a1 hcc ha
    have hlt : s * q.pos < s * (X b + dt * v b) := by
      by_contra hle
      exact hi (ho.inside q b _ hn hc (not_lt.mp hle))
    rw [hf]
    have e : s * (X b + dt * (f * v b)) = (1 - f) * (s * X b) + f * (s * (X b + dt * v b)) := by ring
    rw [e]
    have l1 := min_le_left (s * X b) (s * q.pos)
    have l2 := (min_le_right (s * X b) (s * q.pos)).trans hlt.le
    nlinarith [mul_le_mul_of_nonneg_left l1 (sub_nonneg.mpr f1), mul_le_mul_of_nonneg_left l2 f0]

end walls

section run
variable {d : ℕ} {R : Setup (d + 2)} {i e : Bool} {fuel : ℕ} {s : LoopState (d + 2) (World (d + 2))}

lemma openSide_sq (t : PlateType) : openSide t = 1 ∨ openSide t = -1 := by cases t <;> simp [openSide]

/-- **C70** Containment in whole runs. `q` is a fixed plate normal to axis `b`, with any boundary condition; `z` is a
row of the lattice of grid nodes at the plate or behind it. If all particles start at most `leak` cells (`0` for
linear, `1/2` for quadratic, `1` for cubic splines) behind that row, they are so in all files. Other plates may move
along their surface, objects must be no-slip, or frictionless and parallel to `b`. Periodic domains, `use_mibf` and
`change_particle_positions` excluded. `hcov`: no node with mass would move past the ends of the plate in one step. -/
theorem C70_run {deg : Deg} {dx fr m vol : ℝ} (hS : R.S.P = mkTransferParams deg dx fr false m vol) (hdx : 0 < dx)
    (hm : 0 < m) (hpbc : R.S.pbc = false) (hcp : R.S.changePos = false) (hops : HoldOps R.ops)
    (hsched : ∀ k ps, (R.sched k ps).flatten.Perm ps) (hmin : 0 ≤ R.C.minDt) (hfresh : s.step = 0)
    (hne : s.w.ps ≠ []) {b : Fin (d + 2)} {q : Plate (d + 2)} (hq : q ∈ s.w.plates) (hn : normalAxis q.type = b)
    (hv : q.velOrig = 0) (hobj : ∀ o ∈ R.objs, StillObject b o) (hpl : ∀ p ∈ s.w.plates, StillPlate b p)
    {m0 z : ℝ} (h0 : IsLeast (coords R.S.ref (s.w.ps.map fun p => p.x) b) m0) (hz : ∃ k : ℤ, z = m0 + k * dx)
    (hzq : openSide q.type * z ≤ openSide q.type * q.pos)
    (hcov : ∀ s1 dt g w, StepOf R s s1 dt g w → ∀ j, IsNode w.g j → ∀ u, 0 < massAt deg dx m s1.w.ps (nodeAt w.g j) →
      massAt deg dx m s1.w.ps (nodeAt w.g j) • u =
        freeMomentum deg dx fr R.S.P.apicDinverse m vol dt g s1.w.ps (nodeAt w.g j) →
      Covers q (nodeAt w.g j + dt • u))
    (hin : ∀ p ∈ s.w.ps, openSide q.type * z - leak deg * dx ≤ openSide q.type * p.x b)
    {n : ℕ} {t : ℝ} {w : World (d + 2)}
    (hev : .particles n t w ∈ filesOf (runProgram R i e fuel s)) (hnew : .particles n t w ∉ s.out) :
    ∀ p ∈ w.ps, openSide q.type * z - leak deg * dx ≤ openSide q.type * p.x b := by
  have hmib : R.S.P.useMibf = false := by rw [hS]; rfl
  have hPdx : R.S.P.dx = dx := by rw [hS]; rfl
  have hb : (begin R s).w = s.w := by
    rw [begin_w, fillMuI, hmib]; simp
  let Inv : World (d + 2) → ℝ → ℕ → (Fin (d + 2) → ℝ) → Prop := fun w _ _ _ =>
    (∀ p ∈ w.ps, openSide q.type * z - leak deg * dx ≤ openSide q.type * p.x b) ∧
    (∀ p ∈ w.plates, StillPlate b p) ∧
    ∃ q' ∈ w.plates, q'.type = q.type ∧ q'.pos = q.pos ∧ q'.lower = q.lower ∧ q'.upper = q.upper ∧ q'.velOrig = 0
  have hi0 : Inv (begin R s).w 0 s.step s.gravity := by
    refine ⟨?_, ?_, q, ?_, rfl, rfl, rfl, rfl, hv⟩ <;> rw [hb] <;> assumption
  have hstep : ∀ s1 dt g w, StepOf R s s1 dt g w → Inv s1.w s1.time s1.step s1.gravity →
      Inv w (s1.time + dt) (s1.step + 1) g := by
    rintro s1 dt g w hst ⟨i1, i2, q', hq', t1, t2, t3, t4, t5⟩
    have hgood := physStep_goodGrid hpbc (by rw [hPdx]; exact hdx) (by rw [hS]; rfl) hst.phys
    rw [hPdx] at hgood
    obtain ⟨hdt, hg⟩ := hst.dt_ge
    have hdt0 : 0 ≤ dt := hmin.trans hdt
    obtain ⟨fr', ha⟩ := physStep_advance hst.phys
    have hplates := physStep_plates hst.phys
    simp only [advanceStep, hpbc, Bool.false_eq_true, if_false, List.append_nil, Option.bind_eq_bind,
      Option.bind_eq_some_iff] at ha
    obtain ⟨bg, hbg, qs, hqs, hσ⟩ := ha
    injection hσ with hσ
    injection hσ with hps _ hgg _
    obtain ⟨m0', hm0', hlat⟩ := run_lattice hPdx hdx hpbc hfresh hne hst
    have hm0 : m0' b = m0 := (hm0' b).unique h0
    obtain ⟨k0, hk0⟩ := hz
    obtain ⟨qs', h1, h2⟩ := C70_step (S := R.S) (dt := dt) (grav := g) (g := w.g) (ps := s1.w.ps) (b := b)
      (σ := openSide q.type) (z := z)
      (bc := boundaryCollision R.ops R.S.P.useMibf fr' dt R.objs s1.w.plates)
      (plast := plastTotal R dt) (threads := R.sched s1.step s1.w.ps) hS hm hpbc hcp
      hgood (hsched _ _) (plastTotal_keeps R dt) (openSide_sq _)
      (fun y hy => by
        obtain ⟨k, hk⟩ := hlat b y hy
        exact ⟨k - k0, by rw [hk, hk0, hm0]; push_cast; ring⟩)
      (fun j u hj hmass hu => by
        have hc := hcov s1 dt g w hst j hj u hmass hu
        have hc' : Covers q' (nodeAt w.g j + dt • u) := by
          unfold Covers at hc ⊢
          rw [t1, t3, t4]
          exact hc
        have := C70_node (gf := fr') hops hdt0 hobj i2 hq' (by rw [t1]; exact hn) (flatIndex w.g.size j) hc'
        rw [t1, t2] at this
        rw [hmib]
        refine le_trans ?_ this
        exact min_le_min_left _ hzq)
      i1
    rw [← hgg, hqs] at h1
    have hw : w.ps = qs' := by rw [← hps]; exact Option.some.inj h1
    refine ⟨by rw [hw]; exact h2, ?_, ?_⟩
    · intro p hp
      rw [hplates, List.mem_map] at hp
      obtain ⟨p, hp, rfl⟩ := hp
      obtain ⟨a1, a2, a3⟩ := i2 p hp
      obtain ⟨b1, b2, b3, b4, b5, -⟩ := hops.move p dt R.C.frameDt s1.time
      exact ⟨by rw [b3]; exact a1, b5 b a3, by rw [b4]; exact a3⟩
    · refine ⟨R.ops.move q' dt R.C.frameDt s1.time, by rw [hplates]; exact List.mem_map_of_mem hq', ?_⟩
      obtain ⟨b1, b2, b3, b4, b5, b6⟩ := hops.move q' dt R.C.frameDt s1.time
      obtain ⟨c1, c2, c3⟩ := b6 t5
      exact ⟨by rw [b1, t1], by rw [c1, t2], by rw [c2, t3], by rw [c3, t4], by rw [b4, t5]⟩
  rcases run_particles hev hnew with ⟨rfl, rfl, rfl⟩ | ⟨s1, dt, g, hst, rfl⟩
  · exact hi0.1
  · exact (run_inv (Inv := Inv) hi0 hstep hst).2.1

end run
end Verif.Props
