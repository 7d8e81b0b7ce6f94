import Verif.Props.Transfer
import Verif.Props.Momentum
import Verif.Props.Run

set_option linter.unusedSectionVars false
set_option linter.unusedSimpArgs false
set_option linter.unusedVariables false

/-!
# C69: walls and momentum
-/

namespace Verif.Props
open Verif Matrix

section step
variable {K : Type*} [Field K] [LinearOrder K] [IsStrictOrderedRing K] [FloorRing K] {d : ℕ}

/-- Mass at the position `X`: `m ∑ N` over the particles with a weight above `1e-25`. -/
def massAt (deg : Deg) (dx m : K) (ps : List (Particle d K)) (X : Fin d → K) : K :=
  m * ((ps.filter fun p => 1 / 10 ^ 25 < shape deg dx X p.x).map fun p => shape deg dx X p.x).sum

/-- Momentum that the node at `X` has at the end of the step if nothing is in its way: what the particles bring
(with the affine part for negative `fr`), minus the stress divergence, plus gravity. `D` is the inverse of the APIC
inertia. -/
def freeMomentum (deg : Deg) (dx fr D m vol dt : K) (grav : Fin d → K) (ps : List (Particle d K)) (X : Fin d → K) :
    Fin d → K :=
  let near := ps.filter fun p => 1 / 10 ^ 25 < shape deg dx X p.x
  m • (near.map fun p => shape deg dx X p.x • (p.v + if fr < 0 then D • (p.Bmat *ᵥ (X - p.x)) else 0)).sum
    - (dt * vol) • (near.map fun p => p.tau *ᵥ shapeGrad deg dx X p.x).sum
    + (dt * massAt deg dx m ps X) • grav

variable {deg : Deg} {dx fr m vol : K} {mibf : Bool} {g : Axes (d + 2) K} {S : StepParams (d + 2) K}
  {ps : List (Particle (d + 2) K)} {dt : K} {grav : Fin (d + 2) → K}
  {bc : ℕ → (Fin (d + 2) → K) → (Fin (d + 2) → K) → (Fin (d + 2) → K)}
  {plast : Particle (d + 2) K → Particle (d + 2) K} {threads : List (List (Particle (d + 2) K))}

/-- Velocity of node `l` before the walls act. -/
def beforeWalls (S : StepParams (d + 2) K) (deg : Deg) (dx dt : K) (grav : Fin (d + 2) → K) (g : Axes (d + 2) K)
    (ps : List (Particle (d + 2) K)) (l : ℕ) : Fin (d + 2) → K :=
  let c := p2gFinish S.P (raw S.P deg dx g ps) l
  c.v + incrAt S.P dt grav c

/-- Velocity change of node `i` by the walls. -/
lemma euler_node_wall {P : TransferParams K} (hm : 0 < P.particleMass) {i : Fin (d + 2) → ℕ} (hi : IsNode g i) :
    let arr := p2gFinish P (raw P deg dx g ps)
    let e := eulerUpdate P dt grav bc g arr
    let l := flatIndex g.size i
    let u := (arr l).v + incrAt P dt grav (arr l)
    ((arr l).mass • e.v l = P.particleMass • (raw P deg dx g ps l).v -
      (dt * P.particleVolume) • (raw P deg dx g ps l).force + (dt * (arr l).mass) • grav +
      (arr l).mass • (bc l (nodeAt g i) u - u)) ∧
    ((arr l).mass • e.flip l =
      -((dt * P.particleVolume) • (raw P deg dx g ps l).force) + (dt * (arr l).mass) • grav +
      (arr l).mass • (bc l (nodeAt g i) u - u)) ∧
    ((arr l).mass • u = P.particleMass • (raw P deg dx g ps l).v -
      (dt * P.particleVolume) • (raw P deg dx g ps l).force + (dt * (arr l).mass) • grav) := by
  intro arr e l u
  have hl := flatIndex_lt (n := g.size) (i := i) hi
  have h0 := euler_node (deg := deg) (dx := dx) (dt := dt) (grav := grav) (ps := ps) (g := g) (P := P)
    (bc := fun _ _ v => v) hm (fun _ _ _ => rfl) hl
  have hat := eulerUpdate_at P dt grav bc g arr (i := i) hi
  have hat0 := eulerUpdate_at P dt grav (fun _ _ v => v) g arr (i := i) hi
  simp only at h0 hat hat0
  rw [hat0.1, hat0.2] at h0
  by_cases hpos : (arr l).mass > 0
  · simp only [arr, l] at hpos
    rw [if_pos hpos] at h0
    rw [if_pos hpos] at h0
    refine ⟨?_, ?_, h0.1⟩
    · rw [← h0.1, show e.v l = _ from hat.1, if_pos hpos, ← smul_add]
      congr 1
      simp only [u, arr, l]; abel
    · rw [← h0.2, show e.flip l = _ from hat.2, if_pos hpos, ← smul_add]
      congr 1
      simp only [u, arr, l]; abel
  · have hz : (arr l).mass = 0 := le_antisymm (not_lt.mp hpos)
      (mul_nonneg (raw_mass_nonneg (P := P) (deg := deg) (dx := dx) (g := g) (ps := ps) l) hm.le)
    simp only [arr, l] at hpos hz
    rw [if_neg hpos, if_neg hpos] at h0
    have hv : e.v l = (arr l).v := by rw [show e.v l = _ from hat.1, if_neg hpos]
    have hf : e.flip l = 0 := by rw [show e.flip l = _ from hat.2, if_neg hpos]
    have hz' : (arr l).mass = 0 := hz
    rw [hz] at h0
    rw [hv, hf, hz']
    simp only [zero_smul, smul_zero, add_zero, mul_zero] at h0 ⊢
    exact ⟨h0.1, h0.2, h0.1⟩

/-- From the sums over the grid to the momentum of the particles. -/
lemma blend_momentum {P : TransferParams K} {n : Fin (d + 2) → ℕ} {e : EulerArr (d + 2) K}
    {st : Particle (d + 2) K → Stencil (d + 2) K} {F : Particle (d + 2) K → Particle (d + 2) K}
    {J : Fin (d + 2) → K}
    (hF : ∀ p ∈ ps, (F p).v = blendVelocity P (g2pTransfer P n e p (st p)))
    (h1 : m • (ps.map fun p => interpV n e.v (st p)).sum = m • (ps.map fun p => p.v).sum + J)
    (h2 : m • (ps.map fun p => interpV n e.flip (st p)).sum = J) :
    momentum m (ps.map F) = momentum m ps + J := by
  simp only [momentum]
  rw [List.map_map, sum_map_smul]
  have hv : ∀ p ∈ ps, ((fun q => m • q.v) ∘ F) p = m • blendVelocity P (g2pTransfer P n e p (st p)) :=
    fun p hp => by simp only [Function.comp, hF p hp]
  rw [List.map_congr_left hv, sum_map_smul]
  by_cases hc1 : P.flipRatio < -1
  · simp only [blendVelocity, hc1, if_true, g2pTransfer]
    exact h1
  · have hge : P.flipRatio ≥ -1 := not_lt.mp hc1
    have key : ∀ a : K, m • (ps.map fun p => a • (p.v + interpV n e.flip (st p)) +
        (1 - a) • interpV n e.v (st p)).sum = m • (ps.map fun p => p.v).sum + J := by
      intro a
      rw [sum_map_add', sum_map_smul, sum_map_smul, sum_map_add', smul_add, smul_comm m a,
        smul_comm m (1 - a), smul_add m, h1, h2]
      rw [sub_smul, one_smul]; abel
    by_cases hc2 : P.flipRatio < 0
    · simp only [blendVelocity, hc1, hc2, if_true, if_false, g2pTransfer, hge]
      exact key _
    · simp only [blendVelocity, hc1, hc2, if_true, if_false, g2pTransfer, hge]
      exact key _

/-- The node values of the transfer in terms of `massAt` and `freeMomentum`. -/
lemma node_values (hS : S.P = mkTransferParams deg dx fr mibf m vol) (hm : 0 < m) (h : GoodGrid dx g ps)
    {i : Fin (d + 2) → ℕ} (hi : IsNode g i) :
    (p2gFinish S.P (raw S.P deg dx g ps) (flatIndex g.size i)).mass = massAt deg dx m ps (nodeAt g i) ∧
    massAt deg dx m ps (nodeAt g i) • beforeWalls S deg dx dt grav g ps (flatIndex g.size i) =
      freeMomentum deg dx fr S.P.apicDinverse m vol dt grav ps (nodeAt g i) := by
  have hP : S.P.deg = deg := by rw [hS]; rfl
  have hP1 : S.P.oneOverDx = 1 / dx := by rw [hS]; rfl
  have hPm : S.P.particleMass = m := by rw [hS]; rfl
  have hPv : S.P.particleVolume = vol := by rw [hS]; rfl
  obtain ⟨arr, ha, hnode⟩ := C54_p2g_nodes (deg := deg) (fr := fr) (m := m) (vol := vol) (mibf := mibf)
    (threads := [ps]) (by simpa using h)
  have harr : arr = p2gFinish S.P (raw S.P deg dx g ps) := by
    have := P2G_eq (P := S.P) (deg := deg) (ts := [ps]) hP hP1 (by simpa using h)
    rw [hS, ha] at this
    rw [Option.some.inj this, hS]
    simp
  obtain ⟨n1, n2, n3, -⟩ := hnode i hi
  simp only [List.flatten_cons, List.flatten_nil, List.append_nil] at n1 n2 n3
  rw [harr] at n1 n2 n3
  refine ⟨n1, ?_⟩
  have h3 := (euler_node_wall (P := S.P) (deg := deg) (dx := dx) (dt := dt) (grav := grav) (bc := fun _ _ v => v) (ps := ps)
    (by rw [hPm]; exact hm) hi).2.2
  have hM : (p2gFinish S.P (raw S.P deg dx g ps) (flatIndex g.size i)).mass = massAt deg dx m ps (nodeAt g i) := n1
  have hmom := finish_momentum (P := S.P) (deg := deg) (dx := dx) (g := g) (ps := ps) (flatIndex g.size i)
  rw [hM] at h3 hmom
  rw [beforeWalls, h3, ← hmom, hPv]
  simp only [freeMomentum]
  rw [← hS] at n3
  rw [← n2, ← n3, massAt, smul_smul]
  rfl

/-- Sums over the particles of the interpolated velocities and velocity increments. -/
lemma wall_sums (hS : S.P = mkTransferParams deg dx fr mibf m vol) (hd : deg ≠ .one) (hm : 0 < m)
    (h : GoodGrid dx g ps) (hn : NoTinyWeights deg dx g ps) :
    let e := stepEuler S deg dx dt grav bc g ps
    let u := fun i => beforeWalls S deg dx dt grav g ps (flatIndex g.size i)
    let J := (dt * (ps.length * m)) • grav + ∑ i ∈ gridIndices g, massAt deg dx m ps (nodeAt g i) •
      (bc (flatIndex g.size i) (nodeAt g i) (u i) - u i)
    m • (ps.map fun p => interpV g.size e.v (stencilOf deg dx g p.x)).sum = m • (ps.map fun p => p.v).sum + J ∧
    m • (ps.map fun p => interpV g.size e.flip (stencilOf deg dx g p.x)).sum = J := by
  have hPm : S.P.particleMass = m := by rw [hS]; rfl
  intro e0 u0 J0
  set e := stepEuler S deg dx dt grav bc g ps with he
  set J := ∑ i ∈ gridIndices g, massAt deg dx m ps (nodeAt g i) •
    (bc (flatIndex g.size i) (nodeAt g i) (beforeWalls S deg dx dt grav g ps (flatIndex g.size i)) -
      beforeWalls S deg dx dt grav g ps (flatIndex g.size i)) with hJ
  have hw := fun i (hi : i ∈ gridIndices g) =>
    euler_node_wall (P := S.P) (deg := deg) (dx := dx) (dt := dt) (grav := grav) (bc := bc) (ps := ps)
      (by rw [hPm]; exact hm) (mem_gridIndices.mp hi)
  have hJ' : ∑ i ∈ gridIndices g, (p2gFinish S.P (raw S.P deg dx g ps) (flatIndex g.size i)).mass •
      (bc (flatIndex g.size i) (nodeAt g i) (beforeWalls S deg dx dt grav g ps (flatIndex g.size i)) -
      beforeWalls S deg dx dt grav g ps (flatIndex g.size i)) = J :=
    Finset.sum_congr rfl fun i hi => by
      rw [(node_values (dt := dt) (grav := grav) hS hm h (mem_gridIndices.mp hi)).1]
  have hM : ∑ i ∈ gridIndices g, (dt * (p2gFinish S.P (raw S.P deg dx g ps) (flatIndex g.size i)).mass) • grav =
      (dt * (ps.length * m)) • grav := by
    rw [← Finset.sum_smul, ← Finset.mul_sum]
    congr 2
    simp only [finish_mass, ← Finset.sum_mul, hPm]
    congr 1
    rw [sum_gridIndices g fun l => (raw S.P deg dx g ps l).mass, sum_raw_mass h hn]
  have hV : ∑ i ∈ gridIndices g, (raw S.P deg dx g ps (flatIndex g.size i)).v = (ps.map fun p => p.v).sum := by
    rw [sum_gridIndices g fun l => (raw S.P deg dx g ps l).v, sum_raw_v h hn]
  have hFo : ∑ i ∈ gridIndices g, (raw S.P deg dx g ps (flatIndex g.size i)).force = 0 := by
    rw [sum_gridIndices g fun l => (raw S.P deg dx g ps l).force, sum_raw_force hd h hn]
  have hI : ∀ φ : ℕ → Fin (d + 2) → K, m • (ps.map fun p => interpV g.size φ (stencilOf deg dx g p.x)).sum =
      ∑ i ∈ gridIndices g, (p2gFinish S.P (raw S.P deg dx g ps) (flatIndex g.size i)).mass •
        φ (flatIndex g.size i) := by
    intro φ
    have h1 := sum_interpV (P := S.P) h hn φ
    rw [hPm] at h1
    rw [← sum_map_smul, h1,
      sum_gridIndices g fun l => (p2gFinish S.P (raw S.P deg dx g ps) l).mass • φ l]
  refine ⟨?_, ?_⟩
  · rw [hI]
    refine (Finset.sum_congr rfl fun i hi => (hw i hi).1).trans ?_
    rw [Finset.sum_add_distrib, Finset.sum_add_distrib, Finset.sum_sub_distrib, ← Finset.smul_sum, ← Finset.smul_sum,
      hV, hFo, smul_zero, sub_zero, hPm, hM]
    rw [add_assoc]
    congr 2
  · rw [hI]
    refine (Finset.sum_congr rfl fun i hi => (hw i hi).2.1).trans ?_
    rw [Finset.sum_add_distrib, Finset.sum_add_distrib, Finset.sum_neg_distrib, ← Finset.smul_sum, hFo, smul_zero,
      neg_zero, zero_add, hM]
    congr 1

/-- **C69** Momentum balance of a step with walls, for every boundary treatment `bc`: the total momentum changes by
gravity and by the impulses `M_i (bc(u_i) - u_i)` of the walls on the nodes, where `M_i` is the mass of node `i` and
`u_i` the velocity the node would have without walls. For every `flip_ratio`, all stresses and every constitutive
update, with or without MUSL. -/
theorem C69_step (hS : S.P = mkTransferParams deg dx fr mibf m vol) (hd : deg ≠ .one) (hm : 0 < m)
    (h : GoodGrid dx g ps) (hn : NoTinyWeights deg dx g ps) (ht : threads.flatten.Perm ps) (hk : KeepsMotion plast) :
    ∃ (qs : List (Particle (d + 2) K)) (u : (Fin (d + 2) → ℕ) → Fin (d + 2) → K),
      stepOnGrid S dt grav bc plast g [] threads ps = some qs ∧ qs.length = ps.length ∧
      (∀ i, IsNode g i → massAt deg dx m ps (nodeAt g i) • u i =
        freeMomentum deg dx fr S.P.apicDinverse m vol dt grav ps (nodeAt g i)) ∧
      momentum m qs = momentum m ps + (dt * (ps.length * m)) • grav +
        ∑ i ∈ gridIndices g, massAt deg dx m ps (nodeAt g i) •
          (bc (flatIndex g.size i) (nodeAt g i) (u i) - u i) := by
  have hP : S.P.deg = deg := by rw [hS]; rfl
  have hP1 : S.P.oneOverDx = 1 / dx := by rw [hS]; rfl
  have hPm : S.P.particleMass = m := by rw [hS]; rfl
  obtain ⟨F, hF, hF2⟩ := stepOnGrid_eq (S := S) (dt := dt) (grav := grav) (bc := bc) hP hP1 h ht hk
  refine ⟨_, fun i => beforeWalls S deg dx dt grav g ps (flatIndex g.size i), hF, by simp,
    fun i hi => (node_values hS hm h hi).2, ?_⟩
  have hs := wall_sums (S := S) (dt := dt) (grav := grav) (bc := bc) hS hd hm h hn
  rw [add_assoc]
  exact blend_momentum (P := S.P) (n := g.size) (e := stepEuler S deg dx dt grav bc g ps)
    (st := fun p => stencilOf deg dx g p.x) (fun p hp => (hF2 p hp).1) hs.1 hs.2

end step

/-! ### which walls act on which component -/

section walls

/-- The axis normal to a plate. -/
def normalAxis : PlateType → ℕ
  | .left | .right => 0
  | .bottom | .top => 1
  | .back | .front => 2

/-- The side of the plate on which the material is: `1` if it is the side of larger coordinates. -/
def openSide : PlateType → ℝ
  | .left | .bottom | .back => 1
  | .right | .top | .front => -1

/-- A frictionless wall that is not normal to axis `b` (and not a no-slip wall). -/
def PlateBeside {d : ℕ} (b : Fin d) (p : Plate d) : Prop :=
  p.bc ≠ .noSlip ∧ p.friction = 0 ∧ normalAxis p.type ≠ b

/-- A one-sided wall, with arbitrary friction, whose open side is in direction `s` along axis `b`. -/
def PlateBehind {d : ℕ} (s : ℝ) (b : Fin d) (p : Plate d) : Prop :=
  p.bc = .slipFree ∧ normalAxis p.type = b ∧ openSide p.type = s

/-- A frictionless object without normal component along `b`. -/
def ObjectBeside {d : ℕ} (b : Fin d) (o : GenObject d) : Prop :=
  o.bc ≠ .noSlip ∧ o.friction = 0 ∧ ∀ X, o.normal X b = 0

/-- A frictionless one-sided object whose normals do not point against direction `s` along axis `b`. -/
def ObjectBehind {d : ℕ} (s : ℝ) (b : Fin d) (o : GenObject d) : Prop :=
  o.bc = .slipFree ∧ o.friction = 0 ∧ ∀ X, 0 ≤ s * o.normal X b

/-- What is needed of the plates; holds in 2D and 3D. -/
structure FairOps {d : ℕ} (ops : PlateOps d) : Prop where
  beside : ∀ (p : Plate d) b r, PlateBeside b p → ops.rel p.type p.bc p.friction r b = r b
  behind : ∀ (p : Plate d) s b fric r, PlateBehind s b p → s * r b ≤ s * ops.rel p.type p.bc fric r b
  move : ∀ p dt f t, (ops.move p dt f t).type = p.type ∧ (ops.move p dt f t).bc = p.bc ∧
    (ops.move p dt f t).friction = p.friction

lemma slide2_zero (t n : ℝ) : slide2 0 t n = t := by simp [slide2]

lemma slide3_zero (t₁ t₂ n : ℝ) : slide3 0 t₁ t₂ n = (t₁, t₂) := by simp [slide3]

lemma fair2 : FairOps plateOps2 where
  beside := by
    rintro ⟨pos, type, bc, fr, lo, up, vel, vo, vm, lf⟩ b r ⟨h1, h2, h3⟩
    simp only at h1 h2 h3
    subst h2
    simp only [plateOps2]
    fin_cases b <;> cases type <;> cases bc <;> simp_all [plateRel2, normalAxis, slide2_zero] <;>
      split_ifs <;> simp
  behind := by
    rintro ⟨pos, type, bc, fr, lo, up, vel, vo, vm, lf⟩ s b fric r ⟨h1, h2, h3⟩
    simp only at h1 h2 h3
    subst h1 h3
    simp only [plateOps2]
    fin_cases b <;> cases type <;> simp_all [plateRel2, normalAxis, openSide] <;>
      split_ifs <;> simp <;> linarith
  move := by
    rintro p dt f t
    simp only [plateOps2, Plate.move2]
    cases h : p.type <;> simp

lemma fair3 : FairOps plateOps3 where
  beside := by
    rintro ⟨pos, type, bc, fr, lo, up, vel, vo, vm, lf⟩ b r ⟨h1, h2, h3⟩
    simp only at h1 h2 h3
    subst h2
    simp only [plateOps3]
    fin_cases b <;> cases type <;> cases bc <;> simp_all [plateRel3, normalAxis, slide3_zero] <;>
      split_ifs <;> simp
  behind := by
    rintro ⟨pos, type, bc, fr, lo, up, vel, vo, vm, lf⟩ s b fric r ⟨h1, h2, h3⟩
    simp only at h1 h2 h3
    subst h1 h3
    simp only [plateOps3]
    fin_cases b <;> cases type <;> simp_all [plateRel3, normalAxis, openSide] <;>
      split_ifs <;> simp <;> linarith
  move := by
    rintro p dt f t
    simp only [plateOps3, Plate.move3]
    cases h : p.type <;> simp

variable {d : ℕ}

lemma objectRel_beside {o : GenObject d} {b : Fin d} (h : ObjectBeside b o) (X v : Fin d → ℝ) :
    objectRel o.bc o.friction (o.normal X) v b = v b := by
  obtain ⟨h1, h2, h3⟩ := h
  rw [h2]
  cases hb : o.bc with
  | noSlip => exact absurd hb h1
  | slipFree => simp only [objectRel]; split_ifs <;> simp_all
  | slipStick => simp only [objectRel]; split_ifs <;> simp_all

lemma objectRel_behind {o : GenObject d} {s : ℝ} {b : Fin d} (h : ObjectBehind s b o) (X v : Fin d → ℝ) :
    s * v b ≤ s * objectRel o.bc o.friction (o.normal X) v b := by
  obtain ⟨h1, h2, h3⟩ := h
  rw [h1, h2]
  simp only [objectRel, gt_iff_lt, lt_irrefl, if_false]
  split_ifs with hd
  · simp only [Pi.sub_apply, Pi.smul_apply, smul_eq_mul]
    nlinarith [h3 X]
  · exact le_rfl

variable {ops : PlateOps d} {gf : ℕ → ℝ} {dt : ℝ} {objs : List (GenObject d)} {plates : List (Plate d)}

lemma collision_beside (ho : FairOps ops) {b : Fin d} (h1 : ∀ o ∈ objs, ObjectBeside b o)
    (h2 : ∀ p ∈ plates, PlateBeside b p) (l : ℕ) (X v : Fin d → ℝ) :
    boundaryCollision ops false gf dt objs plates l X v b = v b := by
  simp only [boundaryCollision, wallFriction, Bool.false_eq_true, if_false]
  generalize X + dt • v = Y
  have e1 : ∀ w : Fin d → ℝ, collideObjects (fun own => own) Y objs w b = w b := by
    intro w
    induction objs generalizing w with
    | nil => rfl
    | cons o os ih =>
      refine (ih (fun o ho => h1 o (List.mem_cons_of_mem _ ho)) _).trans ?_
      beta_reduce
      split_ifs
      · exact objectRel_beside (h1 o List.mem_cons_self) _ _
      · rfl
  have e2 : ∀ w : Fin d → ℝ, collidePlates ops.inside ops.rel (fun own => own) Y plates w b = w b := by
    intro w
    induction plates generalizing w with
    | nil => rfl
    | cons p os ih =>
      refine (ih (fun o ho => h2 o (List.mem_cons_of_mem _ ho)) _).trans ?_
      beta_reduce
      split_ifs
      · rw [Pi.add_apply, ho.beside p b _ (h2 p List.mem_cons_self)]; simp
      · rfl
  exact (e2 _).trans (e1 _)

lemma collision_behind (ho : FairOps ops) {mibf : Bool} {s : ℝ} {b : Fin d}
    (hmi : mibf = false ∨ objs = [] ∧ ∀ p ∈ plates, PlateBehind s b p)
    (h1 : ∀ o ∈ objs, ObjectBehind s b o)
    (h2 : ∀ p ∈ plates, PlateBeside b p ∨ PlateBehind s b p) (l : ℕ) (X v : Fin d → ℝ) :
    s * v b ≤ s * boundaryCollision ops mibf gf dt objs plates l X v b := by
  simp only [boundaryCollision]
  generalize X + dt • v = Y
  have e1 : ∀ w : Fin d → ℝ, s * w b ≤ s * collideObjects (wallFriction mibf gf l) Y objs w b := by
    intro w
    induction objs generalizing w with
    | nil => exact le_rfl
    | cons o os ih =>
      have hm : mibf = false := hmi.resolve_right (fun h => by simp at h)
      refine le_trans ?_ (ih (Or.inl hm) (fun o ho => h1 o (List.mem_cons_of_mem _ ho)) _)
      beta_reduce
      split_ifs
      · rw [hm]
        exact objectRel_behind (h1 o List.mem_cons_self) _ _
      · exact le_rfl
  have e2 : ∀ w : Fin d → ℝ, s * w b ≤ s * collidePlates ops.inside ops.rel (wallFriction mibf gf l) Y plates w b := by
    intro w
    induction plates generalizing w with
    | nil => exact le_rfl
    | cons p os ih =>
      refine le_trans ?_ (ih (hmi.imp_right fun h => ⟨h.1, fun q hq => h.2 q (List.mem_cons_of_mem _ hq)⟩)
        (fun o ho => h2 o (List.mem_cons_of_mem _ ho)) _)
      beta_reduce
      split_ifs
      · rw [Pi.add_apply, mul_add]
        have hp : s * (w - p.vel) b ≤ s * ops.rel p.type p.bc (wallFriction mibf gf l p.friction) (w - p.vel) b := by
          rcases h2 p List.mem_cons_self with hb | hb
          · rcases hmi with hm | hm
            · rw [hm]
              simp only [wallFriction, Bool.false_eq_true, if_false]
              rw [ho.beside p b _ hb]
            · exact ho.behind p s b _ _ (hm.2 p List.mem_cons_self)
          · exact ho.behind p s b _ _ hb
        simp only [Pi.sub_apply, mul_sub] at hp
        linarith
      · exact le_rfl
  exact (e1 _).trans (e2 _)

/-- **C50** Without `use_mibf` walls use their own friction coefficient: what the particles carried to the grid does
not matter. -/
theorem C50_own (gf gf' : ℕ → ℝ) :
    boundaryCollision ops false gf dt objs plates = boundaryCollision ops false gf' dt objs plates := rfl

/-- **C50** With `use_mibf` the coefficients of the walls do not matter, only the one of the grid node. -/
theorem C50_grid {plates' : List (Plate d)} {objs' : List (GenObject d)}
    (hin : ∀ (p : Plate d) f, ops.inside { p with friction := f } = ops.inside p)
    (hp : plates'.map (fun p => { p with friction := 0 }) = plates.map fun p => { p with friction := 0 })
    (ho : objs'.map (fun o => { o with friction := 0 }) = objs.map fun o => { o with friction := 0 }) (l : ℕ)
    {gf gf' : ℕ → ℝ} (hl : gf l = gf' l) :
    boundaryCollision ops true gf dt objs plates l = boundaryCollision ops true gf' dt objs' plates' l := by
  have e1 : ∀ (L : List (GenObject d)) X v, collideObjects (wallFriction true gf l) X L v =
      collideObjects (fun _ => gf l) X (L.map fun o => { o with friction := 0 }) v := by
    intro L X v
    simp only [collideObjects, List.foldl_map]
    rfl
  have e2 : ∀ (L : List (Plate d)) X v, collidePlates ops.inside ops.rel (wallFriction true gf l) X L v =
      collidePlates ops.inside ops.rel (fun _ => gf l) X (L.map fun p => { p with friction := 0 }) v := by
    intro L X v
    simp only [collidePlates, List.foldl_map]
    refine congrArg (fun f => List.foldl f v L) (funext fun v => funext fun p => ?_)
    have hq := congrFun (hin p 0) X
    by_cases hc : ops.inside p X
    · rw [if_pos hc, if_pos (hq ▸ hc)]; rfl
    · rw [if_neg hc, if_neg (hq ▸ hc)]
  funext X v
  simp only [boundaryCollision]
  rw [show wallFriction true gf' l = wallFriction true gf l from funext fun x => by simp [wallFriction, hl]]
  rw [e1, e2, e1 objs', e2 plates', hp, ho]

end walls

/-! ### whole runs -/

section run
variable {d : ℕ} {R : Setup (d + 2)} {i e : Bool} {fuel : ℕ} {s : LoopState (d + 2) (World (d + 2))}

/-- Plates after a step, and the step on the grid chosen. -/
lemma physStep_plates {dt t : ℝ} {g : Fin (d + 2) → ℝ} {n : ℕ} {w w' : World (d + 2)} {ex : Bool}
    (h : physStep R w dt g t n = some (w', ex)) :
    w'.plates = w.plates.map fun p => R.ops.move p dt R.C.frameDt t := by
  simp only [physStep, Option.bind_eq_bind, Option.bind_eq_some_iff] at h
  obtain ⟨bg, h1, h⟩ := h
  by_cases hm : R.S.P.useMibf = true ∧
      (if R.S.pbc = true then ghosts R.S.P.dx (R.S.L 0) 4 w.ps else []) ≠ []
  · rw [if_pos hm] at h
    exact absurd h (by simp)
  rw [if_neg hm] at h
  simp only [Option.bind_eq_bind, Option.bind_some, Option.bind_eq_some_iff] at h
  obtain ⟨arr, h2, qs, h3, h⟩ := h
  by_cases hu : R.S.useMusl = true
  · simp only [if_pos hu, Option.bind_eq_some_iff] at h
    obtain ⟨r, h4, qv, h5m, h⟩ := h
    obtain ⟨qs', h5, rfl⟩ := Option.map_eq_some_iff.mp h5m
    obtain ⟨rfl, -⟩ := Prod.mk.inj (Option.some.inj h)
    rfl
  · simp only [if_neg hu, Option.bind_some, Option.bind_eq_some_iff] at h
    obtain ⟨rfl, -⟩ := Prod.mk.inj (Option.some.inj h)
    rfl

/-- Gravity during a step is a fraction of the gravity set by the user. -/
lemma rampGravity_fraction {C : TimeConfig (d + 2)} {t : ℝ} {g G : Fin (d + 2) → ℝ} (ht : 0 ≤ t)
    (h : C.gravitySpecial = false → g = G) :
    ∃ f : ℝ, 0 ≤ f ∧ f ≤ 1 ∧ (C.gravitySpecial = false → f = 1) ∧ rampGravity C G g t = f • G := by
  unfold rampGravity
  cases hsp : C.gravitySpecial with
  | false => exact ⟨1, zero_le_one, le_rfl, fun _ => rfl, by simp [h hsp]⟩
  | true =>
    simp only [if_true]
    split_ifs with hlt
    · have hpos : 0 < C.gravityTime := lt_of_le_of_lt ht hlt
      refine ⟨1 / C.gravityTime * t, by positivity, ?_, fun h => (by cases h), by rw [smul_smul]⟩
      rw [one_div, inv_mul_le_iff₀ hpos]; linarith
    · exact ⟨1, zero_le_one, le_rfl, fun _ => rfl, by simp⟩

/-- **C69** Whole runs with walls. Along an axis `b` to which no wall is normal, frictionless walls do not matter: the
momentum is the initial one plus gravity. If the walls normal to `b` are one-sided and lie behind the material
(e.g. floors, `s = 1`), possibly with friction, and the others are frictionless, they only push: the momentum along
`s` is at least the initial one plus gravity. `c` is the effective time gravity acted. -/
theorem C69_run {deg : Deg} {dx fr m vol : ℝ} {mibf : Bool}
    (hS : R.S.P = mkTransferParams deg dx fr mibf m vol) (hd : deg ≠ .one) (hdx : 0 < dx) (hm : 0 < m)
    (hpbc : R.S.pbc = false) (hops : FairOps R.ops)
    (hsched : ∀ k ps, (R.sched k ps).flatten.Perm ps) (hmin : 0 ≤ R.C.minDt)
    (hn : ∀ s1 dt g w, StepOf R s s1 dt g w → NoTinyWeights deg dx w.g s1.w.ps) (b : Fin (d + 2))
    {n : ℕ} {t : ℝ} {w : World (d + 2)}
    (hev : .particles n t w ∈ filesOf (runProgram R i e fuel s)) (hnew : .particles n t w ∉ s.out) :
    ∃ c, 0 ≤ c ∧ c ≤ t ∧ (R.C.gravitySpecial = false → c = t) ∧
      (mibf = false → (∀ o ∈ R.objs, ObjectBeside b o) → (∀ p ∈ s.w.plates, PlateBeside b p) →
        momentum m w.ps b = momentum m s.w.ps b + c * (s.w.ps.length * m) * s.gravity b) ∧
      (∀ σ : ℝ, mibf = false → (∀ o ∈ R.objs, ObjectBehind σ b o) →
        (∀ p ∈ s.w.plates, PlateBeside b p ∨ PlateBehind σ b p) →
        σ * (momentum m s.w.ps b + c * (s.w.ps.length * m) * s.gravity b) ≤ σ * momentum m w.ps b) := by
  have hbeg : (begin R s).w.ps.length = s.w.ps.length ∧ (begin R s).w.plates = s.w.plates ∧
      momentum m (begin R s).w.ps = momentum m s.w.ps := by
    rw [begin_w]
    unfold fillMuI
    by_cases hmi : R.S.P.useMibf = true
    · rw [if_pos hmi]
      refine ⟨by simp, rfl, ?_⟩
      simp only [momentum, List.map_map]
      rfl
    · rw [if_neg hmi]
      exact ⟨rfl, rfl, rfl⟩
  let Inv : World (d + 2) → ℝ → ℕ → (Fin (d + 2) → ℝ) → Prop := fun w t _ g =>
    (R.C.gravitySpecial = false → g = s.gravity) ∧ w.ps.length = s.w.ps.length ∧ 0 ≤ t ∧
    ((∀ p ∈ s.w.plates, PlateBeside b p) → ∀ p ∈ w.plates, PlateBeside b p) ∧
    (∀ σ, (∀ p ∈ s.w.plates, PlateBeside b p ∨ PlateBehind σ b p) →
      ∀ p ∈ w.plates, PlateBeside b p ∨ PlateBehind σ b p) ∧
    ∃ c, 0 ≤ c ∧ c ≤ t ∧ (R.C.gravitySpecial = false → c = t) ∧
      (mibf = false → (∀ o ∈ R.objs, ObjectBeside b o) → (∀ p ∈ s.w.plates, PlateBeside b p) →
        momentum m w.ps b = momentum m s.w.ps b + c * (s.w.ps.length * m) * s.gravity b) ∧
      (∀ σ : ℝ, mibf = false → (∀ o ∈ R.objs, ObjectBehind σ b o) →
        (∀ p ∈ s.w.plates, PlateBeside b p ∨ PlateBehind σ b p) →
        σ * (momentum m s.w.ps b + c * (s.w.ps.length * m) * s.gravity b) ≤ σ * momentum m w.ps b)
  have h0 : Inv (begin R s).w 0 s.step s.gravity :=
    ⟨fun _ => rfl, hbeg.1, le_rfl, fun h => by rw [hbeg.2.1]; exact h, fun σ h => by rw [hbeg.2.1]; exact h,
      0, le_rfl, le_rfl, fun _ => rfl, fun _ _ _ => by rw [hbeg.2.2]; simp, fun σ _ _ _ => by rw [hbeg.2.2]; simp⟩
  have hPdx : R.S.P.dx = dx := by rw [hS]; rfl
  have hmib : R.S.P.useMibf = mibf := by rw [hS]; rfl
  have hstep : ∀ s1 dt g w, StepOf R s s1 dt g w → Inv s1.w s1.time s1.step s1.gravity →
      Inv w (s1.time + dt) (s1.step + 1) g := by
    rintro s1 dt g w hst ⟨i2, i3, i4, i6, i7, c, c0, ct, cs, i5, i8⟩
    have hgood := physStep_goodGrid hpbc (by rw [hPdx]; exact hdx) (by rw [hS]; rfl) hst.phys
    rw [hPdx] at hgood
    obtain ⟨hdt, hg⟩ := hst.dt_ge
    have hdt0 : 0 ≤ dt := hmin.trans hdt
    obtain ⟨fr', ha⟩ := physStep_advance hst.phys
    have hplates := physStep_plates hst.phys
    simp only [advanceStep, hpbc, Bool.false_eq_true, if_false, List.append_nil, Option.bind_eq_bind,
      Option.bind_eq_some_iff] at ha
    obtain ⟨bg, hbg, qs, hqs, hσ⟩ := ha
    injection hσ with hσ
    injection hσ with hps _ hgg _
    obtain ⟨qs', u, h1, h2, -, h3⟩ := C69_step (S := R.S) (dt := dt) (grav := g)
      (bc := boundaryCollision R.ops R.S.P.useMibf fr' dt R.objs s1.w.plates)
      (plast := plastTotal R dt) (threads := R.sched s1.step s1.w.ps) hS hd hm
      hgood (hn _ _ _ _ hst) (hsched _ _) (plastTotal_keeps R dt)
    rw [← hgg, hqs] at h1
    have hw : w.ps = qs' := by rw [← hps]; exact Option.some.inj h1
    obtain ⟨f, f0, f1, fs, hf⟩ := rampGravity_fraction (C := R.C) i4 i2
    rw [← hg] at hf
    have hfd := mul_le_mul_of_nonneg_right f1 hdt0
    have hMnn : ∀ X, 0 ≤ massAt deg dx m s1.w.ps X := fun X => by
      refine mul_nonneg hm.le (List.sum_nonneg ?_)
      simp only [List.mem_map, List.mem_filter]
      rintro _ ⟨p, ⟨-, hp⟩, rfl⟩
      exact le_trans (by positivity) (of_decide_eq_true hp).le
    have hkeep : ∀ p, PlateBeside b p → PlateBeside b (R.ops.move p dt R.C.frameDt s1.time) := by
      intro p ⟨a1, a2, a3⟩
      obtain ⟨b1, b2, b3⟩ := hops.move p dt R.C.frameDt s1.time
      exact ⟨by rw [b2]; exact a1, by rw [b3]; exact a2, by rw [b1]; exact a3⟩
    have hkeep' : ∀ σ p, PlateBehind σ b p → PlateBehind σ b (R.ops.move p dt R.C.frameDt s1.time) := by
      intro σ p ⟨a1, a2, a3⟩
      obtain ⟨b1, b2, b3⟩ := hops.move p dt R.C.frameDt s1.time
      exact ⟨by rw [b2]; exact a1, by rw [b1]; exact a2, by rw [b1]; exact a3⟩
    have h3b := congrFun h3 b
    simp only [Pi.add_apply, Finset.sum_apply, Pi.smul_apply, Pi.sub_apply, smul_eq_mul] at h3b
    refine ⟨fun hsp => by rw [hf, fs hsp, one_smul], by rw [hw]; exact h2.trans i3, by linarith, ?_, ?_, c + f * dt,
      by positivity, by linarith, fun hsp => by rw [fs hsp, cs hsp, one_mul], ?_, ?_⟩
    · intro h p hp
      rw [hplates, List.mem_map] at hp
      obtain ⟨q, hq, rfl⟩ := hp
      exact hkeep q (i6 h q hq)
    · intro σ h p hp
      rw [hplates, List.mem_map] at hp
      obtain ⟨q, hq, rfl⟩ := hp
      exact (i7 σ h q hq).imp (hkeep q) (hkeep' σ q)
    · intro hmi ho hp
      rw [hw, h3b, Finset.sum_eq_zero, i5 hmi ho hp, i3, hf]
      · simp only [Pi.smul_apply, smul_eq_mul]; ring
      · intro j _
        rw [hmib, hmi, collision_beside hops ho (i6 hp), sub_self, mul_zero]
    · intro σ hmi ho hp
      have hsum : 0 ≤ σ * ∑ i ∈ gridIndices w.g, massAt deg dx m s1.w.ps (nodeAt w.g i) *
          (boundaryCollision R.ops R.S.P.useMibf fr' dt R.objs s1.w.plates (flatIndex w.g.size i) (nodeAt w.g i) (u i) b
            - u i b) := by
        rw [Finset.mul_sum]
        refine Finset.sum_nonneg fun j _ => ?_
        have hb := collision_behind (gf := fr') (dt := dt) hops (Or.inl (hmib.trans hmi)) ho (i7 σ hp)
          (flatIndex w.g.size j) (nodeAt w.g j) (u j)
        have := mul_nonneg (hMnn (nodeAt w.g j)) (sub_nonneg.mpr hb)
        nlinarith [this]
      have h8 := i8 σ hmi ho hp
      rw [hw, h3b, i3, hf]
      simp only [Pi.smul_apply, smul_eq_mul]
      rw [hgg] at *
      nlinarith [hsum, h8]
  rcases run_particles hev hnew with ⟨rfl, rfl, rfl⟩ | ⟨s1, dt, g, hst, rfl⟩
  · obtain ⟨-, -, -, -, -, h⟩ := h0
    exact h
  · obtain ⟨-, -, -, -, -, h⟩ := (run_inv (Inv := Inv) h0 hstep hst).2
    exact h

end run
end Verif.Props
