import Verif.Props.Spin
import Verif.Props.Bounds

set_option linter.unusedSectionVars false
set_option linter.unusedSimpArgs false
set_option linter.unusedVariables false

/-!
# C86: energy balance of a step and of a run
-/

namespace Verif.Props
open Verif Matrix

section step
variable {K : Type*} [Field K] [LinearOrder K] [IsStrictOrderedRing K] [FloorRing K] {d : ℕ}

/-- `A : B`, the sum of the products of the entries. -/
def ddot (A B : Matrix (Fin d) (Fin d) K) : K := ∑ a, ∑ b, A a b * B a b

/-- Kinetic energy of particles of mass `m` that carry the velocity `v` and the velocity gradient `κ B`: the affine
motion contributes `κ |B|²` for each unit of mass. Without affine motion (`κ = 0`) this is `∑ m v² / 2`. -/
def motionEnergy (m κ : K) (ps : List (Particle d K)) : K :=
  (ps.map fun p => m / 2 * (p.v ⬝ᵥ p.v + κ * ddot p.Bmat p.Bmat)).sum

lemma ddot_self_nonneg (A : Matrix (Fin d) (Fin d) K) : 0 ≤ ddot A A :=
  Finset.sum_nonneg fun a _ => Finset.sum_nonneg fun b _ => mul_self_nonneg _

/-- One component: projecting nodal values on affine functions does not increase the weighted square sum. -/
lemma affine_scalar {ι : Type*} [Fintype ι] {w y : ι → K} {r : ι → Fin d → K} {D lam : K} (hw : ∀ c, 0 ≤ w c)
    (h1 : ∑ c, w c = 1) (h2 : ∀ b, ∑ c, w c * r c b = 0)
    (h3 : ∀ a b, ∑ c, w c * r c a * r c b = if a = b then D else 0) (hD : lam * D = 1) :
    (∑ c, w c * y c) ^ 2 + lam * ∑ b, (∑ c, w c * (y c * r c b)) ^ 2 ≤ ∑ c, w c * y c ^ 2 := by
  set α := ∑ c, w c * y c with hα
  set β : Fin d → K := fun b => ∑ c, w c * (y c * r c b) with hβ
  set z : ι → K := fun c => α + lam * ∑ b, β b * r c b with hz
  have e3 : ∀ q : ι → K, ∑ c, w c * (q c * z c) = α * (∑ c, w c * q c) + lam * ∑ b, β b * ∑ c, w c * (q c * r c b) := by
    intro q
    have e : ∀ c, w c * (q c * z c) = α * (w c * q c) + lam * ∑ b, β b * (w c * (q c * r c b)) := by
      intro c
      have : ∑ b, β b * (w c * (q c * r c b)) = w c * q c * ∑ b, β b * r c b := by
        rw [Finset.mul_sum]
        exact Finset.sum_congr rfl fun _ _ => by ring
      rw [this]
      simp only [hz]
      ring
    rw [Finset.sum_congr rfl fun c _ => e c, Finset.sum_add_distrib, ← Finset.mul_sum, ← Finset.mul_sum,
      Finset.sum_comm]
    simp only [← Finset.mul_sum]
  have e1 : ∑ c, w c * z c = α := by
    have := e3 fun _ => 1
    simp only [one_mul, mul_one, h1, h2, mul_zero, Finset.sum_const_zero, add_zero] at this
    exact this
  have e2 : ∀ b, ∑ c, w c * (z c * r c b) = β b := by
    intro b
    have := e3 fun c => r c b
    have h3' : ∀ a, ∑ c, w c * (r c b * r c a) = if b = a then D else 0 := fun a => by
      rw [← h3]
      exact Finset.sum_congr rfl fun _ _ => by ring
    simp only [h2, h3', mul_zero, zero_add, mul_ite, Finset.sum_ite_eq, Finset.mem_univ, if_true] at this
    rw [Finset.sum_congr rfl fun c _ => show w c * (z c * r c b) = w c * (r c b * z c) by ring, this]
    linear_combination β b * hD
  have key : 0 ≤ ∑ c, w c * (y c - z c) ^ 2 := Finset.sum_nonneg fun c _ => mul_nonneg (hw c) (sq_nonneg _)
  have e4 : ∑ c, w c * (y c - z c) ^ 2 = ∑ c, w c * y c ^ 2 - 2 * ∑ c, w c * (y c * z c) + ∑ c, w c * (z c * z c) := by
    rw [Finset.mul_sum, ← Finset.sum_sub_distrib, ← Finset.sum_add_distrib]
    exact Finset.sum_congr rfl fun _ _ => by ring
  rw [e4, e3, e3, e1] at key
  simp only [e2] at key
  have e5 : ∑ b, β b * ∑ c, w c * (y c * r c b) = ∑ b, β b ^ 2 := Finset.sum_congr rfl fun _ _ => by rw [sq]
  rw [e5, ← hα] at key
  linarith

/-- The velocity and affine matrix of a particle have at most the energy of the nodes seen by it. -/
lemma interp_energy {n : Fin d → ℕ} {x : Fin d → K} {s : Stencil d K} {D lam : K} (hok : StencilOK n x s)
    (hg : StencilGradOK D x s) (hD : lam * D = 1) (v : ℕ → Fin d → K) :
    interpV n v s ⬝ᵥ interpV n v s + lam * ddot (interpB n v s x) (interpB n v s x) ≤
      ∑ c, s.weight c * (v (flatIndex n (s.node c)) ⬝ᵥ v (flatIndex n (s.node c))) := by
  have h := fun a => affine_scalar (d := d) (w := fun c => s.weight c) (y := fun c => v (flatIndex n (s.node c)) a)
    (r := fun c => s.nodePos c - x) (D := D) (lam := lam) (fun c => hok.weight_nonneg c) hok.sum_weight
    (fun b => by simpa using hok.sum_weight_pos b) (fun a b => by simpa using hok.sum_weight_pos_pos hg a b) hD
  have hs := Finset.sum_le_sum fun a (_ : a ∈ Finset.univ) => h a
  rw [Finset.sum_add_distrib, ← Finset.mul_sum] at hs
  refine le_trans (le_of_eq ?_) (hs.trans (le_of_eq ?_))
  · rw [interpV_eq, interpB_eq]
    congr 1
    · simp only [dotProduct, Finset.sum_apply, Pi.smul_apply, smul_eq_mul, sq]
    · congr 1
      simp only [ddot, Matrix.sum_apply, Matrix.smul_apply, vecMulVec_apply, smul_eq_mul, sq]
  · rw [Finset.sum_comm]
    refine Finset.sum_congr rfl fun c _ => ?_
    simp only [dotProduct, Finset.mul_sum, sq]

variable {deg : Deg} {dx fr m vol : K} {mibf : Bool} {P : TransferParams K} {g : Axes d K} {ps : List (Particle d K)}

/-- Dot product with a fixed vector. -/
def dotHom (a : Fin d → K) : (Fin d → K) →+ K where
  toFun v := v ⬝ᵥ a
  map_zero' := zero_dotProduct a
  map_add' u v := add_dotProduct u v a

/-- The transfer to the grid is the adjoint of the transfer to the particles. -/
lemma p2g_adjoint (h : GoodGrid dx g ps) (hn : NoTinyWeights deg dx g ps) (a : ℕ → Fin d → K) :
    ∑ l ∈ Finset.range (gridNodes g.size), (raw P deg dx g ps l).v ⬝ᵥ a l =
      (ps.map fun p => p.v ⬝ᵥ interpV g.size a (stencilOf deg dx g p.x) +
        (if P.flipRatio < 0 then P.apicDinverse else 0) *
          ddot p.Bmat (interpB g.size a (stencilOf deg dx g p.x) p.x)).sum := by
  have := sum_raw_of_zero (P := P) h hn (fun l => (dotHom (a l)).comp Cell.vHom) (fun p hp c hc l => by
    show (contribution P p (stencilOf deg dx g p.x) c).v ⬝ᵥ _ = 0
    simp only [contribution, hc, mul_zero, zero_smul, ite_self, add_zero, zero_dotProduct])
  refine this.trans ?_
  congr 1
  refine List.map_congr_left fun p hp => ?_
  set s := stencilOf deg dx g p.x with hs
  rw [interpV_eq, interpB_eq]
  have e : ∀ c, ((dotHom (a (flatIndex g.size (s.node c)))).comp Cell.vHom) (contribution P p s c) =
      p.v ⬝ᵥ (s.weight c • a (flatIndex g.size (s.node c))) + (if P.flipRatio < 0 then P.apicDinverse else 0) *
        ddot p.Bmat (s.weight c • vecMulVec (a (flatIndex g.size (s.node c))) (s.nodePos c - p.x)) := by
    intro c
    show (contribution P p s c).v ⬝ᵥ _ = _
    simp only [contribution, add_dotProduct, smul_dotProduct, dotProduct_smul]
    congr 1
    split_ifs
    · rw [smul_dotProduct]
      simp only [smul_eq_mul, ddot, Matrix.smul_apply, vecMulVec_apply, dotProduct, mulVec,
        Finset.mul_sum, Finset.sum_mul]
      exact Finset.sum_congr rfl fun _ _ => Finset.sum_congr rfl fun _ _ => by ring
    · simp
  simp only [e, Finset.sum_add_distrib, dotProduct_sum, ← Finset.mul_sum]
  congr 2
  simp only [ddot, Matrix.sum_apply, Finset.mul_sum]
  rw [Finset.sum_comm]
  refine Finset.sum_congr rfl fun _ _ => ?_
  rw [Finset.sum_comm]

/-- The power of the internal forces on the grid is the power of the stresses. -/
lemma force_adjoint (hd : deg ≠ .one) (h : GoodGrid dx g ps) (hn : NoTinyWeights deg dx g ps) (a : ℕ → Fin d → K) :
    ∑ l ∈ Finset.range (gridNodes g.size), (raw P deg dx g ps l).force ⬝ᵥ a l =
      (ps.map fun p => ddot p.tau (interpGrad g.size a (stencilOf deg dx g p.x))).sum := by
  have := sum_raw_noTiny (P := P) hd h hn (fun l => (dotHom (a l)).comp Cell.forceHom)
  refine this.trans ?_
  congr 1
  refine List.map_congr_left fun p hp => ?_
  set s := stencilOf deg dx g p.x with hs
  rw [interpGrad_eq]
  simp only [ddot, Matrix.sum_apply, Finset.mul_sum]
  have e : ∀ c, ((dotHom (a (flatIndex g.size (s.node c)))).comp Cell.forceHom) (contribution P p s c) =
      ∑ x, ∑ y, p.tau x y * vecMulVec (a (flatIndex g.size (s.node c))) (s.weightGrad c) x y := by
    intro c
    show (p.tau *ᵥ s.weightGrad c) ⬝ᵥ _ = _
    simp only [dotProduct, mulVec, vecMulVec_apply, Finset.sum_mul]
    exact Finset.sum_congr rfl fun _ _ => Finset.sum_congr rfl fun _ _ => by ring
  simp only [e]
  rw [Finset.sum_comm]
  refine Finset.sum_congr rfl fun _ _ => ?_
  rw [Finset.sum_comm]

/-- The inverse of the second moment of the shape functions: what turns an affine matrix into a velocity gradient.
Zero if the affine matrices are not used (`flip_ratio >= 0`). -/
def affineFactor (deg : Deg) (dx fr : K) : K :=
  if fr < 0 then
    match deg with
    | .one => 0
    | .two => 4 / dx ^ 2
    | .three => 3 / dx ^ 2
  else 0

lemma affineFactor_eq (hd : deg ≠ .one) : affineFactor deg dx fr =
    if fr < 0 then (mkTransferParams deg dx fr mibf m vol).apicDinverse else 0 := by
  unfold affineFactor
  split_ifs
  · cases deg with
    | one => exact absurd rfl hd
    | two => simp only [mkTransferParams]; field_simp
    | three => simp only [mkTransferParams]; field_simp
  · rfl

lemma dot_self_nonneg' (v : Fin d → K) : 0 ≤ v ⬝ᵥ v := Finset.sum_nonneg fun _ _ => mul_self_nonneg _

lemma two_dot_le (u v : Fin d → K) : 2 * (u ⬝ᵥ v) ≤ u ⬝ᵥ u + v ⬝ᵥ v := by
  have := dot_self_nonneg' (u - v)
  simp only [sub_dotProduct, dotProduct_sub] at this
  rw [dotProduct_comm v u] at this
  linarith

lemma two_ddot_le (A B : Matrix (Fin d) (Fin d) K) : 2 * ddot A B ≤ ddot A A + ddot B B := by
  simp only [ddot, Finset.mul_sum, ← Finset.sum_add_distrib]
  refine Finset.sum_le_sum fun a _ => Finset.sum_le_sum fun b _ => ?_
  nlinarith [sq_nonneg (A a b - B a b)]

lemma map_sum_mul {α : Type*} (L : List α) (c : K) (f : α → K) : (L.map fun a => c * f a).sum = c * (L.map f).sum := by
  rw [List.sum_map_mul_left]

end step

section step
variable {K : Type*} [Field K] [LinearOrder K] [IsStrictOrderedRing K] [FloorRing K] {d : ℕ}
variable {deg : Deg} {dx fr m vol : K} {mibf : Bool} {g : Axes (d + 2) K} {S : StepParams (d + 2) K}
  {ps : List (Particle (d + 2) K)} {dt : K} {grav : Fin (d + 2) → K}
  {bc : ℕ → (Fin (d + 2) → K) → (Fin (d + 2) → K) → (Fin (d + 2) → K)}
  {plast : Particle (d + 2) K → Particle (d + 2) K} {threads : List (List (Particle (d + 2) K))}

/-- The balance with the nodal velocities spelled out. -/
lemma energy_step (hS : S.P = mkTransferParams deg dx fr mibf m vol) (hd : deg ≠ .one) (hm : 0 < m)
    (hfr : fr < -1 ∨ 0 ≤ fr ∧ fr ≤ 1) (hpbc : S.pbc = false) (hcp : S.changePos = false)
    (h : GoodGrid dx g ps) (hn : NoTinyWeights deg dx g ps) (ht : threads.flatten.Perm ps)
    (hk : KeepsMotion plast) :
    let v : (Fin (d + 2) → ℕ) → Fin (d + 2) → K := fun i => beforeWalls S deg dx dt grav g ps (flatIndex g.size i)
    let v' : (Fin (d + 2) → ℕ) → Fin (d + 2) → K := fun i => (stepEuler S deg dx dt grav bc g ps).v (flatIndex g.size i)
    let L : Particle (d + 2) K → Matrix (Fin (d + 2)) (Fin (d + 2)) K := fun p =>
      ∑ i ∈ gridIndices g, vecMulVec (v' i) (shapeGrad deg dx (nodeAt g i) p.x)
    ∃ F : Particle (d + 2) K → Particle (d + 2) K,
      stepOnGrid S dt grav bc plast g [] threads ps = some (ps.map F) ∧
      (∀ i, IsNode g i → massAt deg dx m ps (nodeAt g i) • v i =
        freeMomentum deg dx fr (affineFactor deg dx fr) m vol dt grav ps (nodeAt g i)) ∧
      (∀ i, IsNode g i → 0 < massAt deg dx m ps (nodeAt g i) →
        v' i = bc (flatIndex g.size i) (nodeAt g i) (v i)) ∧
      (∀ p ∈ ps, (F p).x = p.x + dt • ∑ i ∈ gridIndices g, shape deg dx (nodeAt g i) p.x • v' i) ∧
      (S.useMusl = false → ∀ p ∈ ps, ∃ r : Particle (d + 2) K, r.F = (1 + dt • L p) * p.F ∧
        (F p).F = (plast r).F ∧ (F p).tau = (plast r).tau) ∧
      motionEnergy m (affineFactor deg dx fr) (ps.map F) ≤ motionEnergy m (affineFactor deg dx fr) ps +
        (ps.map fun p => m * (grav ⬝ᵥ ((F p).x - p.x))).sum - dt * vol * (ps.map fun p => ddot p.tau (L p)).sum +
        ∑ i ∈ gridIndices g, massAt deg dx m ps (nodeAt g i) * ((v' i - v i) ⬝ᵥ v' i) := by
  have hP : S.P.deg = deg := by rw [hS]; rfl
  have hP1 : S.P.oneOverDx = 1 / dx := by rw [hS]; rfl
  have hPm : S.P.particleMass = m := by rw [hS]; rfl
  have hPvol : S.P.particleVolume = vol := by rw [hS]; rfl
  have hPv : S.P.flipRatio = fr := by rw [hS]; rfl
  have hκ : affineFactor deg dx fr = if S.P.flipRatio < 0 then S.P.apicDinverse else 0 := by
    rw [affineFactor_eq (mibf := mibf) (m := m) (vol := vol) hd, hPv, ← hS]
  intro v0 v0' L0
  obtain ⟨F, hF, hF2⟩ := stepOnGrid_eq (S := S) (dt := dt) (grav := grav) (bc := bc) hP hP1 h ht hk
  set e := stepEuler S deg dx dt grav bc g ps with he
  set arr := p2gFinish S.P (raw S.P deg dx g ps) with harr
  set v : (Fin (d + 2) → ℕ) → Fin (d + 2) → K := fun i => beforeWalls S deg dx dt grav g ps (flatIndex g.size i)
    with hv
  set v' : (Fin (d + 2) → ℕ) → Fin (d + 2) → K := fun i => e.v (flatIndex g.size i) with hv'
  have hV : ∀ p ∈ ps, interpV g.size e.v (stencilOf deg dx g p.x) =
      ∑ i ∈ gridIndices g, shape deg dx (nodeAt g i) p.x • v' i := by
    intro p hp
    have hg := h.good (deg := deg) hp
    rw [interpV_eq, ← hg.sum_nodes (fun i => shape deg dx (nodeAt g i) p.x • v' i) fun i _ h0 => by
      simp only [h0, zero_smul]]
    exact Finset.sum_congr rfl fun c _ => by simp only [hv', hg.weight c, hg.pos c]
  have hG : ∀ p ∈ ps, interpGrad g.size e.v (stencilOf deg dx g p.x) =
      ∑ i ∈ gridIndices g, vecMulVec (v' i) (shapeGrad deg dx (nodeAt g i) p.x) := by
    intro p hp
    have hg := h.good (deg := deg) hp
    rw [interpGrad_eq, ← hg.sum_nodes (fun i => vecMulVec (v' i) (shapeGrad deg dx (nodeAt g i) p.x))
      fun i _ h0 => by simp only [shapeGrad_eq_zero h0, vecMulVec_zero]]
    exact Finset.sum_congr rfl fun c _ => by simp only [hv', hg.wgrad c, hg.pos c]
  have hx : ∀ p ∈ ps, (F p).x = p.x + dt • interpV g.size e.v (stencilOf deg dx g p.x) := by
    intro p hp
    obtain ⟨-, -, -, h4, -⟩ := hF2 p hp
    rw [h4]
    simp only [positionParticle, hpbc, hcp, Bool.false_eq_true, if_false, g2pTransfer, he]
  have hM : ∀ i, IsNode g i → (arr (flatIndex g.size i)).mass = massAt deg dx m ps (nodeAt g i) := fun i hi =>
    (node_values (dt := dt) (grav := grav) hS hm h hi).1
  have hwall : ∀ i, IsNode g i → 0 < massAt deg dx m ps (nodeAt g i) →
      v' i = bc (flatIndex g.size i) (nodeAt g i) (v i) := by
    intro i hi hpos
    have hat := (eulerUpdate_at S.P dt grav bc g arr (i := i) hi).1
    rw [if_pos (by rw [hM i hi]; exact hpos)] at hat
    exact hat
  refine ⟨F, hF, ?_, hwall, ?_, ?_, ?_⟩
  · intro i hi
    rw [(node_values (dt := dt) (grav := grav) hS hm h hi).2]
    simp only [freeMomentum, hκ, hPv]
    split_ifs <;> rfl
  · intro p hp
    rw [hx p hp, hV p hp]
  · intro hu p hp
    obtain ⟨-, -, -, -, r, h1, h2, -, h4, -⟩ := hF2 p hp
    refine ⟨r, ?_, h1, h2⟩
    rw [h4, trialF, gradVel, hu]
    simp only [Bool.false_eq_true, if_false]
    rw [← he, hG p hp, Matrix.add_mul, Matrix.one_mul, Matrix.smul_mul]
  -- the energy
  set I := Finset.range (gridNodes g.size) with hI
  have hmass0 : ∀ l, 0 ≤ (arr l).mass := fun l =>
    mul_nonneg (raw_mass_nonneg (P := S.P) (deg := deg) (dx := dx) (g := g) (ps := ps) l) (by rw [hPm]; exact hm.le)
  have hrawM : ∀ l, (arr l).mass = (raw S.P deg dx g ps l).mass * m := fun l => by rw [harr, finish_mass, hPm]
  set κ := affineFactor deg dx fr with hκd
  set iV : (ℕ → Fin (d + 2) → K) → Particle (d + 2) K → Fin (d + 2) → K := fun a p =>
    interpV g.size a (stencilOf deg dx g p.x) with hiV
  set iB : (ℕ → Fin (d + 2) → K) → Particle (d + 2) K → Matrix (Fin (d + 2)) (Fin (d + 2)) K := fun a p =>
    interpB g.size a (stencilOf deg dx g p.x) p.x with hiB
  have hκ0 : 0 ≤ κ := by
    rw [hκd]; unfold affineFactor
    split_ifs
    · cases deg <;> positivity
    · exact le_rfl
  -- (1)
  have q1 : ∀ a : ℕ → Fin (d + 2) → K, ∑ l ∈ I, (arr l).mass * ((arr l).v ⬝ᵥ a l) =
      m * (ps.map fun p => p.v ⬝ᵥ iV a p + κ * ddot p.Bmat (iB a p)).sum := by
    intro a
    rw [hκ, ← p2g_adjoint (P := S.P) h hn a, Finset.mul_sum]
    refine Finset.sum_congr rfl fun l _ => ?_
    rw [← smul_eq_mul, ← smul_dotProduct, finish_momentum, smul_dotProduct, hPm, smul_eq_mul]
  -- (2)
  have q2 : ∀ a : ℕ → Fin (d + 2) → K, m * (ps.map fun p => iV a p ⬝ᵥ iV a p + κ * ddot (iB a p) (iB a p)).sum ≤
      ∑ l ∈ I, (arr l).mass * (a l ⬝ᵥ a l) := by
    intro a
    have hsum := sum_interp (P := S.P) h hn (fun l => a l ⬝ᵥ a l)
    have : ∑ l ∈ I, (arr l).mass * (a l ⬝ᵥ a l) =
        m * ∑ l ∈ I, (raw S.P deg dx g ps l).mass • (a l ⬝ᵥ a l) := by
      rw [Finset.mul_sum]
      exact Finset.sum_congr rfl fun l _ => by rw [hrawM, smul_eq_mul]; ring
    rw [this, ← hsum]
    refine mul_le_mul_of_nonneg_left (list_sum_le fun p hp => ?_) hm.le
    obtain ⟨D, hD, hDi⟩ := apic_D (fr := fr) (m := m) (vol := vol) (mibf := mibf) hd h p hp
    have := interp_energy (h.good (deg := deg) hp).ok hD hDi a
    simp only [smul_eq_mul]
    refine le_trans ?_ this
    have hle : κ ≤ (mkTransferParams deg dx fr mibf m vol).apicDinverse := by
      have hpos : 0 ≤ (mkTransferParams deg dx fr mibf m vol).apicDinverse := by
        have := h.dx_pos
        cases deg <;> simp only [mkTransferParams] <;> positivity
      rw [hκd, affineFactor_eq (mibf := mibf) (m := m) (vol := vol) hd]
      split_ifs
      · exact le_rfl
      · exact hpos
    have := mul_le_mul_of_nonneg_right hle (ddot_self_nonneg (iB a p))
    simp only [hiV, hiB] at this ⊢
    linarith
  -- (3)
  have q3 : ∑ l ∈ I, (arr l).mass * ((arr l).v ⬝ᵥ (arr l).v) ≤ 2 * motionEnergy m κ ps := by
    have a1 := q1 fun l => (arr l).v
    have a2 := q2 fun l => (arr l).v
    have a3 : 2 * (ps.map fun p => p.v ⬝ᵥ iV (fun l => (arr l).v) p +
        κ * ddot p.Bmat (iB (fun l => (arr l).v) p)).sum ≤
        (ps.map fun p => p.v ⬝ᵥ p.v + κ * ddot p.Bmat p.Bmat).sum +
        (ps.map fun p => iV (fun l => (arr l).v) p ⬝ᵥ iV (fun l => (arr l).v) p +
          κ * ddot (iB (fun l => (arr l).v) p) (iB (fun l => (arr l).v) p)).sum := by
      rw [← map_sum_mul, ← sum_map_add']
      refine list_sum_le fun p _ => ?_
      have b1 := two_dot_le p.v (iV (fun l => (arr l).v) p)
      have b2 := mul_le_mul_of_nonneg_left (two_ddot_le p.Bmat (iB (fun l => (arr l).v) p)) hκ0
      linarith
    have a4 : motionEnergy m κ ps = m / 2 * (ps.map fun p => p.v ⬝ᵥ p.v + κ * ddot p.Bmat p.Bmat).sum := by
      rw [motionEnergy, map_sum_mul]
    have a5 := mul_le_mul_of_nonneg_left a3 hm.le
    rw [a4]
    linarith
  -- nodes
  have hn1 : ∀ i, IsNode g i → (arr (flatIndex g.size i)).mass • v' i =
      (arr (flatIndex g.size i)).mass • (arr (flatIndex g.size i)).v -
      (dt * vol) • (raw S.P deg dx g ps (flatIndex g.size i)).force + (dt * (arr (flatIndex g.size i)).mass) • grav +
      (arr (flatIndex g.size i)).mass • (v' i - v i) ∧
      (arr (flatIndex g.size i)).mass • e.flip (flatIndex g.size i) =
        (arr (flatIndex g.size i)).mass • v' i - (arr (flatIndex g.size i)).mass • (arr (flatIndex g.size i)).v := by
    intro i hi
    obtain ⟨w1, w2, w3⟩ := euler_node_wall (P := S.P) (deg := deg) (dx := dx) (dt := dt) (grav := grav) (bc := bc)
      (ps := ps) (by rw [hPm]; exact hm) hi
    rw [← finish_momentum, hPvol] at w1 w3
    rw [hPvol] at w2
    have e1 : (arr (flatIndex g.size i)).mass • (bc (flatIndex g.size i) (nodeAt g i) (v i) - v i) =
        (arr (flatIndex g.size i)).mass • (v' i - v i) := by
      rcases (hmass0 (flatIndex g.size i)).lt_or_eq with hpos | h0
      · rw [hwall i hi (by rw [← hM i hi]; exact hpos)]
      · rw [← h0, zero_smul, zero_smul]
    constructor
    · rw [← e1]; exact w1
    · refine w2.trans ?_
      refine Eq.trans ?_ (congrArg (fun y => y - _) w1.symm)
      abel
  have q4 : ∑ l ∈ I, (arr l).mass * (e.v l ⬝ᵥ e.v l) = ∑ l ∈ I, (arr l).mass * ((arr l).v ⬝ᵥ e.v l) +
      ((ps.map fun p => m * (grav ⬝ᵥ ((F p).x - p.x))).sum - dt * vol * (ps.map fun p => ddot p.tau
        (∑ i ∈ gridIndices g, vecMulVec (v' i) (shapeGrad deg dx (nodeAt g i) p.x))).sum +
        ∑ i ∈ gridIndices g, massAt deg dx m ps (nodeAt g i) * ((v' i - v i) ⬝ᵥ v' i)) := by
    have f1 : (ps.map fun p => ddot p.tau
        (∑ i ∈ gridIndices g, vecMulVec (v' i) (shapeGrad deg dx (nodeAt g i) p.x))).sum =
        ∑ i ∈ gridIndices g, (raw S.P deg dx g ps (flatIndex g.size i)).force ⬝ᵥ e.v (flatIndex g.size i) := by
      rw [sum_gridIndices g fun l => (raw S.P deg dx g ps l).force ⬝ᵥ e.v l, force_adjoint hd h hn]
      congr 1
      exact List.map_congr_left fun p hp => by rw [hG p hp]
    have f2 : (ps.map fun p => m * (grav ⬝ᵥ ((F p).x - p.x))).sum =
        ∑ i ∈ gridIndices g, dt * ((arr (flatIndex g.size i)).mass * (grav ⬝ᵥ e.v (flatIndex g.size i))) := by
      rw [sum_gridIndices g fun l => dt * ((arr l).mass * (grav ⬝ᵥ e.v l))]
      have hsum := sum_interp (P := S.P) h hn (fun l => grav ⬝ᵥ e.v l)
      have : ∑ l ∈ I, dt * ((arr l).mass * (grav ⬝ᵥ e.v l)) =
          dt * m * ∑ l ∈ I, (raw S.P deg dx g ps l).mass • (grav ⬝ᵥ e.v l) := by
        rw [Finset.mul_sum]
        exact Finset.sum_congr rfl fun l _ => by rw [hrawM, smul_eq_mul]; ring
      rw [this, ← hsum, ← map_sum_mul]
      congr 1
      refine List.map_congr_left fun p hp => ?_
      rw [hx p hp, add_sub_cancel_left, dotProduct_smul, interpV_eq, dotProduct_sum]
      simp only [dotProduct_smul, smul_eq_mul]
      ring
    rw [← sum_gridIndices g fun l => (arr l).mass * (e.v l ⬝ᵥ e.v l),
      ← sum_gridIndices g fun l => (arr l).mass * ((arr l).v ⬝ᵥ e.v l), f1, f2, Finset.mul_sum,
      ← Finset.sum_sub_distrib, ← Finset.sum_add_distrib, ← Finset.sum_add_distrib]
    refine Finset.sum_congr rfl fun i hi => ?_
    have hin := mem_gridIndices.mp hi
    have := congrArg (fun y => y ⬝ᵥ v' i) (hn1 i hin).1
    simp only [add_dotProduct, smul_dotProduct, smul_eq_mul, sub_dotProduct, neg_dotProduct] at this
    rw [← hM i hin, sub_dotProduct]
    change (arr _).mass * (v' i ⬝ᵥ v' i) = (arr _).mass * ((arr _).v ⬝ᵥ v' i) +
      (dt * ((arr _).mass * (grav ⬝ᵥ v' i)) - dt * vol * ((raw S.P deg dx g ps _).force ⬝ᵥ v' i) + _)
    rw [this]; ring
  set W := (ps.map fun p => m * (grav ⬝ᵥ ((F p).x - p.x))).sum - dt * vol * (ps.map fun p => ddot p.tau
        (∑ i ∈ gridIndices g, vecMulVec (v' i) (shapeGrad deg dx (nodeAt g i) p.x))).sum +
        ∑ i ∈ gridIndices g, massAt deg dx m ps (nodeAt g i) * ((v' i - v i) ⬝ᵥ v' i) with hW
  have q5 : ∑ l ∈ I, (arr l).mass * (e.v l ⬝ᵥ e.v l) ≤ ∑ l ∈ I, (arr l).mass * ((arr l).v ⬝ᵥ (arr l).v) + 2 * W := by
    have : ∑ l ∈ I, 2 * ((arr l).mass * ((arr l).v ⬝ᵥ e.v l)) ≤
        ∑ l ∈ I, ((arr l).mass * ((arr l).v ⬝ᵥ (arr l).v) + (arr l).mass * (e.v l ⬝ᵥ e.v l)) :=
      Finset.sum_le_sum fun l _ => by
        have := mul_le_mul_of_nonneg_left (two_dot_le (arr l).v (e.v l)) (hmass0 l)
        linarith
    rw [← Finset.mul_sum, Finset.sum_add_distrib] at this
    linarith
  suffices hgoal : motionEnergy m κ (ps.map F) ≤ motionEnergy m κ ps + W by
    rw [hW] at hgoal
    simp only [hκd] at hgoal ⊢
    linarith
  -- energy of the interpolated velocities
  have q6 : m / 2 * (ps.map fun p => iV e.v p ⬝ᵥ iV e.v p + κ * ddot (iB e.v p) (iB e.v p)).sum ≤
      motionEnergy m κ ps + W := by
    have := q2 e.v
    linarith
  have hE : motionEnergy m κ (ps.map F) =
      m / 2 * (ps.map fun p => (F p).v ⬝ᵥ (F p).v + κ * ddot (F p).Bmat (F p).Bmat).sum := by
    rw [motionEnergy, List.map_map, ← map_sum_mul]; rfl
  rw [hE]
  rcases hfr with hfr | ⟨hfr0, hfr1⟩
  · refine le_trans (le_of_eq ?_) q6
    congr 2
    refine List.map_congr_left fun p hp => ?_
    obtain ⟨g1, -, g3, -⟩ := hF2 p hp
    have c1 : S.P.flipRatio < -1 := by rw [hPv]; exact hfr
    have c2 : S.P.flipRatio < 0 := by linarith
    rw [g1, g3]
    simp only [blendVelocity, c1, c2, if_true, g2pTransfer, hiV, hiB, he]
  · have c2 : ¬ S.P.flipRatio < 0 := by rw [hPv]; exact not_lt.mpr hfr0
    have c1 : ¬ S.P.flipRatio < -1 := by rw [hPv]; linarith
    have hκz : κ = 0 := by rw [hκ, if_neg c2]
    have q7 : m / 2 * (ps.map fun p => (p.v + iV e.flip p) ⬝ᵥ (p.v + iV e.flip p)).sum ≤ motionEnergy m κ ps + W := by
      have a1 := q1 e.flip
      have a2 := q2 e.flip
      rw [hκz] at a1 a2
      simp only [zero_mul, add_zero] at a1 a2
      have a3 : (ps.map fun p => (p.v + iV e.flip p) ⬝ᵥ (p.v + iV e.flip p)).sum =
          (ps.map fun p => p.v ⬝ᵥ p.v).sum + 2 * (ps.map fun p => p.v ⬝ᵥ iV e.flip p).sum +
          (ps.map fun p => iV e.flip p ⬝ᵥ iV e.flip p).sum := by
        rw [← map_sum_mul, ← sum_map_add', ← sum_map_add']
        congr 1
        refine List.map_congr_left fun p _ => ?_
        simp only [add_dotProduct, dotProduct_add]
        rw [dotProduct_comm (iV e.flip p) p.v]; ring
      have a4 : motionEnergy m κ ps = m / 2 * (ps.map fun p => p.v ⬝ᵥ p.v).sum := by
        rw [motionEnergy, hκz, map_sum_mul]; simp
      have a5 : ∑ l ∈ I, (arr l).mass * ((arr l).v ⬝ᵥ e.flip l) =
          ∑ l ∈ I, ((arr l).mass * ((arr l).v ⬝ᵥ e.v l) - (arr l).mass * ((arr l).v ⬝ᵥ (arr l).v)) := by
        rw [← sum_gridIndices g fun l => (arr l).mass * ((arr l).v ⬝ᵥ e.flip l), ← sum_gridIndices g fun l =>
          ((arr l).mass * ((arr l).v ⬝ᵥ e.v l) - (arr l).mass * ((arr l).v ⬝ᵥ (arr l).v))]
        refine Finset.sum_congr rfl fun i hi => ?_
        have := congrArg (fun y => (arr (flatIndex g.size i)).v ⬝ᵥ y) (hn1 i (mem_gridIndices.mp hi)).2
        simpa only [dotProduct_sub, dotProduct_smul, smul_eq_mul] using this
      have a6 : ∑ l ∈ I, (arr l).mass * (e.flip l ⬝ᵥ e.flip l) =
          ∑ l ∈ I, ((arr l).mass * (e.v l ⬝ᵥ e.v l) - 2 * ((arr l).mass * ((arr l).v ⬝ᵥ e.v l)) +
            (arr l).mass * ((arr l).v ⬝ᵥ (arr l).v)) := by
        rw [← sum_gridIndices g fun l => (arr l).mass * (e.flip l ⬝ᵥ e.flip l), ← sum_gridIndices g fun l =>
          ((arr l).mass * (e.v l ⬝ᵥ e.v l) - 2 * ((arr l).mass * ((arr l).v ⬝ᵥ e.v l)) +
            (arr l).mass * ((arr l).v ⬝ᵥ (arr l).v))]
        refine Finset.sum_congr rfl fun i hi => ?_
        have hfl := (hn1 i (mem_gridIndices.mp hi)).2
        have b1 := congrArg (fun y => (arr (flatIndex g.size i)).v ⬝ᵥ y) hfl
        have b2 := congrArg (fun y => v' i ⬝ᵥ y) hfl
        have b3 := congrArg (fun y => y ⬝ᵥ e.flip (flatIndex g.size i)) hfl
        simp only [dotProduct_sub, dotProduct_smul, smul_eq_mul, sub_dotProduct, smul_dotProduct] at b1 b2 b3
        rw [b3, b1, b2, dotProduct_comm (v' i) (arr (flatIndex g.size i)).v]
        ring
      rw [Finset.sum_sub_distrib] at a5
      rw [Finset.sum_add_distrib, Finset.sum_sub_distrib, ← Finset.mul_sum] at a6
      rw [a3, a4]
      linarith
    have q6' : m / 2 * (ps.map fun p => iV e.v p ⬝ᵥ iV e.v p).sum ≤ motionEnergy m κ ps + W := by
      have := q6
      rw [hκz] at this ⊢
      simpa only [zero_mul, add_zero] using this
    have hstep : m / 2 * (ps.map fun p => (F p).v ⬝ᵥ (F p).v + κ * ddot (F p).Bmat (F p).Bmat).sum ≤
        fr * (m / 2 * (ps.map fun p => (p.v + iV e.flip p) ⬝ᵥ (p.v + iV e.flip p)).sum) +
        (1 - fr) * (m / 2 * (ps.map fun p => iV e.v p ⬝ᵥ iV e.v p).sum) := by
      rw [← mul_assoc, ← mul_assoc, mul_comm fr, mul_comm (1 - fr), mul_assoc, mul_assoc, ← mul_add,
        ← map_sum_mul ps fr, ← map_sum_mul ps (1 - fr), ← sum_map_add']
      refine mul_le_mul_of_nonneg_left (list_sum_le fun p hp => ?_) (by linarith)
      obtain ⟨g1, -⟩ := hF2 p hp
      have c3 : S.P.flipRatio ≥ -1 := not_lt.mp c1
      rw [g1, hκz, zero_mul, add_zero]
      rw [hPv] at c1 c2 c3
      simp only [blendVelocity, c1, c2, if_false, g2pTransfer, c3, if_true, ← he, hPv]
      change (fr • (p.v + iV e.flip p) + (1 - fr) • iV e.v p) ⬝ᵥ (fr • (p.v + iV e.flip p) + (1 - fr) • iV e.v p) ≤ _
      have := two_dot_le (p.v + iV e.flip p) (iV e.v p)
      generalize p.v + iV e.flip p = x at this ⊢
      generalize iV e.v p = y at this ⊢
      simp only [add_dotProduct, dotProduct_add, smul_dotProduct, dotProduct_smul, smul_eq_mul]
      rw [dotProduct_comm y x]
      nlinarith [mul_nonneg hfr0 (sub_nonneg.mpr hfr1)]
    refine hstep.trans ?_
    have := mul_le_mul_of_nonneg_left q7 hfr0
    have := mul_le_mul_of_nonneg_left q6' (sub_nonneg.mpr hfr1)
    linarith

/-- **C86** Energy balance of a step with pure APIC (`flip_ratio < -1`) or with any PIC/FLIP blend
(`0 <= flip_ratio <= 1`), with arbitrary walls. `v i` is the velocity of node `i` before the walls act on it, `v' i`
the one after. The particles move with `v'`, and `L p` is its gradient at particle `p`. The kinetic energy
increases at most by the work of gravity on the displacements, minus the work of the stresses on the deformation, plus
the work of the impulses of the walls on the nodes. -/
theorem C86_step (hS : S.P = mkTransferParams deg dx fr mibf m vol) (hd : deg ≠ .one) (hm : 0 < m)
    (hfr : fr < -1 ∨ 0 ≤ fr ∧ fr ≤ 1) (hpbc : S.pbc = false) (hcp : S.changePos = false)
    (h : GoodGrid dx g ps) (hn : NoTinyWeights deg dx g ps) (ht : threads.flatten.Perm ps)
    (hk : KeepsMotion plast) :
    ∃ (F : Particle (d + 2) K → Particle (d + 2) K) (v v' : (Fin (d + 2) → ℕ) → Fin (d + 2) → K),
      let L : Particle (d + 2) K → Matrix (Fin (d + 2)) (Fin (d + 2)) K := fun p =>
        ∑ i ∈ gridIndices g, vecMulVec (v' i) (shapeGrad deg dx (nodeAt g i) p.x)
      stepOnGrid S dt grav bc plast g [] threads ps = some (ps.map F) ∧
      (∀ i, IsNode g i → massAt deg dx m ps (nodeAt g i) • v i =
        freeMomentum deg dx fr (affineFactor deg dx fr) m vol dt grav ps (nodeAt g i)) ∧
      (∀ i, IsNode g i → 0 < massAt deg dx m ps (nodeAt g i) →
        v' i = bc (flatIndex g.size i) (nodeAt g i) (v i)) ∧
      (∀ p ∈ ps, (F p).x = p.x + dt • ∑ i ∈ gridIndices g, shape deg dx (nodeAt g i) p.x • v' i) ∧
      (S.useMusl = false → ∀ p ∈ ps, ∃ r : Particle (d + 2) K, r.F = (1 + dt • L p) * p.F ∧
        (F p).F = (plast r).F ∧ (F p).tau = (plast r).tau) ∧
      motionEnergy m (affineFactor deg dx fr) (ps.map F) ≤ motionEnergy m (affineFactor deg dx fr) ps +
        (ps.map fun p => m * (grav ⬝ᵥ ((F p).x - p.x))).sum - dt * vol * (ps.map fun p => ddot p.tau (L p)).sum +
        ∑ i ∈ gridIndices g, massAt deg dx m ps (nodeAt g i) * ((v' i - v i) ⬝ᵥ v' i) := by
  obtain ⟨F, h'⟩ := energy_step (dt := dt) (grav := grav) (bc := bc) hS hd hm hfr hpbc hcp h hn ht hk
  exact ⟨F, _, _, h'⟩

end step
end Verif.Props
