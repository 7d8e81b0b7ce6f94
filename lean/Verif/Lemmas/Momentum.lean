import Verif.Lemmas.Euler
import Mathlib.Data.Matrix.Basic

set_option linter.unusedSectionVars false
set_option linter.unusedSimpArgs false

/-! Sums over the grid after P2G / Euler, and the particle result of one step. -/

namespace Verif
open Matrix
variable {K : Type*} [Field K] [LinearOrder K] [IsStrictOrderedRing K] [FloorRing K] {d : ℕ}

/-- Additive map `r ↦ r.mass • y`. -/
def massSmul {M : Type*} [AddCommGroup M] [Module K M] (y : M) : Cell d K →+ M where
  toFun c := c.mass • y
  map_zero' := by show (0 : K) • y = 0; exact zero_smul _ _
  map_add' a b := by show (a.mass + b.mass) • y = _; exact add_smul _ _ _

@[simp] lemma massSmul_apply {M : Type*} [AddCommGroup M] [Module K M] (y : M) (c : Cell d K) :
    massSmul y c = c.mass • y := rfl

section
variable {deg : Deg} {dx : K} {g : Axes d K} {P : TransferParams K} {ps : List (Particle d K)}

/-- Variant of `sum_raw_noTiny` for functionals that vanish with the weight. -/
lemma sum_raw_of_zero {M : Type*} [AddCommMonoid M] (h : GoodGrid dx g ps)
    (hn : NoTinyWeights deg dx g ps) (F : ℕ → Cell d K →+ M)
    (h0 : ∀ p ∈ ps, ∀ c, (stencilOf deg dx g p.x).weight c = 0 →
      ∀ l, F l (contribution P p (stencilOf deg dx g p.x) c) = 0) :
    ∑ l ∈ Finset.range (gridNodes g.size), F l (raw P deg dx g ps l) =
      (ps.map fun p => ∑ c,
        F (flatIndex g.size ((stencilOf deg dx g p.x).node c))
          (contribution P p (stencilOf deg dx g p.x) c)).sum := by
  rw [sum_raw h]
  congr 1
  refine List.map_congr_left fun p hp => Finset.sum_congr rfl fun c _ => ?_
  rcases hn.stencil h hp c with hw | hw
  · rw [h0 p hp c hw, ite_self]
  · rw [if_pos hw]

lemma finish_mass (l : ℕ) : (p2gFinish P (raw P deg dx g ps) l).mass =
    (raw P deg dx g ps l).mass * P.particleMass := rfl

lemma finish_momentum (l : ℕ) :
    (p2gFinish P (raw P deg dx g ps) l).mass • (p2gFinish P (raw P deg dx g ps) l).v =
      P.particleMass • (raw P deg dx g ps l).v := by
  rw [finish_mass]
  by_cases h : (raw P deg dx g ps l).mass > 0
  · have : (p2gFinish P (raw P deg dx g ps) l).v =
        (raw P deg dx g ps l).mass⁻¹ • (raw P deg dx g ps l).v := by
      simp only [p2gFinish, h, if_true]
    rw [this, smul_smul, mul_right_comm, mul_inv_cancel₀ h.ne', one_mul]
  · have h0 : (raw P deg dx g ps l).mass = 0 :=
      le_antisymm (not_lt.mp h) (raw_mass_nonneg l)
    rw [h0, raw_eq_zero h0]
    show _ = P.particleMass • (0 : Fin d → K)
    simp

/-- velocity-like contributions summed over a stencil -/
lemma sum_contribution_v {s : Stencil d K} {p : Particle d K} (hok : StencilOK g.size p.x s) :
    ∑ c, (contribution P p s c).v = p.v := by
  have e : ∀ c, (contribution P p s c).v = s.weight c • p.v +
      (if P.flipRatio < 0 then P.apicDinverse else 0) •
        (p.Bmat *ᵥ (s.weight c • (s.nodePos c - p.x))) := by
    intro c
    simp only [contribution, mulVec_smul, smul_smul]
    split_ifs <;> simp
  simp only [e, Finset.sum_add_distrib, ← Finset.sum_smul, hok.sum_weight, one_smul,
    ← Finset.smul_sum]
  have : ∑ c, p.Bmat *ᵥ (s.weight c • (s.nodePos c - p.x)) =
      p.Bmat *ᵥ ∑ c, s.weight c • (s.nodePos c - p.x) := (Matrix.mulVec_sum _ _ _).symm
  rw [this, hok.sum_weight_smul_pos]
  simp

lemma sum_raw_v (h : GoodGrid dx g ps) (hn : NoTinyWeights deg dx g ps) :
    ∑ l ∈ Finset.range (gridNodes g.size), (raw P deg dx g ps l).v = (ps.map fun p => p.v).sum := by
  have := sum_raw_of_zero (P := P) h hn (fun _ => Cell.vHom) (fun p hp c hc l => by
    simp only [Cell.vHom_apply, contribution, hc, mul_zero, zero_smul, ite_self, add_zero])
  simp only [Cell.vHom_apply] at this
  rw [this]
  congr 1
  refine List.map_congr_left fun p hp => ?_
  exact sum_contribution_v (h.good hp).ok

lemma sum_raw_mass (h : GoodGrid dx g ps) (hn : NoTinyWeights deg dx g ps) :
    ∑ l ∈ Finset.range (gridNodes g.size), (raw P deg dx g ps l).mass = ps.length := by
  have := sum_raw_of_zero (P := P) h hn (fun _ => Cell.massHom) (fun p hp c hc l => hc)
  simp only [Cell.massHom_apply] at this
  rw [this]
  have : ∀ p ∈ ps, (∑ c, (contribution P p (stencilOf deg dx g p.x) c).mass) = 1 := fun p hp =>
    (h.good (deg := deg) hp).ok.sum_weight
  rw [List.map_congr_left this]
  simp

lemma sum_raw_force (hd : deg ≠ .one) (h : GoodGrid dx g ps) (hn : NoTinyWeights deg dx g ps) :
    ∑ l ∈ Finset.range (gridNodes g.size), (raw P deg dx g ps l).force = 0 := by
  have := sum_raw_noTiny (P := P) hd h hn (fun _ => Cell.forceHom)
  simp only [Cell.forceHom_apply] at this
  rw [this]
  apply List.sum_eq_zero
  intro a ha
  obtain ⟨p, hp, rfl⟩ := List.mem_map.mp ha
  have hg := h.good (deg := deg) hp
  obtain ⟨D, hD⟩ := hg.gradOK hd
  have : ∑ c, p.tau *ᵥ (stencilOf deg dx g p.x).weightGrad c =
      p.tau *ᵥ ∑ c, (stencilOf deg dx g p.x).weightGrad c := (Matrix.mulVec_sum _ _ _).symm
  simp only [contribution]
  rw [this, hg.ok.sum_grad_vec hD, mulVec_zero]

end

/-! ### the particle result of one step -/

lemma GoodGrid.map {dx : K} {g : Axes d K} {ps : List (Particle d K)} (h : GoodGrid dx g ps)
    {f : Particle d K → Particle d K} (hf : ∀ p ∈ ps, (f p).x = p.x) : GoodGrid dx g (ps.map f) where
  dx_pos := h.dx_pos
  uniform := h.uniform
  inside q hq := by
    obtain ⟨p, hp, rfl⟩ := List.mem_map.mp hq
    rw [hf p hp]; exact h.inside p hp

lemma GoodGrid.perm {dx : K} {g : Axes d K} {ps qs : List (Particle d K)} (h : GoodGrid dx g ps)
    (hp : qs.Perm ps) : GoodGrid dx g qs :=
  ⟨h.dx_pos, h.uniform, fun p hq => h.inside p (hp.mem_iff.mp hq)⟩

lemma raw_perm {P : TransferParams K} {deg : Deg} {dx : K} {g : Axes d K}
    {ps qs : List (Particle d K)} (hp : qs.Perm ps) : raw P deg dx g qs = raw P deg dx g ps := by
  funext l
  exact (hp.map _).sum_eq

section step
variable {deg : Deg} {dx : K} {g : Axes (d + 2) K} {S : StepParams (d + 2) K}
  {ps : List (Particle (d + 2) K)} {dt : K} {grav : Fin (d + 2) → K}
  {bc : ℕ → (Fin (d + 2) → K) → (Fin (d + 2) → K) → (Fin (d + 2) → K)}
  {plast : Particle (d + 2) K → Particle (d + 2) K} {threads : List (List (Particle (d + 2) K))}

/-- The grid velocities after the Euler update. -/
def stepEuler (S : StepParams (d + 2) K) (deg : Deg) (dx dt : K) (grav : Fin (d + 2) → K)
    (bc : ℕ → (Fin (d + 2) → K) → (Fin (d + 2) → K) → (Fin (d + 2) → K)) (g : Axes (d + 2) K)
    (ps : List (Particle (d + 2) K)) : EulerArr (d + 2) K :=
  eulerUpdate S.P dt grav bc g (p2gFinish S.P (raw S.P deg dx g ps))

/-- The velocities used for the velocity gradient: the Euler result, or the MUSL re-projection. -/
def gradVel (S : StepParams (d + 2) K) (deg : Deg) (dx dt : K) (grav : Fin (d + 2) → K)
    (bc : ℕ → (Fin (d + 2) → K) → (Fin (d + 2) → K) → (Fin (d + 2) → K)) (g : Axes (d + 2) K)
    (ps : List (Particle (d + 2) K)) : ℕ → Fin (d + 2) → K :=
  let e := stepEuler S deg dx dt grav bc g ps
  if S.useMusl then
    muslFinish S.P (fun l => (p2gFinish S.P (raw S.P deg dx g ps) l).mass)
      (fun l => (raw S.P deg dx g (ps.map fun p =>
        let q := g2pTransfer S.P g.size e p (stencilOf deg dx g p.x)
        { q with v := blendVelocity S.P q }) l).v)
  else e.v

lemma stepOnGrid_eq (hP : S.P.deg = deg) (hP1 : S.P.oneOverDx = 1 / dx) (h : GoodGrid dx g ps)
    (ht : threads.flatten.Perm ps) (hk : KeepsMotion plast) :
    ∃ F : Particle (d + 2) K → Particle (d + 2) K,
      stepOnGrid S dt grav bc plast g [] threads ps = some (ps.map F) ∧
      ∀ p ∈ ps,
        let e := stepEuler S deg dx dt grav bc g ps
        let s := stencilOf deg dx g p.x
        let q := g2pTransfer S.P g.size e p s
        (F p).v = blendVelocity S.P q ∧ (F p).pic = q.pic ∧ (F p).Bmat = q.Bmat ∧
        (F p).x = (positionParticle S.P S.useMusl S.pbc S.changePos (S.L 0) dt q).x ∧
        ∃ r : Particle (d + 2) K, (F p).F = (plast r).F ∧ (F p).tau = (plast r).tau ∧
          r.tau = p.tau ∧
          r.F = trialF dt (interpGrad g.size (gradVel S deg dx dt grav bc g ps) s) p.F ∧
          r.epsPlVolPradhana = p.epsPlVolPradhana := by
  have hP2G : P2G S.P g threads = some (p2gFinish S.P (raw S.P deg dx g ps)) := by
    rw [P2G_eq hP hP1 (h.perm ht), raw_perm ht]
  have hg2p := withStencilsG2P_eq hP hP1 h
  cases hm : S.useMusl with
  | false =>
    refine ⟨fun p => positionParticle S.P false S.pbc S.changePos (S.L 0) dt
      (g2pParticle S.P false dt plast g.size (stepEuler S deg dx dt grav bc g ps)
        (p, stencilOf deg dx g p.x)), ?_, ?_⟩
    · simp only [stepOnGrid, hP2G, G2P, hg2p, hm, ne_eq, not_true_eq_false, and_false, if_false,
        Option.bind_eq_bind, Option.bind_some, List.map_map, Bool.false_eq_true]
      rfl
    · intro p hp
      simp only [positionParticle, g2pParticle, Bool.false_eq_true, if_false]
      refine ⟨?_, ?_, ?_, ?_, ?_⟩
      · simp only [blendVelocity, hk.v, hk.pic, hk.flip]
      · simp only [hk.pic]
      · simp only [hk.Bmat]
      · simp only [hk.x, hk.pic]
      · refine ⟨_, rfl, rfl, rfl, ?_, rfl⟩
        simp only [gradVel, hm, Bool.false_eq_true, if_false]
        rfl
  | true =>
    let e := stepEuler S deg dx dt grav bc g ps
    let up : Particle (d + 2) K → Particle (d + 2) K := fun p =>
      let q := g2pTransfer S.P g.size e p (stencilOf deg dx g p.x)
      { q with v := blendVelocity S.P q }
    have hup : ∀ p ∈ ps, (up p).x = p.x := fun p _ => rfl
    have hg' : GoodGrid dx g (ps.map up) := h.map hup
    have hmusl : [ps.map up].mapM (withStencils (stencilP2G S.P.deg S.P.oneOverDx g)) =
        some ([ps.map up].map fun t => t.map fun p => (p, stencilOf deg dx g p.x)) := by
      apply mapM_withStencils
      intro p hp
      rw [hP, hP1]
      exact (hg'.good (by simpa using hp)).p2g
    have hacc : muslAccumulate S.P g.size
        ([ps.map up].map fun t => t.map fun p => (p, stencilOf deg dx g p.x)) =
        fun l => (raw S.P deg dx g (ps.map up) l).v := by
      funext l
      rw [muslAccumulate_eq, ← List.map_flatten, List.map_map]
      have := raw_hom (P := S.P) (deg := deg) (dx := dx) (g := g) (ps := ps.map up) Cell.vHom l
      simp only [Cell.vHom_apply] at this
      rw [this]
      simp only [List.flatten_cons, List.flatten_nil, List.append_nil]
      rfl
    have hdef := withStencilsG2P_eq hP hP1 hg'
    refine ⟨fun p => positionParticle S.P true S.pbc S.changePos (S.L 0) dt
      (deformParticle dt plast g.size (gradVel S deg dx dt grav bc g ps)
        (up p, stencilOf deg dx g p.x)), ?_, ?_⟩
    · have h1 : (List.map (g2pParticle S.P true dt plast g.size e)
          (ps.map fun p => (p, stencilOf deg dx g p.x))).map
            (fun p => { p with v := blendVelocity S.P p }) = ps.map up := by
        rw [List.map_map, List.map_map]; rfl
      have hM : MUSL S.P g (fun l => (p2gFinish S.P (raw S.P deg dx g ps) l).mass)
          [List.map (g2pParticle S.P true dt plast g.size e)
            (ps.map fun p => (p, stencilOf deg dx g p.x))] =
          some ([ps.map up], gradVel S deg dx dt grav bc g ps) := by
        simp only [MUSL, List.map_cons, List.map_nil, h1]
        rw [hmusl]
        simp only [Option.bind_eq_bind, Option.bind_some]
        rw [hacc]
        simp only [gradVel, hm, if_true]
        rfl
      simp only [stepOnGrid, hP2G, G2P, hg2p, hm, ne_eq, not_true_eq_false, and_false, if_false,
        Option.bind_eq_bind, Option.bind_some, if_true]
      rw [show eulerUpdate S.P dt grav bc g (p2gFinish S.P (raw S.P deg dx g ps)) = e from rfl, hM]
      simp only [Option.bind_some, deformationUpdate, List.flatten_cons, List.flatten_nil,
        List.append_nil, hdef, Option.bind_eq_bind, List.map_map]
      rfl
    · intro p hp
      simp only [positionParticle, deformParticle, if_true]
      refine ⟨?_, ?_, ?_, ?_, ?_⟩
      · simp only [hk.v]; rfl
      · simp only [hk.pic]; rfl
      · simp only [hk.Bmat]; rfl
      · simp only [hk.x, hk.pic]; rfl
      · exact ⟨_, rfl, rfl, rfl, rfl, rfl⟩

end step
end Verif

namespace Verif
open Matrix
variable {K : Type*} [Field K] [LinearOrder K] [IsStrictOrderedRing K] [FloorRing K] {d : ℕ}

section eulersum
variable {deg : Deg} {dx dt : K} {grav : Fin d → K} {g : Axes d K} {P : TransferParams K}
  {ps : List (Particle d K)} {bc : ℕ → (Fin d → K) → (Fin d → K) → (Fin d → K)}

lemma euler_node (hm : 0 < P.particleMass)
    (hbc : ∀ i, IsNode g i → ∀ v, bc (flatIndex g.size i) (nodeAt g i) v = v)
    {l : ℕ} (hl : l < gridNodes g.size) :
    let arr := p2gFinish P (raw P deg dx g ps)
    let e := eulerUpdate P dt grav bc g arr
    ((arr l).mass • e.v l = P.particleMass • (raw P deg dx g ps l).v -
      (dt * P.particleVolume) • (raw P deg dx g ps l).force + (dt * (arr l).mass) • grav) ∧
    ((arr l).mass • e.flip l =
      -((dt * P.particleVolume) • (raw P deg dx g ps l).force) + (dt * (arr l).mass) • grav) := by
  intro arr e
  obtain ⟨i, hi, rfl⟩ := flatIndex_surj hl
  have hat := eulerUpdate_at P dt grav bc g arr (i := i) hi
  simp only [hbc i hi] at hat
  have hmom := finish_momentum (P := P) (deg := deg) (dx := dx) (g := g) (ps := ps)
    (flatIndex g.size i)
  have hforce : (arr (flatIndex g.size i)).force = (raw P deg dx g ps (flatIndex g.size i)).force :=
    rfl
  by_cases hpos : (arr (flatIndex g.size i)).mass > 0
  · rw [show e.v (flatIndex g.size i) = _ from hat.1, show e.flip (flatIndex g.size i) = _ from hat.2,
      if_pos hpos, if_pos hpos]
    have hincr : (arr (flatIndex g.size i)).mass • incrAt P dt grav (arr (flatIndex g.size i)) =
        -((dt * P.particleVolume) • (raw P deg dx g ps (flatIndex g.size i)).force) +
        (dt * (arr (flatIndex g.size i)).mass) • grav := by
      rw [incrAt, smul_add, smul_smul, smul_smul, hforce, ← neg_smul,
        mul_div_cancel₀ _ hpos.ne', mul_comm dt (arr (flatIndex g.size i)).mass]
    constructor
    · rw [smul_add, hincr, hmom]; abel
    · rw [add_sub_cancel_left, hincr]
  · have h0 : (raw P deg dx g ps (flatIndex g.size i)).mass = 0 := by
      have h1 := raw_mass_nonneg (P := P) (deg := deg) (dx := dx) (g := g) (ps := ps)
        (flatIndex g.size i)
      by_contra hne
      exact hpos (mul_pos (lt_of_le_of_ne h1 (Ne.symm hne)) hm)
    have hz := raw_eq_zero h0
    have ha : (arr (flatIndex g.size i)).mass = 0 := by
      show (raw P deg dx g ps (flatIndex g.size i)).mass * _ = 0
      rw [h0, zero_mul]
    rw [ha, hz]
    show (0 : K) • _ = P.particleMass • (0 : Fin d → K) - (dt * P.particleVolume) • (0 : Fin d → K)
      + _ ∧ (0 : K) • _ = -((dt * P.particleVolume) • (0 : Fin d → K)) + _
    simp

lemma euler_sums (hd : deg ≠ .one) (hm : 0 < P.particleMass) (h : GoodGrid dx g ps)
    (hn : NoTinyWeights deg dx g ps)
    (hbc : ∀ i, IsNode g i → ∀ v, bc (flatIndex g.size i) (nodeAt g i) v = v) :
    let arr := p2gFinish P (raw P deg dx g ps)
    let e := eulerUpdate P dt grav bc g arr
    (∑ l ∈ Finset.range (gridNodes g.size), (arr l).mass • e.v l =
      P.particleMass • (ps.map fun p => p.v).sum + (dt * (ps.length * P.particleMass)) • grav) ∧
    (∑ l ∈ Finset.range (gridNodes g.size), (arr l).mass • e.flip l =
      (dt * (ps.length * P.particleMass)) • grav) := by
  intro arr e
  have h1 := fun l (hl : l ∈ Finset.range (gridNodes g.size)) =>
    euler_node (deg := deg) (dx := dx) (dt := dt) (grav := grav) (ps := ps) hm hbc
      (Finset.mem_range.mp hl)
  have hM : ∑ l ∈ Finset.range (gridNodes g.size), (dt * (arr l).mass) • grav =
      (dt * (ps.length * P.particleMass)) • grav := by
    rw [← Finset.sum_smul, ← Finset.mul_sum]
    congr 2
    show ∑ l ∈ _, (raw P deg dx g ps l).mass * P.particleMass = _
    rw [← Finset.sum_mul, sum_raw_mass h hn]
  constructor
  · rw [Finset.sum_congr rfl fun l hl => (h1 l hl).1, Finset.sum_add_distrib,
      Finset.sum_sub_distrib, ← Finset.smul_sum, ← Finset.smul_sum, sum_raw_force hd h hn,
      sum_raw_v h hn, smul_zero, sub_zero]
    rw [← hM]
  · rw [Finset.sum_congr rfl fun l hl => (h1 l hl).2, Finset.sum_add_distrib,
      Finset.sum_neg_distrib, ← Finset.smul_sum, sum_raw_force hd h hn, smul_zero, neg_zero,
      zero_add]
    rw [← hM]

/-- Particle sums of interpolated values. -/
lemma sum_interpV (h : GoodGrid dx g ps) (hn : NoTinyWeights deg dx g ps) (φ : ℕ → Fin d → K) :
    (ps.map fun p => P.particleMass • interpV g.size φ (stencilOf deg dx g p.x)).sum =
      ∑ l ∈ Finset.range (gridNodes g.size), (p2gFinish P (raw P deg dx g ps) l).mass • φ l := by
  have := sum_interp (P := P) h hn φ
  simp only [finish_mass, mul_comm _ P.particleMass, ← smul_smul, ← Finset.smul_sum, ← this,
    List.smul_sum, List.map_map, interpV_eq]
  rfl

end eulersum
end Verif
