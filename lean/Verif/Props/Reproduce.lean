import Verif.Props.Momentum

set_option linter.unusedSectionVars false
set_option linter.unusedSimpArgs false

/-!
# C07–C10, C47, C48, C50: what the transfers reproduce, bounds, energy, blending, MUSL
-/

namespace Verif.Props
open Verif Matrix
variable {K : Type*} [Field K] [LinearOrder K] [IsStrictOrderedRing K] [FloorRing K] {d : ℕ}

lemma forall₂_map {α β : Type*} {R : α → β → Prop} {L : List α} {f : α → β}
    (h : ∀ a ∈ L, R a (f a)) : List.Forall₂ R L (L.map f) := by
  induction L with
  | nil => exact List.Forall₂.nil
  | cons a L ih => exact List.Forall₂.cons (h a (by simp)) (ih fun b hb => h b (by simp [hb]))

section
variable {deg : Deg} {dx fr m vol : K} {mibf : Bool} {g : Axes d K} {P : TransferParams K}
  {ps : List (Particle d K)}

/-- A node in the stencil of a particle with non-zero weight is massive. -/
lemma raw_mass_pos (h : GoodGrid dx g ps) (hn : NoTinyWeights deg dx g ps) {p : Particle d K}
    (hp : p ∈ ps) {c : Fin d → Fin 4} (hc : (stencilOf deg dx g p.x).weight c ≠ 0) :
    0 < (raw P deg dx g ps (flatIndex g.size ((stencilOf deg dx g p.x).node c))).mass := by
  refine lt_of_le_of_ne (raw_mass_nonneg _) fun h0 => ?_
  rw [raw_mass] at h0
  have := list_sum_zero (fun q _ => oneSum_weight_nonneg (g := g) (s := stencilOf deg dx g q.x) _)
    h0.symm p hp
  have h2 := oneSum_eq_zero this (fun _ => (1 : K))
  have hw := (hn.stencil h hp c).resolve_left hc
  have h3 : ∀ c' ∈ Finset.univ, (0 : K) ≤ if (stencilOf deg dx g p.x).weight c' > cutoff ∧
      flatIndex g.size ((stencilOf deg dx g p.x).node c') =
        flatIndex g.size ((stencilOf deg dx g p.x).node c) then 1 else 0 := by
    intro c' _; split_ifs <;> norm_num
  have h4 := (Finset.sum_eq_zero_iff_of_nonneg h3).mp h2 c (Finset.mem_univ c)
  rw [if_pos ⟨hw, rfl⟩] at h4
  exact one_ne_zero h4

lemma raw_uniform {c : Fin d → K} (hv : ∀ p ∈ ps, p.v = c)
    (hB : P.flipRatio < 0 → ∀ p ∈ ps, p.Bmat = 0) (l : ℕ) :
    (raw P deg dx g ps l).v = (raw P deg dx g ps l).mass • c := by
  have h1 := raw_hom (P := P) (deg := deg) (dx := dx) (g := g) (ps := ps) Cell.vHom l
  have h2 := raw_hom (P := P) (deg := deg) (dx := dx) (g := g) (ps := ps)
    (massSmul (K := K) c) l
  simp only [Cell.vHom_apply, massSmul_apply] at h1 h2
  rw [h1, h2]
  congr 1
  refine List.map_congr_left fun p hp => ?_
  congr 1
  funext i
  simp only [contribution, hv p hp]
  split_ifs with hf
  · rw [hB hf p hp]; simp
  · simp

lemma raw_force_zero (ht : ∀ p ∈ ps, p.tau = 0) (l : ℕ) : (raw P deg dx g ps l).force = 0 := by
  have h1 := raw_hom (P := P) (deg := deg) (dx := dx) (g := g) (ps := ps) Cell.forceHom l
  simp only [Cell.forceHom_apply] at h1
  rw [h1]
  apply List.sum_eq_zero
  intro a ha
  obtain ⟨p, hp, rfl⟩ := List.mem_map.mp ha
  simp only [contribution, ht p hp, zero_mulVec, oneSum, ite_self, Finset.sum_const_zero]

/-- Interpolating a field that is constant on the nodes with non-zero weight. -/
lemma interp_const {c : Fin d → K} {v : ℕ → Fin d → K} {x : Fin d → K} {s : Stencil d K}
    (hok : StencilOK g.size x s)
    (hv : ∀ i, s.weight i ≠ 0 → v (flatIndex g.size (s.node i)) = c) :
    interpV g.size v s = c ∧ interpB g.size v s x = 0 ∧
      ∀ D, StencilGradOK D x s → interpGrad g.size v s = 0 := by
  refine ⟨?_, ?_, fun D hD => ?_⟩
  · rw [interpV_eq]
    have : ∀ i ∈ Finset.univ, s.weight i • v (flatIndex g.size (s.node i)) = s.weight i • c := by
      intro i _
      by_cases h0 : s.weight i = 0
      · rw [h0, zero_smul, zero_smul]
      · rw [hv i h0]
    rw [Finset.sum_congr rfl this, ← Finset.sum_smul, hok.sum_weight, one_smul]
  · rw [interpB_eq]
    have : ∀ i ∈ Finset.univ, s.weight i • vecMulVec (v (flatIndex g.size (s.node i)))
        (s.nodePos i - x) = vecMulVec c (s.weight i • (s.nodePos i - x)) := by
      intro i _
      by_cases h0 : s.weight i = 0
      · rw [h0, zero_smul, zero_smul, vecMulVec_zero]
      · rw [hv i h0, vecMulVec_smul]
    rw [Finset.sum_congr rfl this]
    ext a b
    have := hok.sum_weight_pos b
    simp only [Matrix.sum_apply, vecMulVec_apply, Pi.smul_apply, Pi.sub_apply, smul_eq_mul,
      ← Finset.mul_sum, this, mul_zero, Matrix.zero_apply]
  · rw [interpGrad_eq]
    have : ∀ i ∈ Finset.univ, vecMulVec (v (flatIndex g.size (s.node i))) (s.weightGrad i) =
        vecMulVec c (s.weightGrad i) := by
      intro i _
      by_cases h0 : s.weight i = 0
      · rw [hok.grad_zero hD h0, vecMulVec_zero, vecMulVec_zero]
      · rw [hv i h0]
    rw [Finset.sum_congr rfl this]
    ext a b
    simp only [Matrix.sum_apply, vecMulVec_apply, ← Finset.mul_sum, hok.sum_grad hD, mul_zero,
      Matrix.zero_apply]

end

section rigid
variable {deg : Deg} {dx fr m vol : K} {mibf : Bool} {g : Axes (d + 2) K} {S : StepParams (d + 2) K}
  {ps : List (Particle (d + 2) K)} {dt : K} {grav : Fin (d + 2) → K}
  {bc : ℕ → (Fin (d + 2) → K) → (Fin (d + 2) → K) → (Fin (d + 2) → K)}
  {plast : Particle (d + 2) K → Particle (d + 2) K} {threads : List (List (Particle (d + 2) K))}

/-- **C07** Free fall: a stress-free cloud moving with velocity `c` gets the velocity `c + dt * gravity`, is
displaced as a whole by `dt * (c + dt * gravity)`, keeps zero affine matrices, and the constitutive update
sees the unchanged deformation gradient (`r.F = p.F`) and volume correction. With and without MUSL, every `flip_ratio`. -/
theorem C07_free_fall (hS : S.P = mkTransferParams deg dx fr mibf m vol) (hd : deg ≠ .one) (hm : 0 < m)
    (hpbc : S.pbc = false) (hcp : S.changePos = false)
    (h : GoodGrid dx g ps) (hn : NoTinyWeights deg dx g ps) (ht : threads.flatten.Perm ps)
    (hbc : Untouched g bc) (hk : KeepsMotion plast) {c : Fin (d + 2) → K}
    (hv : ∀ p ∈ ps, p.v = c) (hB : ∀ p ∈ ps, p.Bmat = 0) (htau : ∀ p ∈ ps, p.tau = 0) :
    ∃ qs, stepOnGrid S dt grav bc plast g [] threads ps = some qs ∧
      List.Forall₂ (fun p q => q.v = c + dt • grav ∧ q.x = p.x + dt • (c + dt • grav) ∧ q.Bmat = 0 ∧
        ∃ r : Particle (d + 2) K, r.F = p.F ∧ r.tau = 0 ∧ q.F = (plast r).F ∧
          q.tau = (plast r).tau ∧ r.epsPlVolPradhana = p.epsPlVolPradhana) ps qs := by
  have hP : S.P.deg = deg := by rw [hS]; rfl
  have hP1 : S.P.oneOverDx = 1 / dx := by rw [hS]; rfl
  have hPm : S.P.particleMass = m := by rw [hS]; rfl
  obtain ⟨F, hF, hF2⟩ := stepOnGrid_eq (S := S) (dt := dt) (grav := grav) (bc := bc) hP hP1 h ht hk
  refine ⟨_, hF, forall₂_map fun p hp => ?_⟩
  obtain ⟨h1, h2, h3, h4, r, h5, h6, h7, h8, h9⟩ := hF2 p hp
  set e := stepEuler S deg dx dt grav bc g ps with he
  -- nodal velocities
  have hnode : ∀ q ∈ ps, ∀ i, (stencilOf deg dx g q.x).weight i ≠ 0 →
      let l := flatIndex g.size ((stencilOf deg dx g q.x).node i)
      0 < (raw S.P deg dx g ps l).mass ∧ e.v l = c + dt • grav ∧ e.flip l = dt • grav := by
    intro q hq i hi l
    have hpos := raw_mass_pos (P := S.P) h hn hq hi
    have hnd := (h.good (deg := deg) hq).ok.node_lt i
    have hat := eulerUpdate_at S.P dt grav bc g (p2gFinish S.P (raw S.P deg dx g ps)) hnd
    have hmass : (p2gFinish S.P (raw S.P deg dx g ps) l).mass > 0 := by
      rw [finish_mass, hPm]; exact mul_pos hpos hm
    have hvv : (p2gFinish S.P (raw S.P deg dx g ps) l).v = c := by
      show (if (raw S.P deg dx g ps l).mass > 0 then _ else _ : Fin (d + 2) → K) = c
      rw [if_pos hpos, raw_uniform hv (fun _ => hB), smul_smul, inv_mul_cancel₀ hpos.ne', one_smul]
    have hinc : incrAt S.P dt grav (p2gFinish S.P (raw S.P deg dx g ps) l) = dt • grav := by
      have : (p2gFinish S.P (raw S.P deg dx g ps) l).force = 0 := raw_force_zero htau l
      rw [incrAt, this]; simp
    refine ⟨hpos, ?_, ?_⟩
    · refine hat.1.trans ?_
      rw [if_pos hmass, hbc _ hnd, hvv, hinc]
    · refine hat.2.trans ?_
      rw [if_pos hmass, hbc _ hnd, hvv, hinc, add_sub_cancel_left]
  have hpic : ∀ q ∈ ps, interpV g.size e.v (stencilOf deg dx g q.x) = c + dt • grav := fun q hq =>
    (interp_const (h.good hq).ok fun i hi => (hnode q hq i hi).2.1).1
  have hBn : ∀ q ∈ ps, interpB g.size e.v (stencilOf deg dx g q.x) q.x = 0 := fun q hq =>
    (interp_const (h.good hq).ok fun i hi => (hnode q hq i hi).2.1).2.1
  have hflip : ∀ q ∈ ps, interpV g.size e.flip (stencilOf deg dx g q.x) = dt • grav := fun q hq =>
    (interp_const (h.good hq).ok fun i hi => (hnode q hq i hi).2.2).1
  have hblend : ∀ q ∈ ps, blendVelocity S.P
      (g2pTransfer S.P g.size e q (stencilOf deg dx g q.x)) = c + dt • grav := by
    intro q hq
    simp only [blendVelocity, g2pTransfer, hpic q hq, hflip q hq, hv q hq]
    by_cases f1 : S.P.flipRatio < -1
    · rw [if_pos f1]
    · rw [if_neg f1, if_pos (not_lt.mp f1), ← add_smul, ← add_smul]
      simp
  have hBt : ∀ q ∈ ps, (g2pTransfer S.P g.size e q (stencilOf deg dx g q.x)).Bmat = 0 := by
    intro q hq
    simp only [g2pTransfer, hBn q hq, ite_self]
  refine ⟨h1.trans (hblend p hp), ?_, h3.trans (hBt p hp), r, ?_, h7.trans (htau p hp), h5, h6, h9⟩
  · rw [h4]
    simp only [positionParticle, hpbc, hcp, Bool.false_eq_true, if_false, g2pTransfer]
    rw [show interpV g.size (stepEuler S deg dx dt grav bc g ps).v (stencilOf deg dx g p.x) = c + dt • grav from
      hpic p hp]
  · rw [h8]
    obtain ⟨D, hD⟩ := (h.good (deg := deg) hp).gradOK hd
    have hgv : ∀ i, (stencilOf deg dx g p.x).weight i ≠ 0 → gradVel S deg dx dt grav bc g ps
        (flatIndex g.size ((stencilOf deg dx g p.x).node i)) = c + dt • grav := by
      intro i hi
      cases hmu : S.useMusl with
      | false =>
        simp only [gradVel, hmu, Bool.false_eq_true, if_false]
        exact (hnode p hp i hi).2.1
      | true =>
        simp only [gradVel, hmu, if_true, muslFinish]
        have hpos := (hnode p hp i hi).1
        have hmass : (p2gFinish S.P (raw S.P deg dx g ps)
            (flatIndex g.size ((stencilOf deg dx g p.x).node i))).mass > 0 := by
          rw [finish_mass, hPm]; exact mul_pos hpos hm
        rw [if_pos hmass, raw_uniform (c := c + dt • grav)]
        · rw [finish_mass, mul_div_assoc, div_self (by rw [hPm]; exact hm.ne'), mul_one]
          have hsame : ∀ l, (raw S.P deg dx g (ps.map fun p =>
              let q := g2pTransfer S.P g.size (stepEuler S deg dx dt grav bc g ps) p
                (stencilOf deg dx g p.x)
              ({ q with v := blendVelocity S.P q } : Particle (d + 2) K)) l).mass =
              (raw S.P deg dx g ps l).mass := by
            intro l
            rw [raw_mass, raw_mass, List.map_map]; rfl
          rw [hsame, smul_smul, inv_mul_cancel₀ hpos.ne', one_smul]
        · intro q hq
          obtain ⟨q', hq', rfl⟩ := List.mem_map.mp hq
          exact hblend q' hq'
        · intro _ q hq
          obtain ⟨q', hq', rfl⟩ := List.mem_map.mp hq
          exact hBt q' hq'
    have := (interp_const (h.good (deg := deg) hp).ok hgv).2.2 D hD
    rw [trialF, this]; simp

/-- **C07** Rigid translation: a stress-free cloud moving with velocity `c` keeps that velocity, is
displaced by `dt * c`, keeps zero affine matrices, and the constitutive update sees the unchanged
deformation gradient (`r.F = p.F`). With and without MUSL, every `flip_ratio`. -/
theorem C07_rigid (hS : S.P = mkTransferParams deg dx fr mibf m vol) (hd : deg ≠ .one) (hm : 0 < m)
    (hpbc : S.pbc = false) (hcp : S.changePos = false)
    (h : GoodGrid dx g ps) (hn : NoTinyWeights deg dx g ps) (ht : threads.flatten.Perm ps)
    (hbc : Untouched g bc) (hk : KeepsMotion plast) {c : Fin (d + 2) → K}
    (hv : ∀ p ∈ ps, p.v = c) (hB : ∀ p ∈ ps, p.Bmat = 0) (htau : ∀ p ∈ ps, p.tau = 0) :
    ∃ qs, stepOnGrid S dt 0 bc plast g [] threads ps = some qs ∧
      List.Forall₂ (fun p q => q.v = c ∧ q.x = p.x + dt • c ∧ q.Bmat = 0 ∧
        ∃ r : Particle (d + 2) K, r.F = p.F ∧ r.tau = 0 ∧ q.F = (plast r).F ∧
          q.tau = (plast r).tau ∧ r.epsPlVolPradhana = p.epsPlVolPradhana) ps qs := by
  have := C07_free_fall (grav := 0) (dt := dt) hS hd hm hpbc hcp h hn ht hbc hk hv hB htau
  simpa using this

end rigid

section affine
variable {deg : Deg} {dx fr m vol : K} {mibf : Bool} {g : Axes d K}

/-- **C08** Grid-to-particle transfer of an affine field `a + C x`: velocity, affine matrix and the
trial deformation gradient handed to the constitutive update are exact. -/
theorem C08_g2p (hd : deg ≠ .one) {e : EulerArr d K} {ps : List (Particle d K)} {dt : K}
    {plast : Particle d K → Particle d K} (hk : KeepsMotion plast) (h : GoodGrid dx g ps)
    (a : Fin d → K) (C : Matrix (Fin d) (Fin d) K)
    (he : ∀ i, IsNode g i → e.v (flatIndex g.size i) = a + C *ᵥ nodeAt g i) :
    ∃ qs, G2P (mkTransferParams deg dx fr mibf m vol) false dt plast g e ps = some qs ∧
      List.Forall₂ (fun p q => q.pic = a + C *ᵥ p.x ∧
        (fr < 0 → (mkTransferParams deg dx fr mibf m vol).apicDinverse • q.Bmat = C) ∧
        ∃ r : Particle d K, r.F = p.F + dt • (C * p.F) ∧ q.F = (plast r).F ∧
          q.tau = (plast r).tau ∧ r.epsPlVolPradhana = p.epsPlVolPradhana) ps qs := by
  have hw := withStencilsG2P_eq (deg := deg) (P := mkTransferParams deg dx fr mibf m vol) rfl rfl h
  refine ⟨ps.map fun p => g2pParticle (mkTransferParams deg dx fr mibf m vol) false dt plast g.size e
    (p, stencilOf deg dx g p.x), ?_, forall₂_map fun p hp => ?_⟩
  · simp only [G2P, hw, Option.bind_eq_bind, Option.bind_some, List.map_map]; rfl
  have hg := h.good (deg := deg) hp
  obtain ⟨D, hD, hDi⟩ := apic_D (fr := fr) (m := m) (vol := vol) (mibf := mibf) hd h p hp
  set s := stencilOf deg dx g p.x with hs
  have hvc : ∀ c, e.v (flatIndex g.size (s.node c)) = (a + C *ᵥ p.x) + C *ᵥ (s.nodePos c - p.x) := by
    intro c
    rw [he _ (hg.ok.node_lt c), ← hg.pos c, mulVec_sub]; abel
  have hpic : interpV g.size e.v s = a + C *ᵥ p.x := by
    rw [interpV_eq]
    simp only [hvc, smul_add, Finset.sum_add_distrib, ← Finset.sum_smul, hg.ok.sum_weight, one_smul,
      ← mulVec_smul, ← Matrix.mulVec_sum, hg.ok.sum_weight_smul_pos, mulVec_zero, add_zero]
  have hgrad : interpGrad g.size e.v s = C := by
    rw [interpGrad_eq]
    ext i j
    simp only [hvc, Matrix.sum_apply, vecMulVec_apply, Pi.add_apply, add_mul,
      Finset.sum_add_distrib, ← Finset.mul_sum, hg.ok.sum_grad hD, mul_zero, zero_add]
    simp only [mulVec, dotProduct, Finset.sum_mul]
    rw [Finset.sum_comm]
    have : ∀ k, ∑ c, C i k * (s.nodePos c - p.x) k * s.weightGrad c j =
        C i k * if k = j then 1 else 0 := by
      intro k
      rw [← hg.ok.sum_grad_pos hD k j, Finset.mul_sum]
      exact Finset.sum_congr rfl fun c _ => by simp only [Pi.sub_apply]; ring
    simp only [this, mul_ite, mul_one, mul_zero, Finset.sum_ite_eq', Finset.mem_univ, if_true]
  have hBm : interpB g.size e.v s p.x = D • C := by
    rw [interpB_eq]
    ext i j
    simp only [hvc, Matrix.sum_apply, vecMulVec_apply, Pi.add_apply, Matrix.smul_apply, smul_eq_mul,
      Pi.sub_apply]
    have e1 : ∀ c, s.weight c * ((a i + (C *ᵥ p.x) i + (C *ᵥ (s.nodePos c - p.x)) i) *
        (s.nodePos c j - p.x j)) = (a i + (C *ᵥ p.x) i) * (s.weight c * (s.nodePos c j - p.x j)) +
        ∑ k, C i k * (s.weight c * (s.nodePos c k - p.x k) * (s.nodePos c j - p.x j)) := by
      intro c
      rw [show (C *ᵥ (s.nodePos c - p.x)) i = ∑ k, C i k * (s.nodePos c k - p.x k) from rfl,
        add_mul, mul_add, Finset.sum_mul, Finset.mul_sum]
      congr 1
      · ring
      · exact Finset.sum_congr rfl fun k _ => by ring
    simp only [e1, Finset.sum_add_distrib, ← Finset.mul_sum, hg.ok.sum_weight_pos, mul_zero, zero_add]
    rw [Finset.sum_comm]
    simp only [← Finset.mul_sum, hg.ok.sum_weight_pos_pos hD, mul_ite, mul_zero, Finset.sum_ite_eq',
      Finset.mem_univ, if_true]
    ring
  simp only [g2pParticle, Bool.false_eq_true, if_false, g2pTransfer]
  refine ⟨?_, ?_, _, ?_, rfl, rfl, rfl⟩
  · rw [hk.pic]; exact hpic
  · intro hfr
    rw [hk.Bmat]
    have hfr' : (mkTransferParams deg dx fr mibf m vol).flipRatio < 0 := hfr
    simp only [hfr', if_true]
    rw [hBm, smul_smul, hDi, one_smul]
  · rw [trialF, hgrad]

/-- **C08** The next particle-to-grid transfer of particles carrying the affine field (velocity
`a + C x`, affine matrix `B` with `apicDinverse * B = C`) puts `a + C X` on every massive node. -/
theorem C08_p2g {threads : List (List (Particle d K))} (hfr : fr < 0) (hm : 0 < m)
    (h : GoodGrid dx g threads.flatten) (a : Fin d → K) (C : Matrix (Fin d) (Fin d) K)
    (hv : ∀ p ∈ threads.flatten, p.v = a + C *ᵥ p.x)
    (hB : ∀ p ∈ threads.flatten, (mkTransferParams deg dx fr mibf m vol).apicDinverse • p.Bmat = C) :
    ∃ arr, P2G (mkTransferParams deg dx fr mibf m vol) g threads = some arr ∧
      ∀ i, IsNode g i → 0 < (arr (flatIndex g.size i)).mass →
        (arr (flatIndex g.size i)).v = a + C *ᵥ nodeAt g i := by
  refine ⟨_, P2G_eq (deg := deg) rfl rfl h, fun i hi hpos => ?_⟩
  set P := mkTransferParams deg dx fr mibf m vol with hP
  rw [finish_mass] at hpos
  have hpos' : 0 < (raw P deg dx g threads.flatten (flatIndex g.size i)).mass := by
    have := raw_mass_nonneg (P := P) (deg := deg) (dx := dx) (g := g) (ps := threads.flatten)
      (flatIndex g.size i)
    by_contra hc
    rw [le_antisymm (not_lt.mp hc) this, zero_mul] at hpos
    exact lt_irrefl _ hpos
  have hraw := raw_node (P := P) (deg := deg) h hi
  have hvv : (raw P deg dx g threads.flatten (flatIndex g.size i)).v =
      (raw P deg dx g threads.flatten (flatIndex g.size i)).mass • (a + C *ᵥ nodeAt g i) := by
    have h1 := congrArg (Cell.vHom (d := d) (K := K)) hraw
    have h2 := congrArg (massSmul (K := K) (d := d) (a + C *ᵥ nodeAt g i)) hraw
    rw [map_list_sum, List.map_map] at h1 h2
    refine h1.trans (Eq.trans ?_ h2.symm)
    congr 1
    refine List.map_congr_left fun p hp => ?_
    simp only [Function.comp]
    split_ifs with hc
    · have hf : P.flipRatio < 0 := hfr
      simp only [Cell.vHom_apply, massSmul_apply, nodeContribution, hf, if_true]
      rw [mul_comm P.apicDinverse, ← smul_smul, ← smul_mulVec, hB p hp, ← smul_add, hv p hp,
        mulVec_sub]
      congr 1
      abel
    · rw [map_zero, map_zero]
  show (if (raw P deg dx g threads.flatten (flatIndex g.size i)).mass > 0 then _ else _ :
    Fin d → K) = _
  rw [if_pos hpos', hvv, smul_smul, inv_mul_cancel₀ hpos'.ne', one_smul]

end affine
end Verif.Props
