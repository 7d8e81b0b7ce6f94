import Verif.Lemmas.Momentum
import Mathlib.Tactic.LinearCombination

set_option linter.unusedSectionVars false
set_option linter.unusedSimpArgs false

/-! First moments of grid quantities. -/

namespace Verif
open Matrix
variable {K : Type*} [Field K] [LinearOrder K] {d : ℕ}

lemma mem_gridIndices {g : Axes d K} {i : Fin d → ℕ} : i ∈ gridIndices g ↔ IsNode g i := by
  simp [gridIndices, IsNode]

lemma sum_gridIndices {M : Type*} [AddCommMonoid M] (g : Axes d K) (f : ℕ → M) :
    ∑ i ∈ gridIndices g, f (flatIndex g.size i) = ∑ l ∈ Finset.range (gridNodes g.size), f l := by
  refine Finset.sum_bij (fun i _ => flatIndex g.size i) ?_ ?_ ?_ (fun _ _ => rfl)
  · intro i hi
    exact Finset.mem_range.mpr (flatIndex_lt (n := g.size) (mem_gridIndices.mp hi))
  · intro i hi j hj e
    exact flatIndex_inj (n := g.size) (mem_gridIndices.mp hi) (mem_gridIndices.mp hj) e
  · intro l hl
    obtain ⟨i, hi, rfl⟩ := flatIndex_surj (Finset.mem_range.mp hl)
    exact ⟨i, mem_gridIndices.mpr hi, rfl⟩

/-- Position of the node with flat index `l`. -/
noncomputable def posAt (g : Axes d K) (l : ℕ) : Fin d → K := by
  classical
  exact if h : ∃ i, IsNode g i ∧ flatIndex g.size i = l then nodeAt g h.choose else 0

lemma posAt_flat {g : Axes d K} {i : Fin d → ℕ} (hi : IsNode g i) :
    posAt g (flatIndex g.size i) = nodeAt g i := by
  have h : ∃ j, IsNode g j ∧ flatIndex g.size j = flatIndex g.size i := ⟨i, hi, rfl⟩
  unfold posAt
  rw [dif_pos h, flatIndex_inj (n := g.size) h.choose_spec.1 hi h.choose_spec.2]

variable [IsStrictOrderedRing K] [FloorRing K]

section
variable {deg : Deg} {dx : K} {g : Axes d K} {P : TransferParams K} {ps : List (Particle d K)}

lemma GoodAt.posAt {x : Fin d → K} {s : Stencil d K} (h : GoodAt deg dx g x s) (c : Fin d → Fin 4) :
    Verif.posAt g (flatIndex g.size (s.node c)) = s.nodePos c := by
  rw [posAt_flat (h.ok.node_lt c), h.pos c]

/-- `c ↦ vecMulVec c.v X` -/
def vMoment (X : Fin d → K) : Cell d K →+ Matrix (Fin d) (Fin d) K where
  toFun c := vecMulVec c.v X
  map_zero' := zero_vecMulVec X
  map_add' a b := add_vecMulVec a.v b.v X

def fMoment (X : Fin d → K) : Cell d K →+ Matrix (Fin d) (Fin d) K where
  toFun c := vecMulVec c.force X
  map_zero' := zero_vecMulVec X
  map_add' a b := add_vecMulVec a.force b.force X

lemma StencilOK.sum_weight_pos_nodePos {n : Fin d → ℕ} {x : Fin d → K} {s : Stencil d K} {D : K}
    (h : StencilOK n x s) (hg : StencilGradOK D x s) (a b : Fin d) :
    ∑ c, s.weight c * (s.nodePos c a - x a) * s.nodePos c b = if a = b then D else 0 := by
  rw [← h.sum_weight_pos_pos hg a b]
  have := h.sum_weight_pos a
  rw [← sub_eq_zero, ← Finset.sum_sub_distrib]
  calc _ = ∑ c, s.weight c * (s.nodePos c a - x a) * x b := Finset.sum_congr rfl fun c _ => by ring
    _ = 0 := by rw [← Finset.sum_mul, this, zero_mul]

lemma sum_raw_vMoment (hfr : P.flipRatio < 0) (h : GoodGrid dx g ps)
    (hn : NoTinyWeights deg dx g ps)
    (hD : ∀ p ∈ ps, ∃ D, StencilGradOK D p.x (stencilOf deg dx g p.x) ∧ P.apicDinverse * D = 1) :
    ∑ l ∈ Finset.range (gridNodes g.size), vecMulVec (raw P deg dx g ps l).v (posAt g l) =
      (ps.map fun p => vecMulVec p.v p.x + p.Bmat).sum := by
  have := sum_raw_of_zero (P := P) h hn (fun l => vMoment (posAt g l)) (fun p hp c hc l => by
    show vecMulVec (contribution P p (stencilOf deg dx g p.x) c).v _ = 0
    simp only [contribution, hc, mul_zero, zero_smul, ite_self, add_zero, zero_vecMulVec])
  refine this.trans ?_
  congr 1
  refine List.map_congr_left fun p hp => ?_
  have hg := h.good (deg := deg) hp
  obtain ⟨D, hD1, hD2⟩ := hD p hp
  set s := stencilOf deg dx g p.x with hs
  ext a b
  rw [Matrix.sum_apply]
  have e : ∀ c, vMoment (posAt g (flatIndex g.size (s.node c))) (contribution P p s c) a b =
      p.v a * (s.weight c * s.nodePos c b) + P.apicDinverse *
        ∑ k, p.Bmat a k * (s.weight c * (s.nodePos c k - p.x k) * s.nodePos c b) := by
    intro c
    show vecMulVec (contribution P p s c).v _ a b = _
    rw [hg.posAt c]
    simp only [vecMulVec_apply, contribution, hfr, if_true, Pi.add_apply, Pi.smul_apply,
      smul_eq_mul, mulVec, dotProduct, Pi.sub_apply]
    rw [add_mul, Finset.mul_sum, Finset.mul_sum, Finset.sum_mul]
    congr 1
    · ring
    · exact Finset.sum_congr rfl fun k _ => by ring
  simp only [e, Finset.sum_add_distrib, ← Finset.mul_sum, hg.ok.sum_weight_nodePos]
  rw [Finset.sum_comm]
  simp only [← Finset.mul_sum, hg.ok.sum_weight_pos_nodePos hD1]
  simp only [mul_ite, mul_zero, Finset.sum_ite_eq', Finset.mem_univ, if_true, Matrix.add_apply,
    vecMulVec_apply]
  linear_combination p.Bmat a b * hD2

lemma sum_raw_fMoment (hd : deg ≠ .one) (h : GoodGrid dx g ps) (hn : NoTinyWeights deg dx g ps) :
    ∑ l ∈ Finset.range (gridNodes g.size), vecMulVec (raw P deg dx g ps l).force (posAt g l) =
      (ps.map fun p => p.tau).sum := by
  have := sum_raw_noTiny (P := P) hd h hn (fun l => fMoment (posAt g l))
  refine this.trans ?_
  congr 1
  refine List.map_congr_left fun p hp => ?_
  have hg := h.good (deg := deg) hp
  obtain ⟨D, hD⟩ := hg.gradOK hd
  set s := stencilOf deg dx g p.x with hs
  ext a b
  rw [Matrix.sum_apply]
  have e : ∀ c, fMoment (posAt g (flatIndex g.size (s.node c))) (contribution P p s c) a b =
      ∑ k, p.tau a k * (s.weightGrad c k * (s.nodePos c b - p.x b) + s.weightGrad c k * p.x b) := by
    intro c
    show vecMulVec (contribution P p s c).force _ a b = _
    rw [hg.posAt c]
    simp only [vecMulVec_apply, contribution, mulVec, dotProduct]
    rw [Finset.sum_mul]
    exact Finset.sum_congr rfl fun k _ => by ring
  simp only [e]
  rw [Finset.sum_comm]
  simp only [← Finset.mul_sum, Finset.sum_add_distrib, ← Finset.sum_mul, hg.ok.sum_grad hD,
    hg.ok.sum_grad_pos hD, zero_mul, add_zero, mul_ite, mul_one, mul_zero, Finset.sum_ite_eq,
    Finset.mem_univ, if_true]

lemma sum_raw_pos (h : GoodGrid dx g ps) (hn : NoTinyWeights deg dx g ps) :
    ∑ l ∈ Finset.range (gridNodes g.size), (raw P deg dx g ps l).mass • posAt g l =
      (ps.map fun p => p.x).sum := by
  rw [← sum_interp (P := P) h hn]
  congr 1
  refine List.map_congr_left fun p hp => ?_
  have hg := h.good (deg := deg) hp
  simp only [hg.posAt]
  funext a
  simpa [Finset.sum_apply] using hg.ok.sum_weight_nodePos a

/-- Σ over particles of `pic ⊗ x + B`. -/
lemma sum_g2p_moment (h : GoodGrid dx g ps) (hn : NoTinyWeights deg dx g ps) (v : ℕ → Fin d → K) :
    (ps.map fun p => vecMulVec (interpV g.size v (stencilOf deg dx g p.x)) p.x +
        interpB g.size v (stencilOf deg dx g p.x) p.x).sum =
      ∑ l ∈ Finset.range (gridNodes g.size),
        (raw P deg dx g ps l).mass • vecMulVec (v l) (posAt g l) := by
  rw [← sum_interp (P := P) h hn]
  congr 1
  refine List.map_congr_left fun p hp => ?_
  have hg := h.good (deg := deg) hp
  simp only [hg.posAt, interpV_eq, interpB_eq]
  ext a b
  simp only [Matrix.add_apply, Matrix.sum_apply, vecMulVec_apply, Matrix.smul_apply, smul_eq_mul,
    Finset.sum_apply, Pi.smul_apply, Pi.sub_apply, Finset.sum_mul]
  rw [← Finset.sum_add_distrib]
  exact Finset.sum_congr rfl fun c _ => by ring

end
end Verif
