import Verif.Lemmas.Accumulate
import Mathlib.Algebra.Order.BigOperators.Group.List
import Mathlib.Algebra.Module.BigOperators

set_option linter.unusedSectionVars false
set_option linter.unusedSimpArgs false

/-! P2G on a good grid. -/

namespace Verif
open Matrix
variable {K : Type*} [Field K] [LinearOrder K] [IsStrictOrderedRing K] [FloorRing K] {d : ℕ}

lemma cutoff_pos : (0 : K) < cutoff := by unfold cutoff; positivity

/-- Everything known about the stencil of an interior particle. -/
structure GoodAt (deg : Deg) (dx : K) (g : Axes d K) (x : Fin d → K) (s : Stencil d K) : Prop where
  p2g : stencilP2G deg (1 / dx) g x = some s
  g2p : stencilG2P deg (1 / dx) g x = some s
  ok : StencilOK g.size x s
  grad2 : deg = .two → StencilGradOK (dx * dx / 4) x s
  grad3 : deg = .three → StencilGradOK (dx * dx / 3) x s
  pos : ∀ c, s.nodePos c = nodeAt g (s.node c)
  weight : ∀ c, s.weight c = shape deg dx (s.nodePos c) x
  wgrad : ∀ c, s.weightGrad c = shapeGrad deg dx (s.nodePos c) x
  out : ∀ i, IsNode g i → (∀ c, s.node c ≠ i) → shape deg dx (nodeAt g i) x = 0

/-- The stencil of an interior particle. -/
def stencilOf (deg : Deg) (dx : K) (g : Axes d K) (x : Fin d → K) : Stencil d K :=
  (stencilP2G deg (1 / dx) g x).getD ⟨0, 0, 0, 0⟩

lemma goodAt {deg : Deg} {dx : K} (hdx : 0 < dx) {g : Axes d K}
    (hu : ∀ a, UniformAxis dx (g a)) {x : Fin d → K} (hi : ∀ a, InsideAxis dx (g a) (x a)) :
    GoodAt deg dx g x (stencilOf deg dx g x) := by
  obtain ⟨s, h1, h2, h3, h4, h5, h6, h7, h8, h9⟩ := exists_stencil (deg := deg) hdx hu hi
  have : stencilOf deg dx g x = s := by simp only [stencilOf, h1, Option.getD_some]
  rw [this]
  exact ⟨h1, h2, h3, h4, h5, h6, h7, h8, h9⟩

lemma GoodGrid.good {deg : Deg} {dx : K} {g : Axes d K} {ps : List (Particle d K)}
    (h : GoodGrid dx g ps) {p : Particle d K} (hp : p ∈ ps) :
    GoodAt deg dx g p.x (stencilOf deg dx g p.x) :=
  goodAt h.dx_pos h.uniform (h.inside p hp)

lemma GoodAt.gradOK {deg : Deg} {dx : K} {g : Axes d K} {x : Fin d → K} {s : Stencil d K}
    (h : GoodAt deg dx g x s) (hd : deg ≠ .one) :
    ∃ D, StencilGradOK D x s := by
  cases deg
  · exact absurd rfl hd
  · exact ⟨_, h.grad2 rfl⟩
  · exact ⟨_, h.grad3 rfl⟩

/-- Contribution of a particle to a node at `X`. -/
def nodeContribution (deg : Deg) (dx : K) (P : TransferParams K) (p : Particle d K)
    (X : Fin d → K) : Cell d K where
  mass := shape deg dx X p.x
  v := shape deg dx X p.x • p.v +
    if P.flipRatio < 0 then
      (P.apicDinverse * shape deg dx X p.x) • (p.Bmat *ᵥ (X - p.x))
    else 0
  force := p.tau *ᵥ shapeGrad deg dx X p.x
  friction := if P.useMibf then p.muI * shape deg dx X p.x else 0

lemma GoodAt.contribution {deg : Deg} {dx : K} {g : Axes d K} {s : Stencil d K} {p : Particle d K}
    (h : GoodAt deg dx g p.x s) (P : TransferParams K) (c : Fin d → Fin 4) :
    contribution P p s c = nodeContribution deg dx P p (s.nodePos c) := by
  simp only [Verif.contribution, nodeContribution, h.weight, h.wgrad]

lemma GoodAt.oneSum_node {M : Type*} [AddCommMonoid M] {deg : Deg} {dx : K} {g : Axes d K}
    {s : Stencil d K} {x : Fin d → K} (h : GoodAt deg dx g x s) (f : (Fin d → K) → M)
    {i : Fin d → ℕ} (hi : IsNode g i) :
    oneSum g.size s (fun c => f (s.nodePos c)) (flatIndex g.size i) =
      if shape deg dx (nodeAt g i) x > cutoff then f (nodeAt g i) else 0 := by
  have hi' : ∀ a, i a < g.size a := hi
  have hidx : ∀ c, flatIndex g.size (s.node c) = flatIndex g.size i ↔ s.node c = i := fun c =>
    ⟨fun e => flatIndex_inj (h.ok.node_lt c) hi' e, fun e => by rw [e]⟩
  simp only [oneSum, hidx]
  by_cases hex : ∃ c, s.node c = i
  · obtain ⟨c, rfl⟩ := hex
    rw [Finset.sum_eq_single c]
    · rw [← h.pos c, ← h.weight c]; simp
    · intro c' _ hne
      have : s.node c' ≠ s.node c := fun e => hne (h.ok.idx_inj (by rw [e]))
      simp [this]
    · intro hc; exact absurd (Finset.mem_univ c) hc
  · push Not at hex
    rw [h.out i hi hex, if_neg (not_lt.mpr cutoff_pos.le)]
    exact Finset.sum_eq_zero fun c _ => by simp [hex c]

/-- The accumulated grid (before normalisation). -/
def raw (P : TransferParams K) (deg : Deg) (dx : K) (g : Axes d K) (ps : List (Particle d K)) :
    GridArr d K := fun l =>
  (ps.map fun p => oneSum g.size (stencilOf deg dx g p.x)
    (contribution P p (stencilOf deg dx g p.x)) l).sum

section params
variable {deg : Deg} {dx : K} {g : Axes d K} {P : TransferParams K}
  (hP : P.deg = deg) (hP1 : P.oneOverDx = 1 / dx)
include hP hP1

lemma P2G_eq {ts : List (List (Particle d K))} (h : GoodGrid dx g ts.flatten) :
    P2G P g ts = some (p2gFinish P (raw P deg dx g ts.flatten)) := by
  have h1 : ts.mapM (withStencils (stencilP2G P.deg P.oneOverDx g)) =
      some (ts.map fun t => t.map fun p => (p, stencilOf deg dx g p.x)) :=
    mapM_withStencils fun p hp => by rw [hP, hP1]; exact (h.good hp).p2g
  simp only [P2G, h1, Option.bind_eq_bind, Option.bind_some]
  congr 2
  funext l
  rw [p2gAccumulate_eq, raw, ← List.map_flatten, List.map_map]
  rfl

lemma withStencilsG2P_eq {ps : List (Particle d K)} (h : GoodGrid dx g ps) :
    withStencils (stencilG2P P.deg P.oneOverDx g) ps =
      some (ps.map fun p => (p, stencilOf deg dx g p.x)) :=
  withStencils_eq_map fun p hp => by rw [hP, hP1]; exact (h.good hp).g2p

end params

section rawlemmas
variable {deg : Deg} {dx : K} {g : Axes d K} {P : TransferParams K} {ps : List (Particle d K)}

lemma raw_node (h : GoodGrid dx g ps) {i : Fin d → ℕ} (hi : IsNode g i) :
    raw P deg dx g ps (flatIndex g.size i) =
      (ps.map fun p => if shape deg dx (nodeAt g i) p.x > cutoff then
        nodeContribution deg dx P p (nodeAt g i) else 0).sum := by
  unfold raw
  congr 1
  refine List.map_congr_left fun p hp => ?_
  have hg := h.good (deg := deg) hp
  rw [← hg.oneSum_node (nodeContribution deg dx P p) hi]
  congr 1
  funext c
  exact hg.contribution P c

lemma raw_hom {M : Type*} [AddCommMonoid M] (F : Cell d K →+ M) (l : ℕ) :
    F (raw P deg dx g ps l) = (ps.map fun p => oneSum g.size (stencilOf deg dx g p.x)
      (fun c => F (contribution P p (stencilOf deg dx g p.x) c)) l).sum := by
  unfold raw
  rw [map_list_sum, List.map_map]
  congr 1
  refine List.map_congr_left fun p _ => ?_
  simp only [Function.comp, oneSum, map_sum, apply_ite F, map_zero]

lemma raw_mass (l : ℕ) : (raw P deg dx g ps l).mass =
    (ps.map fun p => oneSum g.size (stencilOf deg dx g p.x) (stencilOf deg dx g p.x).weight l).sum :=
  raw_hom Cell.massHom l

lemma oneSum_weight_nonneg {s : Stencil d K} (l : ℕ) : 0 ≤ oneSum g.size s s.weight l := by
  refine Finset.sum_nonneg fun c _ => ?_
  split_ifs with h
  · exact (cutoff_pos.trans h.1).le
  · exact le_rfl

lemma oneSum_eq_zero {s : Stencil d K} {l : ℕ} (h0 : oneSum g.size s s.weight l = 0)
    {M : Type*} [AddCommMonoid M] (f : (Fin d → Fin 4) → M) : oneSum g.size s f l = 0 := by
  refine Finset.sum_eq_zero fun c _ => ?_
  rw [if_neg]
  intro hc
  have : ∀ c ∈ Finset.univ, 0 ≤ if s.weight c > cutoff ∧ flatIndex g.size (s.node c) = l
      then s.weight c else 0 := by
    intro c _
    split_ifs with h
    · exact (cutoff_pos.trans h.1).le
    · exact le_rfl
  have := (Finset.sum_eq_zero_iff_of_nonneg this).mp h0 c (Finset.mem_univ c)
  rw [if_pos hc] at this
  exact absurd this (cutoff_pos.trans hc.1).ne'

lemma raw_mass_nonneg (l : ℕ) : 0 ≤ (raw P deg dx g ps l).mass := by
  rw [raw_mass]
  apply List.sum_nonneg
  intro a ha
  obtain ⟨p, _, rfl⟩ := List.mem_map.mp ha
  exact oneSum_weight_nonneg l

lemma list_sum_zero {ι : Type*} {L : List ι} {f : ι → K} (h0 : ∀ a ∈ L, 0 ≤ f a)
    (hs : (L.map f).sum = 0) : ∀ a ∈ L, f a = 0 := by
  induction L with
  | nil => simp
  | cons b L ih =>
    rw [List.map_cons, List.sum_cons] at hs
    have h1 := h0 b (by simp)
    have h2 : 0 ≤ (L.map f).sum := by
      apply List.sum_nonneg
      intro a ha
      obtain ⟨p, hp, rfl⟩ := List.mem_map.mp ha
      exact h0 p (by simp [hp])
    intro a ha
    rcases List.mem_cons.mp ha with rfl | ha
    · linarith
    · exact ih (fun a ha => h0 a (by simp [ha])) (by linarith) a ha

lemma raw_eq_zero {l : ℕ} (h0 : (raw P deg dx g ps l).mass = 0) : raw P deg dx g ps l = 0 := by
  rw [raw_mass] at h0
  have := list_sum_zero (fun p _ => oneSum_weight_nonneg (g := g) (s := stencilOf deg dx g p.x) l) h0
  unfold raw
  apply List.sum_eq_zero
  intro a ha
  obtain ⟨p, hp, rfl⟩ := List.mem_map.mp ha
  exact oneSum_eq_zero (this p hp) _

/-- Totals over the grid of anything additive in the cell. -/
lemma sum_raw {M : Type*} [AddCommMonoid M] (h : GoodGrid dx g ps) (F : ℕ → Cell d K →+ M) :
    ∑ l ∈ Finset.range (gridNodes g.size), F l (raw P deg dx g ps l) =
      (ps.map fun p => ∑ c, if (stencilOf deg dx g p.x).weight c > cutoff then
        F (flatIndex g.size ((stencilOf deg dx g p.x).node c))
          (contribution P p (stencilOf deg dx g p.x) c) else 0).sum := by
  unfold raw
  simp only [map_list_sum, List.map_map]
  rw [sum_listSum]
  congr 1
  refine List.map_congr_left fun p hp => ?_
  exact sum_oneSum (h.good hp).ok.idx_lt _ F

/-- The stencil form of "no tiny weights". -/
lemma NoTinyWeights.stencil (h : GoodGrid dx g ps) (hn : NoTinyWeights deg dx g ps)
    {p : Particle d K} (hp : p ∈ ps) (c : Fin d → Fin 4) :
    (stencilOf deg dx g p.x).weight c = 0 ∨ cutoff < (stencilOf deg dx g p.x).weight c := by
  have hg := h.good (deg := deg) hp
  rw [hg.weight c, hg.pos c]
  exact hn p hp _ (hg.ok.node_lt c)

lemma contribution_zero {s : Stencil d K} {p : Particle d K} {D : K} (hok : StencilOK g.size p.x s)
    (hg : StencilGradOK D p.x s) {c : Fin d → Fin 4} (hc : s.weight c = 0) :
    contribution P p s c = 0 := by
  apply Cell.ext'
  · exact hc
  · simp only [contribution, hc, mul_zero, zero_smul, ite_self, add_zero]; rfl
  · simp only [contribution, hok.grad_zero hg hc, mulVec_zero]; rfl
  · simp only [contribution, hc, mul_zero, ite_self]; rfl

lemma sum_raw_noTiny {M : Type*} [AddCommMonoid M] (hd : deg ≠ .one) (h : GoodGrid dx g ps)
    (hn : NoTinyWeights deg dx g ps) (F : ℕ → Cell d K →+ M) :
    ∑ l ∈ Finset.range (gridNodes g.size), F l (raw P deg dx g ps l) =
      (ps.map fun p => ∑ c,
        F (flatIndex g.size ((stencilOf deg dx g p.x).node c))
          (contribution P p (stencilOf deg dx g p.x) c)).sum := by
  rw [sum_raw h]
  congr 1
  refine List.map_congr_left fun p hp => Finset.sum_congr rfl fun c _ => ?_
  have hg := h.good (deg := deg) hp
  rcases hn.stencil h hp c with h0 | h0
  · obtain ⟨D, hD⟩ := hg.gradOK hd
    rw [contribution_zero hg.ok hD h0, map_zero, ite_self]
  · rw [if_pos h0]

/-- Σ_p of interpolated values = Σ_nodes raw mass × value, for every degree. -/
lemma sum_interp {M : Type*} [AddCommGroup M] [Module K M] (h : GoodGrid dx g ps)
    (hn : NoTinyWeights deg dx g ps) (φ : ℕ → M) :
    (ps.map fun p => ∑ c, (stencilOf deg dx g p.x).weight c •
        φ (flatIndex g.size ((stencilOf deg dx g p.x).node c))).sum =
      ∑ l ∈ Finset.range (gridNodes g.size), (raw P deg dx g ps l).mass • φ l := by
  have := sum_raw (P := P) (deg := deg) h
    (fun l => (AddMonoidHom.flip (AddMonoidHom.mk' (fun r : K => (DistribSMul.toAddMonoidHom M r))
      (fun a b => by ext x; exact add_smul a b x)) (φ l)).comp Cell.massHom)
  simp only [AddMonoidHom.comp_apply, Cell.massHom_apply, AddMonoidHom.flip_apply,
    AddMonoidHom.mk'_apply, DistribSMul.toAddMonoidHom_apply] at this
  rw [this]
  congr 1
  refine List.map_congr_left fun p hp => Finset.sum_congr rfl fun c _ => ?_
  rcases hn.stencil h hp c with h0 | h0
  · rw [h0, zero_smul, if_neg (not_lt.mpr cutoff_pos.le)]
  · rw [if_pos h0]; rfl

end rawlemmas
end Verif
