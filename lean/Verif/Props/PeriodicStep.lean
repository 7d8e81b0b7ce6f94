import Verif.Lemmas.PeriodicStep
import Verif.Lemmas.Angular
import Verif.Props.Momentum
import Verif.Props.Reproduce
import Verif.Props.FreeFall
import Verif.Lemmas.Simulate

set_option linter.unusedSectionVars false
set_option linter.unusedSimpArgs false
set_option linter.unusedVariables false

/-!
# C67: periodic domains, momentum and uniform motion over steps and runs
-/

namespace Verif.Props
open Verif Matrix
variable {K : Type*} [Field K] [LinearOrder K] [IsStrictOrderedRing K] [FloorRing K] {d : ℕ}

section fold
variable {deg : Deg} {dx : K} {P : TransferParams K} {L : Fin (d + 2) → K} {n : ℕ} {g : Axes (d + 2) K}
  {ps : List (Particle (d + 2) K)}

/-- Length and node positions of the periodic direction. -/
lemma periodic_axis (h0 : 0 < dx) (hL : ∀ a, 0 ≤ L a) (hper : L 0 = n * dx)
    (hg : remeshPeriodic dx L 4 = some g) :
    (g 0).length = n + 11 ∧ (∀ a, UniformAxis dx (g a)) ∧
      ∀ i, IsNode g i → nodeAt g i 0 = ((i 0 : ℕ) : K) * dx - 5 * dx := by
  obtain ⟨g', hg', hax⟩ := periodic_grid (d := d) h0 hL
  obtain rfl := Option.some.inj (hg.symm.trans hg')
  obtain ⟨⟨x0, hu⟩, hh, last, hl, h4, h5⟩ := hax 0
  simp only [Fin.val_zero, zero_ne_one, if_false] at hh
  have hne : (g 0) ≠ [] := by intro e; rw [e] at hh; cases hh
  have hpos : 0 < (g 0).length := List.length_pos_iff.mpr hne
  have hx0 : x0 = -(5 * dx) := by
    have := UniformAxis.getElem hu hpos
    rw [List.head?_eq_getElem?, List.getElem?_eq_getElem hpos, this] at hh
    simpa using hh
  have hlast : last = x0 + (((g 0).length - 1 : ℕ) : K) * dx := by
    have hlt : (g 0).length - 1 < (g 0).length := by omega
    rw [List.getLast?_eq_getElem?, List.getElem?_eq_getElem hlt, UniformAxis.getElem hu hlt] at hl
    exact (Option.some.inj hl).symm
  refine ⟨?_, fun a => (hax a).1, ?_⟩
  · rw [hlast, hx0, hper] at h4 h5
    have e1 : ((n : K) + 10) * dx ≤ (((g 0).length - 1 : ℕ) : K) * dx := by linarith
    have e2 : (((g 0).length - 1 : ℕ) : K) * dx < ((n : K) + 11) * dx := by linarith
    have e1' := le_of_mul_le_mul_right e1 h0
    have e2' := lt_of_mul_lt_mul_right e2 h0.le
    have e3 : n + 10 ≤ (g 0).length - 1 := by exact_mod_cast e1'
    have e4 : (g 0).length - 1 < n + 11 := by exact_mod_cast e2'
    omega
  · intro i hi
    have := UniformAxis.getElem hu (hi 0)
    simp only [nodeAt, List.getD_eq_getElem?_getD, List.getElem?_eq_getElem (hi 0), Option.getD_some, this, hx0]
    ring

/-- The nodes of one period: first coordinate in `[0, L)`. -/
def onePeriod (g : Axes (d + 2) K) (n : ℕ) : Finset (Fin (d + 2) → ℕ) :=
  (gridIndices g).filter fun i => 5 ≤ i 0 ∧ i 0 < n + 5

lemma isNode_update {g : Axes (d + 2) K} {i : Fin (d + 2) → ℕ} (hi : IsNode g i) {k : ℕ} (hk : k < (g 0).length) :
    IsNode g (Function.update i 0 k) := by
  intro a
  by_cases ha : a = 0
  · subst ha; simpa using hk
  · rw [Function.update_of_ne ha]; exact hi a

/-- A sum over the grid, folded into one period. -/
lemma fold_period {M : Type*} [AddCommMonoid M] (hn : 8 ≤ n) (hlen : (g 0).length = n + 11)
    (F : (Fin (d + 2) → ℕ) → M) :
    ∑ i ∈ gridIndices g, F i = ∑ i ∈ onePeriod g n,
      (F i + ((if n ≤ i 0 then F (Function.update i 0 (i 0 - n)) else 0) +
        if i 0 < 11 then F (Function.update i 0 (i 0 + n)) else 0)) := by
  have hsplit : ∑ i ∈ gridIndices g, F i = ∑ i ∈ onePeriod g n, F i +
      (∑ i ∈ (gridIndices g).filter (fun i => i 0 < 5), F i +
        ∑ i ∈ (gridIndices g).filter (fun i => n + 5 ≤ i 0), F i) := by
    rw [← Finset.sum_filter_add_sum_filter_not (gridIndices g) (fun i => 5 ≤ i 0 ∧ i 0 < n + 5)]
    congr 1
    rw [← Finset.sum_filter_add_sum_filter_not (Finset.filter _ _) (fun i => i 0 < 5), Finset.filter_filter,
      Finset.filter_filter]
    congr 1
    · refine Finset.sum_congr (Finset.filter_congr fun i _ => ?_) fun _ _ => rfl
      constructor
      · exact fun h => h.2
      · exact fun h => ⟨by omega, h⟩
    · refine Finset.sum_congr (Finset.filter_congr fun i _ => ?_) fun _ _ => rfl
      constructor
      · rintro ⟨h, h'⟩; omega
      · intro h; omega
  rw [hsplit, Finset.sum_add_distrib, Finset.sum_add_distrib]
  congr 1
  congr 1
  · rw [← Finset.sum_filter]
    refine Finset.sum_nbij' (fun i => Function.update i 0 (i 0 + n)) (fun i => Function.update i 0 (i 0 - n)) ?_ ?_ ?_ ?_ ?_
    · intro i hi
      simp only [onePeriod, Finset.mem_filter, mem_gridIndices] at hi ⊢
      simp only [Function.update_self]
      exact ⟨⟨isNode_update hi.1 (by omega), by omega⟩, by omega⟩
    · intro i hi
      simp only [onePeriod, Finset.mem_filter, mem_gridIndices] at hi ⊢
      simp only [Function.update_self]
      exact ⟨isNode_update hi.1.1 (by omega), by omega⟩
    · intro i hi; simp
    · intro i hi
      simp only [Finset.mem_filter] at hi
      simp [Nat.sub_add_cancel hi.2]
    · intro i hi; simp
  · rw [← Finset.sum_filter]
    refine Finset.sum_nbij' (fun i => Function.update i 0 (i 0 - n)) (fun i => Function.update i 0 (i 0 + n)) ?_ ?_ ?_ ?_ ?_
    · intro i hi
      simp only [onePeriod, Finset.mem_filter, mem_gridIndices] at hi ⊢
      simp only [Function.update_self]
      have := hi.1 0
      exact ⟨⟨isNode_update hi.1 (by omega), by omega⟩, by omega⟩
    · intro i hi
      simp only [onePeriod, Finset.mem_filter, mem_gridIndices] at hi ⊢
      simp only [Function.update_self]
      exact ⟨isNode_update hi.1.1 (by omega), by omega⟩
    · intro i hi
      simp only [Finset.mem_filter] at hi
      simp [Nat.sub_add_cancel (show n ≤ i 0 by omega)]
    · intro i hi; simp
    · intro i hi
      simp only [Finset.mem_filter] at hi
      simp [Nat.sub_add_cancel (show n ≤ i 0 by omega)]

variable (h0 : 0 < dx) (hL : ∀ a, 0 ≤ L a) (hn : 8 ≤ n) (hper : L 0 = n * dx)
  (hg : remeshPeriodic dx L 4 = some g) (hd : InDomain dx L ps)
include h0 hL hn hper hg hd

lemma periodic_good : GoodGrid dx g (ps ++ ghosts dx (L 0) 4 ps) ∧ GoodGrid dx g ps := by
  obtain ⟨g', hg', hgood⟩ := C25_inside h0 hL hd
  obtain rfl := Option.some.inj (hg.symm.trans hg')
  exact ⟨hgood, hgood.dx_pos, hgood.uniform, fun p hp => hgood.inside p (List.mem_append_left _ hp)⟩

/-- Real particles reach at most two cells beyond the domain. -/
lemma raw_real_zero {i : Fin (d + 2) → ℕ} (hi : IsNode g i) (h : i 0 < 3 ∨ n + 7 < i 0) :
    raw P deg dx g ps (flatIndex g.size i) = 0 := by
  obtain ⟨hlen, -, hpos⟩ := periodic_axis h0 hL hper hg
  rw [raw_node (periodic_good h0 hL hn hper hg hd).2 hi]
  apply List.sum_eq_zero
  intro a ha
  obtain ⟨p, hp, rfl⟩ := List.mem_map.mp ha
  have hx := hd.x p hp
  refine nodeC_far (P := P) (deg := deg) h0 (X := nodeAt g i) (p := p) ?_
  rw [hpos i hi]
  rcases h with h | h
  · have : ((i 0 : ℕ) : K) ≤ 2 := by exact_mod_cast (by omega : i 0 ≤ 2)
    have := mul_le_mul_of_nonneg_right this h0.le
    rw [abs_of_nonneg] <;> linarith [hx.1]
  · have : (n : K) + 8 ≤ ((i 0 : ℕ) : K) := by exact_mod_cast (by omega : n + 8 ≤ i 0)
    have := mul_le_mul_of_nonneg_right this h0.le
    have hx2 := hx.2
    rw [hper] at hx2
    rw [abs_of_nonpos] <;> linarith

/-- In one period the grid holds what the real particles give to all nodes, folded. -/
lemma raw_all_fold {i : Fin (d + 2) → ℕ} (hi : i ∈ onePeriod g n) :
    raw P deg dx g (ps ++ ghosts dx (L 0) 4 ps) (flatIndex g.size i) =
      raw P deg dx g ps (flatIndex g.size i) +
        ((if n ≤ i 0 then raw P deg dx g ps (flatIndex g.size (Function.update i 0 (i 0 - n))) else 0) +
          if i 0 < 11 then raw P deg dx g ps (flatIndex g.size (Function.update i 0 (i 0 + n))) else 0) := by
  obtain ⟨hlen, -, hpos⟩ := periodic_axis h0 hL hper hg
  obtain ⟨hall, hreal⟩ := periodic_good h0 hL hn hper hg hd
  simp only [onePeriod, Finset.mem_filter, mem_gridIndices] at hi
  obtain ⟨hi, h5, hn5⟩ := hi
  have hL8 : 8 * dx ≤ L 0 := by
    rw [hper]
    exact mul_le_mul_of_nonneg_right (by exact_mod_cast hn) h0.le
  have hX := hpos i hi
  have hX0 : 0 ≤ nodeAt g i 0 := by
    rw [hX]
    have : (5 : K) ≤ ((i 0 : ℕ) : K) := by exact_mod_cast h5
    linarith [mul_le_mul_of_nonneg_right this h0.le]
  have hX1 : nodeAt g i 0 ≤ L 0 - dx := by
    rw [hX, hper]
    have : ((i 0 : ℕ) : K) ≤ n + 4 := by exact_mod_cast (by omega : i 0 ≤ n + 4)
    linarith [mul_le_mul_of_nonneg_right this h0.le]
  have hmove : ∀ k, IsNode g (Function.update i 0 k) →
      nodeAt g (Function.update i 0 k) = Function.update (nodeAt g i) 0 (((k : ℕ) : K) * dx - 5 * dx) := by
    intro k hk
    funext a
    by_cases ha : a = 0
    · subst ha; rw [hpos _ hk]; simp
    · rw [Function.update_of_ne ha]; simp only [nodeAt, Function.update_of_ne ha]
  have e1 : raw P deg dx g (ps ++ ghosts dx (L 0) 4 ps) (flatIndex g.size i) =
      (ps.map fun p => nodeC P deg dx (nodeAt g i) p + (nodeC P deg dx (nodeAt g i) (shiftX (-L 0) p) +
        nodeC P deg dx (nodeAt g i) (shiftX (L 0) p))).sum := by
    rw [raw_node hall hi]
    exact sum_ghosts h0 hL8 hd.x (by linarith) (by linarith)
  have hs1 : ∀ p, nodeC P deg dx (nodeAt g i) (shiftX (-L 0) p) =
      nodeC P deg dx (Function.update (nodeAt g i) 0 (nodeAt g i 0 + L 0)) p := by
    intro p
    have := nodeC_shift (P := P) (deg := deg) (dx := dx) (L 0) (nodeAt g i) (shiftX (-L 0) p)
    rw [shiftX_shiftX] at this
    rw [← this]; congr 1; simp [shiftX]
  have hs2 : ∀ p, nodeC P deg dx (nodeAt g i) (shiftX (L 0) p) =
      nodeC P deg dx (Function.update (nodeAt g i) 0 (nodeAt g i 0 - L 0)) p := by
    intro p
    have := nodeC_shift (P := P) (deg := deg) (dx := dx) (-L 0) (nodeAt g i) (shiftX (L 0) p)
    rw [shiftX_shiftX] at this
    rw [← this, sub_eq_add_neg]; congr 1; simp [shiftX]
  rw [e1, sum_map_add', sum_map_add', raw_node hreal hi, add_comm (List.sum _) (List.sum _)]
  congr 1
  congr 1
  · by_cases hc : n ≤ i 0
    · have hk : IsNode g (Function.update i 0 (i 0 - n)) := isNode_update hi (by omega)
      rw [if_pos hc, raw_node hreal hk]
      congr 1
      refine List.map_congr_left fun p hp => ?_
      rw [hs2, hmove _ hk]
      have : ((i 0 - n : ℕ) : K) * dx - 5 * dx = nodeAt g i 0 - L 0 := by
        rw [hX, hper, Nat.cast_sub hc]; ring
      rw [this]; rfl
    · rw [if_neg hc]
      apply List.sum_eq_zero
      intro a ha
      obtain ⟨p, hp, rfl⟩ := List.mem_map.mp ha
      rw [hs2]
      refine nodeC_far h0 ?_
      have hx := hd.x p hp
      have : ((i 0 : ℕ) : K) ≤ n - 1 := by
        have : ((i 0 + 1 : ℕ) : K) ≤ n := by exact_mod_cast (by omega : i 0 + 1 ≤ n)
        push_cast at this; linarith
      have := mul_le_mul_of_nonneg_right this h0.le
      rw [Function.update_self, hX, hper, abs_of_nonneg] <;> linarith [hx.1]
  · by_cases hc : i 0 < 11
    · have hk : IsNode g (Function.update i 0 (i 0 + n)) := isNode_update hi (by omega)
      rw [if_pos hc, raw_node hreal hk]
      congr 1
      refine List.map_congr_left fun p hp => ?_
      rw [hs1, hmove _ hk]
      have : ((i 0 + n : ℕ) : K) * dx - 5 * dx = nodeAt g i 0 + L 0 := by
        rw [hX, hper]; push_cast; ring
      rw [this]; rfl
    · rw [if_neg hc]
      apply List.sum_eq_zero
      intro a ha
      obtain ⟨p, hp, rfl⟩ := List.mem_map.mp ha
      rw [hs1]
      refine nodeC_far h0 ?_
      have hx := hd.x p hp
      have : (11 : K) ≤ ((i 0 : ℕ) : K) := by exact_mod_cast (by omega : 11 ≤ i 0)
      have := mul_le_mul_of_nonneg_right this h0.le
      rw [Function.update_self, hX, abs_of_nonpos] <;> linarith [hx.2]

/-- Sums over the grid of what the real particles give, weighted with a periodic function, are sums over one
period of what real particles and ghosts give. -/
lemma sum_period {M : Type*} [AddCommMonoid M] (φ : (Fin (d + 2) → ℕ) → Cell (d + 2) K →+ M)
    (hφ : ∀ i i', IsNode g i → IsNode g i' → i' 0 = i 0 + n → (∀ a ≠ 0, i' a = i a) →
      -(2 * dx) ≤ nodeAt g i 0 → nodeAt g i 0 ≤ 2 * dx → φ i' = φ i) :
    ∑ i ∈ gridIndices g, φ i (raw P deg dx g ps (flatIndex g.size i)) =
      ∑ i ∈ onePeriod g n, φ i (raw P deg dx g (ps ++ ghosts dx (L 0) 4 ps) (flatIndex g.size i)) := by
  obtain ⟨hlen, -, hpos⟩ := periodic_axis h0 hL hper hg
  rw [fold_period hn hlen]
  refine Finset.sum_congr rfl fun i hi => ?_
  rw [raw_all_fold h0 hL hn hper hg hd hi, map_add, map_add]
  simp only [onePeriod, Finset.mem_filter, mem_gridIndices] at hi
  obtain ⟨hi, h5, hn5⟩ := hi
  congr 1
  have hloc : ∀ j : Fin (d + 2) → ℕ, IsNode g j → 3 ≤ j 0 → j 0 ≤ 7 →
      -(2 * dx) ≤ nodeAt g j 0 ∧ nodeAt g j 0 ≤ 2 * dx := by
    intro j hj h3 h7
    rw [hpos j hj]
    have a1 : (3 : K) ≤ ((j 0 : ℕ) : K) := by exact_mod_cast h3
    have a2 : ((j 0 : ℕ) : K) ≤ 7 := by exact_mod_cast h7
    constructor
    · linarith [mul_le_mul_of_nonneg_right a1 h0.le]
    · linarith [mul_le_mul_of_nonneg_right a2 h0.le]
  congr 1
  · by_cases hc : n ≤ i 0
    · rw [if_pos hc, if_pos hc]
      have hk : IsNode g (Function.update i 0 (i 0 - n)) := isNode_update hi (by omega)
      by_cases h3 : i 0 - n < 3
      · rw [raw_real_zero h0 hL hn hper hg hd hk (Or.inl (by simpa using h3)), map_zero, map_zero]
      · obtain ⟨b1, b2⟩ := hloc _ hk (by simp; omega) (by simp; omega)
        rw [hφ _ i hk hi (by simp; omega) (fun a ha => by rw [Function.update_of_ne ha]) b1 b2]
    · rw [if_neg hc, if_neg hc, map_zero]
  · by_cases hc : i 0 < 11
    · rw [if_pos hc, if_pos hc]
      have hk : IsNode g (Function.update i 0 (i 0 + n)) := isNode_update hi (by omega)
      by_cases h3 : 7 < i 0
      · rw [raw_real_zero h0 hL hn hper hg hd hk (Or.inr (by simp; omega)), map_zero, map_zero]
      · obtain ⟨b1, b2⟩ := hloc _ hi (by omega) (by omega)
        rw [hφ i _ hi hk (by simp) (fun a ha => by rw [Function.update_of_ne ha]) b1 b2]
    · rw [if_neg hc, if_neg hc, map_zero]

end fold

section step
variable {deg : Deg} {dx fr m vol : K} {n : ℕ} {g : Axes (d + 2) K} {S : StepParams (d + 2) K}
  {ps : List (Particle (d + 2) K)} {dt : K} {grav : Fin (d + 2) → K}
  {bc : ℕ → (Fin (d + 2) → K) → (Fin (d + 2) → K) → (Fin (d + 2) → K)}
  {plast : Particle (d + 2) K → Particle (d + 2) K} {threads : List (List (Particle (d + 2) K))}

/-- **C67** In a periodic domain one step changes the total momentum by exactly `dt * total mass * gravity`, for
every `flip_ratio`, all stresses and every constitutive update, with or without MUSL. The period is a whole number
`n ≥ 8` of cells. -/
theorem C67_step (hS : S.P = mkTransferParams deg dx fr false m vol) (hdeg : deg ≠ .one) (h0 : 0 < dx) (hm : 0 < m)
    (hL : ∀ a, 0 ≤ S.L a) (hn : 8 ≤ n) (hper : S.L 0 = n * dx) (hg : remeshPeriodic dx S.L 4 = some g)
    (hd : InDomain dx S.L ps) (ht : threads.flatten.Perm (ps ++ ghosts dx (S.L 0) 4 ps))
    (hw : NoTinyWeights deg dx g ps) (hbc : Untouched g bc) (hk : KeepsMotion plast) :
    ∃ qs, stepOnGrid S dt grav bc plast g (ghosts dx (S.L 0) 4 ps) threads ps = some qs ∧
      qs.length = ps.length ∧ momentum m qs = momentum m ps + (dt * (ps.length * m)) • grav := by
  have hP : S.P.deg = deg := by rw [hS]; rfl
  have hP1 : S.P.oneOverDx = 1 / dx := by rw [hS]; rfl
  have hPm : S.P.particleMass = m := by rw [hS]; rfl
  obtain ⟨hall, hreal⟩ := periodic_good h0 hL hn hper hg hd
  obtain ⟨F, hF, hF2⟩ := stepOnGrid_ghosts (S := S) (dt := dt) (grav := grav) (bc := bc)
    (ghs := ghosts dx (S.L 0) 4 ps) hP hP1 (by rw [hS]; rfl) hreal hall ht hk
  refine ⟨_, hF, by simp, ?_⟩
  set all := ps ++ ghosts dx (S.L 0) 4 ps with hall'
  set e := stepEuler S deg dx dt grav bc g all with he
  set arr := p2gFinish S.P (raw S.P deg dx g all) with harr
  -- periodicity of the grid
  obtain ⟨g', arr', hg', ha', hperi, -⟩ := C25_periodic (deg := deg) (fr := fr) (m := m) (vol := vol) h0 hL hn hper
    hd (threads := [all]) (by simp [hall'])
  obtain rfl := Option.some.inj (hg.symm.trans hg')
  have harr' : arr' = arr := by
    have := P2G_eq (P := S.P) (deg := deg) (ts := [all]) hP hP1 (by simpa using hall)
    rw [hS] at this
    rw [ha'] at this
    have := Option.some.inj this
    rw [this, harr, hS]; simp
  rw [harr'] at hperi
  have hat : ∀ i, IsNode g i → (e.v (flatIndex g.size i) = if (arr (flatIndex g.size i)).mass > 0 then
      (arr (flatIndex g.size i)).v + incrAt S.P dt grav (arr (flatIndex g.size i)) else (arr (flatIndex g.size i)).v) ∧
      (e.flip (flatIndex g.size i) = if (arr (flatIndex g.size i)).mass > 0 then
      (arr (flatIndex g.size i)).v + incrAt S.P dt grav (arr (flatIndex g.size i)) - (arr (flatIndex g.size i)).v
      else 0) := by
    intro i hi
    have := eulerUpdate_at S.P dt grav bc g arr (i := i) hi
    simp only [hbc i hi] at this
    exact this
  -- sums over one period
  have hsum : ∀ φ : ℕ → Fin (d + 2) → K,
      (∀ i i', IsNode g i → IsNode g i' → i' 0 = i 0 + n → (∀ a ≠ 0, i' a = i a) →
        -(2 * dx) ≤ nodeAt g i 0 → nodeAt g i 0 ≤ 2 * dx →
        φ (flatIndex g.size i') = φ (flatIndex g.size i)) →
      (ps.map fun p => m • interpV g.size φ (stencilOf deg dx g p.x)).sum =
        ∑ i ∈ onePeriod g n, (arr (flatIndex g.size i)).mass • φ (flatIndex g.size i) := by
    intro φ hφ
    have h1 := sum_interpV (P := S.P) hreal hw φ
    rw [hPm] at h1
    rw [h1, ← sum_gridIndices]
    simp only [finish_mass, hPm, mul_comm _ m, ← smul_smul, ← Finset.smul_sum]
    rw [harr]
    simp only [finish_mass, hPm, mul_comm _ m, ← smul_smul, ← Finset.smul_sum]
    congr 1
    exact sum_period (P := S.P) (deg := deg) h0 hL hn hper hg hd (fun i => massSmul (φ (flatIndex g.size i)))
      (fun i i' hi hi' e1 e2 e3 e4 => by rw [hφ i i' hi hi' e1 e2 e3 e4])
  have hnode := fun i (hi : i ∈ onePeriod g n) =>
    euler_node (deg := deg) (dx := dx) (dt := dt) (grav := grav) (ps := all) (P := S.P) (by rw [hPm]; exact hm) hbc
      (flatIndex_lt (n := g.size) (mem_gridIndices.mp (Finset.mem_filter.mp hi).1))
  have htot : ∀ {M : Type _} [AddCommMonoid M] (f : Cell (d + 2) K →+ M),
      ∑ i ∈ onePeriod g n, f (raw S.P deg dx g all (flatIndex g.size i)) =
        ∑ l ∈ Finset.range (gridNodes g.size), f (raw S.P deg dx g ps l) := by
    intro M _ f
    rw [← sum_gridIndices g fun l => f (raw S.P deg dx g ps l)]
    exact (sum_period (P := S.P) (deg := deg) h0 hL hn hper hg hd (fun _ => f) (fun _ _ _ _ _ _ _ _ => rfl)).symm
  have hM : ∑ i ∈ onePeriod g n, (dt * (arr (flatIndex g.size i)).mass) • grav = (dt * (ps.length * m)) • grav := by
    rw [← Finset.sum_smul, ← Finset.mul_sum]
    congr 2
    simp only [harr, finish_mass, ← Finset.sum_mul, hPm]
    congr 1
    have := htot Cell.massHom
    simp only [Cell.massHom_apply] at this
    rw [this, sum_raw_mass hreal hw]
  have hV : ∑ i ∈ onePeriod g n, (raw S.P deg dx g all (flatIndex g.size i)).v = (ps.map fun p => p.v).sum := by
    have := htot Cell.vHom
    simp only [Cell.vHom_apply] at this
    rw [this, sum_raw_v hreal hw]
  have hFo : ∑ i ∈ onePeriod g n, (raw S.P deg dx g all (flatIndex g.size i)).force = 0 := by
    have := htot Cell.forceHom
    simp only [Cell.forceHom_apply] at this
    rw [this, sum_raw_force hdeg hreal hw]
  have h1' : m • (ps.map fun p => interpV g.size e.v (stencilOf deg dx g p.x)).sum =
      m • (ps.map fun p => p.v).sum + (dt * (ps.length * m)) • grav := by
    rw [← sum_map_smul, hsum e.v (fun i i' hi hi' a1 a2 a3 a4 => by
      rw [(hat i hi).1, (hat i' hi').1, (hperi i i' hi hi' a1 a2 a3 a4).2])]
    refine (Finset.sum_congr rfl fun i hi => (hnode i hi).1).trans ?_
    rw [Finset.sum_add_distrib, Finset.sum_sub_distrib,
      ← Finset.smul_sum, ← Finset.smul_sum, hV, hFo, smul_zero, sub_zero, hPm]
    rw [← hM]
  have h2' : m • (ps.map fun p => interpV g.size e.flip (stencilOf deg dx g p.x)).sum =
      (dt * (ps.length * m)) • grav := by
    rw [← sum_map_smul, hsum e.flip (fun i i' hi hi' a1 a2 a3 a4 => by
      rw [(hat i hi).2, (hat i' hi').2, (hperi i i' hi hi' a1 a2 a3 a4).2])]
    refine (Finset.sum_congr rfl fun i hi => (hnode i hi).2).trans ?_
    rw [Finset.sum_add_distrib, Finset.sum_neg_distrib,
      ← Finset.smul_sum, hFo, smul_zero, neg_zero, zero_add]
    rw [← hM]
  simp only [momentum]
  rw [List.map_map, sum_map_smul]
  have hv : ∀ p ∈ ps, ((fun q => m • q.v) ∘ F) p = m • blendVelocity S.P
      (g2pTransfer S.P g.size e p (stencilOf deg dx g p.x)) := fun p hp => by
    simp only [Function.comp, (hF2 p hp).1]
  rw [List.map_congr_left hv, sum_map_smul]
  by_cases hc1 : S.P.flipRatio < -1
  · simp only [blendVelocity, hc1, if_true, g2pTransfer]
    exact h1'
  · have hge : S.P.flipRatio ≥ -1 := not_lt.mp hc1
    have key : ∀ a : K, m • (ps.map fun p => a • (p.v + interpV g.size e.flip (stencilOf deg dx g p.x)) +
        (1 - a) • interpV g.size e.v (stencilOf deg dx g p.x)).sum =
        m • (ps.map fun p => p.v).sum + (dt * (ps.length * m)) • grav := by
      intro a
      rw [sum_map_add', sum_map_smul, sum_map_smul, sum_map_add', smul_add, smul_comm m a,
        smul_comm m (1 - a), smul_add m, h1', h2']
      rw [sub_smul, one_smul]; abel
    by_cases hc2 : S.P.flipRatio < 0
    · simp only [blendVelocity, hc1, hc2, if_true, if_false, g2pTransfer, hge]
      exact key _
    · simp only [blendVelocity, hc1, hc2, if_true, if_false, g2pTransfer, hge]
      exact key _

/-- Transfer of a stress-free cloud with uniform velocity: `ps` are the particles of the domain, `all` additionally
contains ghosts. -/
lemma uniform_ghosts {all : List (Particle (d + 2) K)} (hm : 0 < S.P.particleMass)
    (h : GoodGrid dx g ps) (hn : NoTinyWeights deg dx g ps) (hsub : ∀ p ∈ ps, p ∈ all)
    (ha : GoodGrid dx g all) (hbc : Untouched g bc) {c : Fin (d + 2) → K}
    (hv : ∀ p ∈ all, p.v = c) (hB : ∀ p ∈ all, p.Bmat = 0) (htau : ∀ p ∈ all, p.tau = 0) {p : Particle (d + 2) K}
    (hp : p ∈ ps) :
    let e := stepEuler S deg dx dt grav bc g all
    let s := stencilOf deg dx g p.x
    (∀ i, s.weight i ≠ 0 → 0 < (raw S.P deg dx g all (flatIndex g.size (s.node i))).mass ∧
      e.v (flatIndex g.size (s.node i)) = c + dt • grav) ∧
    interpV g.size e.v s = c + dt • grav ∧
    blendVelocity S.P (g2pTransfer S.P g.size e p s) = c + dt • grav ∧ (g2pTransfer S.P g.size e p s).Bmat = 0 := by
  intro e s
  have hnode : ∀ i, s.weight i ≠ 0 →
      0 < (raw S.P deg dx g all (flatIndex g.size (s.node i))).mass ∧
      e.v (flatIndex g.size (s.node i)) = c + dt • grav ∧ e.flip (flatIndex g.size (s.node i)) = dt • grav := by
    intro i hi
    have hpos : 0 < (raw S.P deg dx g all (flatIndex g.size (s.node i))).mass := by
      refine lt_of_le_of_ne (raw_mass_nonneg _) fun h0 => ?_
      rw [raw_mass] at h0
      have := list_sum_zero (fun q _ => oneSum_weight_nonneg (g := g) (s := stencilOf deg dx g q.x) _)
        h0.symm p (hsub p hp)
      have h2 := oneSum_eq_zero this (fun _ => (1 : K))
      have hw := (hn.stencil h hp i).resolve_left hi
      have h3 : ∀ c' ∈ Finset.univ, (0 : K) ≤ if (stencilOf deg dx g p.x).weight c' > cutoff ∧
          flatIndex g.size ((stencilOf deg dx g p.x).node c') =
            flatIndex g.size ((stencilOf deg dx g p.x).node i) then 1 else 0 := by
        intro c' _; split_ifs <;> norm_num
      have h4 := (Finset.sum_eq_zero_iff_of_nonneg h3).mp h2 i (Finset.mem_univ i)
      rw [if_pos ⟨hw, rfl⟩] at h4
      exact one_ne_zero h4
    have hnd := (h.good (deg := deg) hp).ok.node_lt i
    have hat := eulerUpdate_at S.P dt grav bc g (p2gFinish S.P (raw S.P deg dx g all)) hnd
    have hmass : (p2gFinish S.P (raw S.P deg dx g all) (flatIndex g.size (s.node i))).mass > 0 := by
      rw [finish_mass]; exact mul_pos hpos hm
    have hvv : (p2gFinish S.P (raw S.P deg dx g all) (flatIndex g.size (s.node i))).v = c := by
      show (if (raw S.P deg dx g all _).mass > 0 then _ else _ : Fin (d + 2) → K) = c
      rw [if_pos hpos, raw_uniform hv (fun _ => hB), smul_smul, inv_mul_cancel₀ hpos.ne', one_smul]
    have hinc : incrAt S.P dt grav (p2gFinish S.P (raw S.P deg dx g all) (flatIndex g.size (s.node i))) =
        dt • grav := by
      have : (p2gFinish S.P (raw S.P deg dx g all) (flatIndex g.size (s.node i))).force = 0 :=
        raw_force_zero htau _
      rw [incrAt, this]; simp
    refine ⟨hpos, ?_, ?_⟩
    · refine hat.1.trans ?_
      rw [if_pos hmass, hbc _ hnd, hvv, hinc]
    · refine hat.2.trans ?_
      rw [if_pos hmass, hbc _ hnd, hvv, hinc, add_sub_cancel_left]
  have hpic : interpV g.size e.v s = c + dt • grav :=
    (interp_const (h.good hp).ok fun i hi => (hnode i hi).2.1).1
  have hBn : interpB g.size e.v s p.x = 0 :=
    (interp_const (h.good hp).ok fun i hi => (hnode i hi).2.1).2.1
  have hflip : interpV g.size e.flip s = dt • grav :=
    (interp_const (h.good hp).ok fun i hi => (hnode i hi).2.2).1
  refine ⟨fun i hi => ⟨(hnode i hi).1, (hnode i hi).2.1⟩, hpic, ?_, ?_⟩
  · simp only [blendVelocity, g2pTransfer, hpic, hflip, hv p (hsub p hp)]
    by_cases f1 : S.P.flipRatio < -1
    · rw [if_pos f1]
    · rw [if_neg f1, if_pos (not_lt.mp f1), ← add_smul, ← add_smul]
      simp
  · simp only [g2pTransfer, hBn, ite_self]

lemma ghosts_mem {Lx : K} {sf : ℕ} {q : Particle (d + 1) K} {ps : List (Particle (d + 1) K)}
    (h : q ∈ ghosts dx Lx sf ps) : ∃ p ∈ ps, ∃ y, q = { p with x := y } := by
  obtain ⟨p, hp, hpq⟩ := List.mem_filterMap.mp h
  obtain ⟨y, -, rfl⟩ := Option.map_eq_some_iff.mp hpq
  exact ⟨p, hp, y, rfl⟩

/-- **C67** Free fall in a periodic domain without MUSL: a stress-free cloud moving with velocity `c` gets the
velocity `c + dt * gravity`, is displaced by `dt * (c + dt * gravity)` (up to the period in the first direction),
and the constitutive update sees the unchanged deformation gradient. False with MUSL, see `C67_free_fall_false`. -/
theorem C67_free_fall_partial (hS : S.P = mkTransferParams deg dx fr false m vol) (hdeg : deg ≠ .one) (h0 : 0 < dx)
    (hm : 0 < m) (hL : ∀ a, 0 ≤ S.L a) (hn : 8 ≤ n) (hper : S.L 0 = n * dx)
    (hg : remeshPeriodic dx S.L 4 = some g) (hpbc : S.pbc = true) (hcp : S.changePos = false)
    (hmusl : S.useMusl = false)
    (hd : InDomain dx S.L ps) (ht : threads.flatten.Perm (ps ++ ghosts dx (S.L 0) 4 ps))
    (hw : NoTinyWeights deg dx g ps) (hbc : Untouched g bc) (hk : KeepsMotion plast) {c : Fin (d + 2) → K}
    (hv : ∀ p ∈ ps, p.v = c) (hB : ∀ p ∈ ps, p.Bmat = 0) (htau : ∀ p ∈ ps, p.tau = 0) :
    ∃ qs, stepOnGrid S dt grav bc plast g (ghosts dx (S.L 0) 4 ps) threads ps = some qs ∧
      List.Forall₂ (fun p q => q.v = c + dt • grav ∧ q.Bmat = 0 ∧
        (let y := p.x 0 + dt * (c 0 + dt * grav 0)
         q.x 0 = if y > S.L 0 then y - S.L 0 else if y < 0 then S.L 0 + y else y) ∧
        (∀ a ≠ 0, q.x a = p.x a + dt * (c a + dt * grav a)) ∧
        ∃ r : Particle (d + 2) K, r.F = p.F ∧ r.tau = 0 ∧ q.F = (plast r).F ∧
          q.tau = (plast r).tau) ps qs := by
  have hP : S.P.deg = deg := by rw [hS]; rfl
  have hP1 : S.P.oneOverDx = 1 / dx := by rw [hS]; rfl
  have hPm : S.P.particleMass = m := by rw [hS]; rfl
  obtain ⟨hall, hreal⟩ := periodic_good h0 hL hn hper hg hd
  obtain ⟨F, hF, hF2⟩ := stepOnGrid_ghosts (S := S) (dt := dt) (grav := grav) (bc := bc)
    (ghs := ghosts dx (S.L 0) 4 ps) hP hP1 (by rw [hS]; rfl) hreal hall ht hk
  have hforall : ∀ (C : Particle (d + 2) K → Prop), (∀ p y, C p → C { p with x := y }) → (∀ p ∈ ps, C p) →
      ∀ p ∈ ps ++ ghosts dx (S.L 0) 4 ps, C p := by
    intro C hC h p hp
    rcases List.mem_append.mp hp with hp | hp
    · exact h p hp
    · obtain ⟨p', hp', y, rfl⟩ := ghosts_mem hp
      exact hC _ _ (h p' hp')
  refine ⟨_, hF, forall₂_map fun p hp => ?_⟩
  obtain ⟨h1, h2, h3, h4, r, h5, h6, h7, h8⟩ := hF2 p hp
  obtain ⟨k1, k2, k3, k4⟩ := uniform_ghosts (S := S) (dt := dt) (grav := grav) (bc := bc) (by rw [hPm]; exact hm)
    hreal hw (fun p hp => List.mem_append_left _ hp) hall hbc (c := c)
    (hforall (fun p => p.v = c) (fun _ _ h => h) hv) (hforall (fun p => p.Bmat = 0) (fun _ _ h => h) hB)
    (hforall (fun p => p.tau = 0) (fun _ _ h => h) htau) hp
  refine ⟨h1.trans k3, h3.trans k4, ?_, ?_, r, ?_, h7.trans (htau p hp), h5, h6⟩
  · rw [h4]
    simp only [positionParticle, hpbc, hcp, Bool.false_eq_true, if_false, if_true, g2pTransfer, k2,
      Function.update_self, wrapX]
    simp [mul_add]
  · intro a ha
    rw [h4]
    simp only [positionParticle, hpbc, hcp, Bool.false_eq_true, if_false, if_true, g2pTransfer, k2,
      Function.update_of_ne ha]
    simp [mul_add]
  · rw [h8]
    obtain ⟨D, hD⟩ := (hreal.good (deg := deg) hp).gradOK hdeg
    have hgv : ∀ i, (stencilOf deg dx g p.x).weight i ≠ 0 →
        gradVelG S deg dx dt grav bc g (ps ++ ghosts dx (S.L 0) 4 ps) ps
        (flatIndex g.size ((stencilOf deg dx g p.x).node i)) = c + dt • grav := by
      intro i hi
      simp only [gradVelG, hmusl, Bool.false_eq_true, if_false]
      exact (k1 i hi).2
    have := (interp_const (hreal.good (deg := deg) hp).ok hgv).2.2 D hD
    rw [trialF, this]; simp

end step

/-! ### whole runs -/

section run
open Verif
variable {R : Setup (d + 2)} {i e : Bool} {fuel : ℕ} {s : LoopState (d + 2) (World (d + 2))}

/-- One step of a run without plates: the plates stay absent and the particles come from `stepOnGrid`. -/
lemma physStep_periodic {w w' : World (d + 2)} {dt time : ℝ} {grav : Fin (d + 2) → ℝ} {n : ℕ} {ex : Bool}
    (hpbc : R.S.pbc = true) (hobj : R.objs = []) (hpl : w.plates = [])
    (h : physStep R w dt grav time n = some (w', ex)) :
    w'.plates = [] ∧ (if n = 0 then remeshPeriodic R.S.P.dx R.S.L 4 = some w'.g else w'.g = w.g) ∧
    ∃ bc, (∀ l x v, bc l x v = v) ∧
      stepOnGrid R.S dt grav bc (plastTotal R dt) w'.g (ghosts R.S.P.dx (R.S.L 0) 4 w.ps)
        (R.sched n (w.ps ++ ghosts R.S.P.dx (R.S.L 0) 4 w.ps)) w.ps = some w'.ps := by
  obtain ⟨fr', ha⟩ := physStep_advance h
  refine ⟨?_, ?_⟩
  · rw [physStep_eq] at h
    simp only [Option.bind_eq_some_iff] at h
    obtain ⟨bg, h1, h⟩ := h
    split_ifs at h with hm
    all_goals first
      | exact absurd h (by simp)
      | (simp only [Option.bind_eq_some_iff, afterP2G] at h
         obtain ⟨arr, h2, qs, h3, qs', h4, h⟩ := h
         obtain ⟨rfl, -⟩ := Prod.mk.inj (Option.some.inj h)
         simp [hpl])
  · simp only [advanceStep, hpbc, if_true, Option.bind_eq_bind, Option.bind_eq_some_iff] at ha
    obtain ⟨bg, hbg, qs, hqs, hσ⟩ := ha
    injection hσ with hσ
    injection hσ with hps _ hgg _
    refine ⟨?_, _, fun l x v => ?_, by rw [← hps, ← hgg]; exact hqs⟩
    · simp only [chooseGrid, hpbc, if_true] at hbg
      split_ifs at hbg ⊢ with h0
      · obtain ⟨g, hg, rfl⟩ := Option.map_eq_some_iff.mp hbg
        rw [hg, ← hgg]
      · rw [← hgg, ← Option.some.inj hbg]
    · rw [hobj, hpl]; rfl

/-- **C67** Momentum in the files of a periodic simulation without walls: the number of particles is the initial
one, and the momentum is the initial one plus `c m N g` with `c` the time of the file, or, with the gravity ramp,
some `c` between zero and that time. Assumes that at the beginning of every step the particles are inside the
domain (in the first direction strictly below the period, see `C25_edge_false`). -/
theorem C67_run {deg : Deg} {dx fr m vol : ℝ} {n8 : ℕ}
    (hS : R.S.P = mkTransferParams deg dx fr false m vol) (hdeg : deg ≠ .one) (hdx : 0 < dx) (hm : 0 < m)
    (hpbc : R.S.pbc = true) (hL : ∀ a, 0 ≤ R.S.L a) (hn8 : 8 ≤ n8) (hper : R.S.L 0 = n8 * dx)
    (hfresh : s.step = 0) (hobj : R.objs = []) (hpl : s.w.plates = [])
    (hsched : ∀ k ps, (R.sched k ps).flatten.Perm ps) (hmin : 0 ≤ R.C.minDt)
    (hdom : ∀ s1 dt g w, StepOf R s s1 dt g w → InDomain dx R.S.L s1.w.ps ∧ NoTinyWeights deg dx w.g s1.w.ps)
    {n : ℕ} {t : ℝ} {w : World (d + 2)}
    (hev : .particles n t w ∈ filesOf (runProgram R i e fuel s)) (hnew : .particles n t w ∉ s.out) :
    w.ps.length = s.w.ps.length ∧ 0 ≤ t ∧
      ∃ c, 0 ≤ c ∧ c ≤ t ∧ (R.C.gravitySpecial = false → c = t) ∧
        momentum m w.ps = momentum m s.w.ps + (c * (s.w.ps.length * m)) • s.gravity := by
  have hmi : R.S.P.useMibf = false := by rw [hS]; rfl
  have hbeg : (begin R s).w = s.w := by rw [begin_w, fillMuI, hmi]; simp
  have hPdx : R.S.P.dx = dx := by rw [hS]; rfl
  let Inv : World (d + 2) → ℝ → ℕ → (Fin (d + 2) → ℝ) → Prop := fun w t k g =>
    w.plates = [] ∧ (R.C.gravitySpecial = false → g = s.gravity) ∧
    (k ≠ 0 → remeshPeriodic dx R.S.L 4 = some w.g) ∧
    w.ps.length = s.w.ps.length ∧ 0 ≤ t ∧
      ∃ c, 0 ≤ c ∧ c ≤ t ∧ (R.C.gravitySpecial = false → c = t) ∧
        momentum m w.ps = momentum m s.w.ps + (c * (s.w.ps.length * m)) • s.gravity
  have h0 : Inv (begin R s).w 0 s.step s.gravity := by
    rw [hbeg]
    exact ⟨hpl, fun _ => rfl, fun h => absurd hfresh h, rfl, le_rfl, 0, le_rfl, le_rfl, fun _ => rfl, by simp⟩
  have hstep : ∀ s1 dt g w, StepOf R s s1 dt g w → Inv s1.w s1.time s1.step s1.gravity →
      Inv w (s1.time + dt) (s1.step + 1) g := by
    rintro s1 dt g w hst ⟨i1, i2, i0, i3, i4, c, c0, ct, cs, i5⟩
    obtain ⟨hdt, -⟩ := hst.dt_ge
    have hdt0 : 0 ≤ dt := hmin.trans hdt
    obtain ⟨hplates, hgrid, bc, hbc, hqs⟩ := physStep_periodic hpbc hobj i1 hst.phys
    have hg : remeshPeriodic dx R.S.L 4 = some w.g := by
      split_ifs at hgrid with hz
      · rw [← hPdx]; exact hgrid
      · rw [hgrid]; exact i0 hz
    rw [hPdx] at hqs
    obtain ⟨qs', h1, h2, h3⟩ := C67_step (dt := dt) (grav := g) (bc := bc) (plast := plastTotal R dt) hS hdeg hdx hm hL
      hn8 hper hg (hdom _ _ _ _ hst).1 (hsched s1.step _) (hdom _ _ _ _ hst).2 (fun i _ v => hbc _ _ v)
      (plastTotal_keeps R dt)
    have hw : w.ps = qs' := Option.some.inj (hqs.symm.trans h1)
    obtain ⟨f, f0, f1, fs, hf⟩ := hst.gravity i4 i2
    have hfd := mul_le_mul_of_nonneg_right f1 hdt0
    refine ⟨hplates, fun hsp => by rw [hf, fs hsp, one_smul], fun _ => hg, by rw [hw]; exact h2.trans i3, by linarith,
      c + f * dt, by positivity, by linarith, fun hsp => by rw [fs hsp, cs hsp, one_mul], ?_⟩
    rw [hw, h3, i5, i3, hf, smul_smul, add_assoc, ← add_smul]
    congr 2
    ring
  rcases run_particles hev hnew with ⟨rfl, rfl, rfl⟩ | ⟨s1, dt, g, hst, rfl⟩
  · rw [hbeg]; exact ⟨rfl, le_rfl, 0, le_rfl, le_rfl, fun _ => rfl, by simp⟩
  · obtain ⟨-, -, -, h1, h2, h3⟩ := (run_inv (Inv := Inv) h0 hstep hst).2
    exact ⟨h1, h2, h3⟩

end run

namespace PerEx

/-- Two particles half a cell from the periodic boundary, on either side, moving to the right. -/
def pair : List (Particle 2 ℚ) :=
  [{ Particle.init with x := ![1/2, 2], v := ![1, 0] }, { Particle.init with x := ![15/2, 2], v := ![1, 0] }]

/-- 8 x 4 cells, MUSL, APIC. -/
def muslParams : StepParams 2 ℚ :=
  ⟨mkTransferParams .two 1 (-2) false 1 1, true, true, false, ![8, 4], none⟩

/-- The grid of the periodic domain. -/
def grid : Axes 2 ℚ := ![(List.range 19).map fun k : ℕ => -5 + (k : ℚ), (List.range 11).map fun k : ℕ => -1 + (k : ℚ)]

lemma pair_dom : InDomain 1 ![8, 4] pair where
  x p hp := by
    simp only [pair, List.mem_cons, List.not_mem_nil, or_false] at hp
    rcases hp with rfl | rfl <;> constructor <;> norm_num
  y p hp := by
    simp only [pair, List.mem_cons, List.not_mem_nil, or_false] at hp
    rcases hp with rfl | rfl <;> constructor <;> norm_num
  z p hp a h0 h1 := by fin_cases a <;> simp_all

lemma grid_eq : remeshPeriodic (1 : ℚ) (![8, 4] : Fin 2 → ℚ) 4 = some grid := by
  unfold remeshPeriodic
  apply sequenceFin_some
  intro a
  fin_cases a
  · decide +kernel
  · decide +kernel

set_option maxRecDepth 100000 in
lemma pair_weights : NoTinyWeights .two (1 : ℚ) grid pair := by
  have key : ∀ p ∈ pair, ∀ i0 < 19, ∀ i1 < 11,
      shape .two (1 : ℚ) (nodeAt grid ![i0, i1]) p.x = 0 ∨
        1 / 10 ^ 25 < shape .two (1 : ℚ) (nodeAt grid ![i0, i1]) p.x := by decide +kernel
  intro p hp i hi
  have h0 : i 0 < 19 := hi 0
  have h1 : i 1 < 11 := hi 1
  have : i = ![i 0, i 1] := by funext a; fin_cases a <;> rfl
  rw [this]
  exact key p hp _ h0 _ h1

/-- Mass at a grid node in units of the particle mass. -/
def massAt (l : List (Particle 2 ℚ)) (i : Fin 2 → ℕ) : ℚ :=
  (l.map fun p => if shape .two (1 : ℚ) (nodeAt grid i) p.x > cutoff then
    shape .two (1 : ℚ) (nodeAt grid i) p.x else 0).sum

lemma massAt_eq {P : TransferParams ℚ} {l : List (Particle 2 ℚ)} (h : GoodGrid 1 grid l) {i : Fin 2 → ℕ}
    (hi : IsNode grid i) : (raw P .two 1 grid l (flatIndex grid.size i)).mass = massAt l i := by
  have h1 := congrArg (Cell.massHom (d := 2) (K := ℚ)) (raw_node (P := P) (deg := .two) h hi)
  rw [map_list_sum, List.map_map] at h1
  refine h1.trans ?_
  rw [massAt]
  congr 1
  refine List.map_congr_left fun p _ => ?_
  simp only [Function.comp_apply]
  split_ifs
  · rfl
  · exact map_zero _

/-- **C67** With MUSL the seam of a periodic domain is not invisible: the grid mass includes the ghosts, but only the
particles of the domain are projected again. Two particles next to the seam that move with the same velocity,
without gravity, stress, or walls, are stretched by 5 percent in one step. -/
theorem C67_free_fall_false :
    remeshPeriodic (1 : ℚ) (![8, 4] : Fin 2 → ℚ) 4 = some grid ∧ InDomain 1 ![8, 4] pair ∧
    NoTinyWeights .two 1 grid pair ∧
    (∀ p ∈ pair, p.v = ![1, 0] ∧ p.Bmat = 0 ∧ p.tau = 0 ∧ p.F = 1) ∧
    ∃ q1 q2, stepOnGrid muslParams (1 / 10) 0 (fun _ _ v => v) id grid (ghosts 1 8 4 pair)
      [pair ++ ghosts 1 8 4 pair] pair = some [q1, q2] ∧ q1.v = ![1, 0] ∧ q2.v = ![1, 0] ∧
      q1.F 0 0 = 21 / 20 := by
  have hu : ∀ p ∈ pair, p.v = ![1, 0] ∧ p.Bmat = 0 ∧ p.tau = 0 ∧ p.F = 1 := by
    intro p hp
    simp only [pair, List.mem_cons, List.not_mem_nil, or_false] at hp
    rcases hp with rfl | rfl <;> exact ⟨rfl, rfl, rfl, rfl⟩
  refine ⟨grid_eq, pair_dom, pair_weights, hu, ?_⟩
  have hL : ∀ a : Fin 2, 0 ≤ (![8, 4] : Fin 2 → ℚ) a := by
    intro a; fin_cases a <;> norm_num
  obtain ⟨hall, hreal⟩ := periodic_good (n := 8) one_pos hL le_rfl (by norm_num) grid_eq pair_dom
  have hL0 : (![8, 4] : Fin 2 → ℚ) 0 = 8 := rfl
  rw [hL0] at hall
  obtain ⟨F, hF, hF2⟩ := stepOnGrid_ghosts (S := muslParams) (deg := .two) (dx := 1) (dt := 1 / 10) (grav := 0)
    (bc := fun _ _ v => v) (plast := id) (threads := [pair ++ ghosts 1 8 4 pair]) (ghs := ghosts 1 8 4 pair)
    rfl rfl rfl hreal hall (by simp) ⟨fun _ => rfl, fun _ => rfl, fun _ => rfl, fun _ => rfl, fun _ => rfl⟩
  have hforall : ∀ (C : Particle 2 ℚ → Prop), (∀ p y, C p → C { p with x := y }) → (∀ p ∈ pair, C p) →
      ∀ p ∈ pair ++ ghosts 1 8 4 pair, C p := by
    intro C hC h p hp
    rcases List.mem_append.mp hp with hp | hp
    · exact h p hp
    · obtain ⟨p', hp', y, rfl⟩ := ghosts_mem hp
      exact hC _ _ (h p' hp')
  have huni := fun p hp => uniform_ghosts (S := muslParams) (deg := .two) (dt := 1 / 10) (grav := 0)
    (bc := fun _ _ v => v) (p := p) one_pos
    hreal pair_weights (fun p hp => List.mem_append_left _ hp) hall (fun _ _ _ => rfl) (c := ![1, 0])
    (hforall (fun p => p.v = ![1, 0]) (fun _ _ h => h) fun p hp => (hu p hp).1)
    (hforall (fun p => p.Bmat = 0) (fun _ _ h => h) fun p hp => (hu p hp).2.1)
    (hforall (fun p => p.tau = 0) (fun _ _ h => h) fun p hp => (hu p hp).2.2.1) hp
  have hvel : ∀ p ∈ pair, (F p).v = ![1, 0] := by
    intro p hp
    rw [(hF2 p hp).1, (huni p hp).2.2.1]
    simp
  refine ⟨_, _, hF, hvel _ (by simp [pair]), hvel _ (by simp [pair]), ?_⟩
  set p1 : Particle 2 ℚ := { Particle.init with x := ![1/2, 2], v := ![1, 0] } with hp1
  have hmem : p1 ∈ pair := by simp [pair, hp1]
  obtain ⟨-, -, -, -, r, hrF, -, -, hr⟩ := hF2 p1 hmem
  rw [hrF, id, hr, (hu p1 hmem).2.2.2]
  have hgv : ∀ i, IsNode grid i →
      gradVelG muslParams .two 1 (1 / 10) 0 (fun _ _ v => v) grid (pair ++ ghosts 1 8 4 pair) pair
        (flatIndex grid.size i) 0 =
      if massAt (pair ++ ghosts 1 8 4 pair) i > 0 then
        (massAt (pair ++ ghosts 1 8 4 pair) i)⁻¹ * massAt pair i else 0 := by
    intro i hi
    have hup := raw_uniform (P := muslParams.P) (deg := .two) (dx := 1) (g := grid)
      (ps := pair.map fun p =>
        let q := g2pTransfer muslParams.P grid.size (stepEuler muslParams .two 1 (1 / 10) 0 (fun _ _ v => v) grid
          (pair ++ ghosts 1 8 4 pair)) p (stencilOf .two 1 grid p.x)
        { q with v := blendVelocity muslParams.P q }) (c := ![1, 0])
      (by
        intro p hp
        obtain ⟨p', hp', rfl⟩ := List.mem_map.mp hp
        exact ((huni p' hp').2.2.1).trans (by simp))
      (by
        intro _ p hp
        obtain ⟨p', hp', rfl⟩ := List.mem_map.mp hp
        exact (huni p' hp').2.2.2) (flatIndex grid.size i)
    simp only [gradVelG, show muslParams.useMusl = true from rfl, if_true, muslFinish, finish_mass]
    rw [massAt_eq hall hi]
    have hone : muslParams.P.particleMass = 1 := rfl
    rw [hone, mul_one, div_one]
    by_cases hM : massAt (pair ++ ghosts 1 8 4 pair) i > 0
    · rw [if_pos hM, if_pos hM, Pi.smul_apply, smul_eq_mul]
      congr 1
      refine (congrFun hup 0).trans ?_
      have hgm : ∀ f : Particle 2 ℚ → Particle 2 ℚ, (∀ p, (f p).x = p.x) →
          (raw muslParams.P .two 1 grid (pair.map f) (flatIndex grid.size i)).mass = massAt pair i := by
        intro f hf
        rw [massAt_eq (hreal.map fun p hp => hf p) hi]
        simp [massAt, Function.comp_def, hf]
      refine (congrArg (fun z : ℚ => (z • (![1, 0] : Fin 2 → ℚ)) 0) (hgm _ ?_)).trans ?_
      · intro p; rfl
      · simp
    · rw [if_neg hM, if_neg hM]; rfl
  rw [trialF, interpGrad_eq]
  have hsum : (∑ c, vecMulVec (gradVelG muslParams .two 1 (1 / 10) 0 (fun _ _ v => v) grid
      (pair ++ ghosts 1 8 4 pair) pair (flatIndex grid.size ((stencilOf .two 1 grid p1.x).node c)))
      ((stencilOf .two 1 grid p1.x).weightGrad c)) 0 0 = 1 / 2 := by
    rw [Matrix.sum_apply]
    have hrew : ∀ c ∈ Finset.univ, (vecMulVec (gradVelG muslParams .two 1 (1 / 10) 0 (fun _ _ v => v) grid
        (pair ++ ghosts 1 8 4 pair) pair (flatIndex grid.size ((stencilOf .two 1 grid p1.x).node c)))
        ((stencilOf .two 1 grid p1.x).weightGrad c)) 0 0 =
        (if massAt (pair ++ ghosts 1 8 4 pair) ((stencilOf .two 1 grid p1.x).node c) > 0 then
          (massAt (pair ++ ghosts 1 8 4 pair) ((stencilOf .two 1 grid p1.x).node c))⁻¹ *
            massAt pair ((stencilOf .two 1 grid p1.x).node c) else 0) *
          (stencilOf .two 1 grid p1.x).weightGrad c 0 := by
      intro c _
      rw [vecMulVec_apply, hgv _ ((hreal.good (deg := .two) hmem).ok.node_lt c)]
    refine (Finset.sum_congr rfl hrew).trans ?_
    decide +kernel
  have hmul : ∀ A : Matrix (Fin 2) (Fin 2) ℚ, ((1 : Matrix (Fin 2) (Fin 2) ℚ) + (1 / 10 : ℚ) • (A * (1 : Matrix (Fin 2) (Fin 2) ℚ))) 0 0 = 1 + 1 / 10 * A 0 0 := by
    intro A; simp
  refine (hmul _).trans ?_
  rw [hsum]; norm_num

lemma pairL : ∀ a : Fin (0 + 2), 0 ≤ (![8, 4] : Fin (0 + 2) → ℚ) a := by
  intro a; fin_cases a <;> norm_num

/-- The hypotheses of `C67_step` with stresses and gravity, MUSL or not. -/
example (musl : Bool) (tau : Matrix (Fin 2) (Fin 2) ℚ) :=
  C67_step (S := { muslParams with useMusl := musl }) (deg := .two) (dx := 1) (fr := -2) (m := 1) (vol := 1) (n := 8)
    (dt := 1 / 10) (grav := ![1, -10]) (bc := fun _ _ v => v) (plast := fun p => { p with tau := tau }) (ps := pair)
    (threads := [pair, ghosts 1 8 4 pair]) rfl (by simp) one_pos one_pos pairL le_rfl
    (by norm_num [muslParams]) grid_eq pair_dom (by simp [muslParams]) pair_weights
    (fun _ _ _ => rfl) ⟨fun _ => rfl, fun _ => rfl, fun _ => rfl, fun _ => rfl, fun _ => rfl⟩

/-- Without MUSL the pair of `C67_free_fall_false` is not stretched. -/
example : ∃ qs, stepOnGrid { muslParams with useMusl := false } (1 / 10) 0 (fun _ _ v => v) id grid
    (ghosts 1 8 4 pair) [pair ++ ghosts 1 8 4 pair] pair = some qs ∧
      List.Forall₂ (fun p q => q.v = ![1, 0] ∧ q.F = 1) pair qs := by
  have hu : ∀ p ∈ pair, p.v = ![1, 0] ∧ p.Bmat = 0 ∧ p.tau = 0 := by
    intro p hp
    simp only [pair, List.mem_cons, List.not_mem_nil, or_false] at hp
    rcases hp with rfl | rfl <;> exact ⟨rfl, rfl, rfl⟩
  obtain ⟨qs, h1, h2⟩ := C67_free_fall_partial (S := { muslParams with useMusl := false }) (deg := .two) (dx := 1)
    (fr := -2) (m := 1) (vol := 1) (n := 8) (dt := 1 / 10) (grav := 0) (bc := fun _ _ v => v) (plast := id) (ps := pair)
    (threads := [pair ++ ghosts 1 8 4 pair]) rfl (by simp) one_pos one_pos pairL le_rfl
    (by norm_num [muslParams]) grid_eq rfl rfl rfl pair_dom (by simp [muslParams]) pair_weights
    (fun _ _ _ => rfl) ⟨fun _ => rfl, fun _ => rfl, fun _ => rfl, fun _ => rfl, fun _ => rfl⟩
    (c := ![1, 0]) (fun p hp => (hu p hp).1) (fun p hp => (hu p hp).2.1) (fun p hp => (hu p hp).2.2)
  refine ⟨qs, h1, ?_⟩
  have hF : ∀ p ∈ pair, p.F = 1 := by
    intro p hp
    simp only [pair, List.mem_cons, List.not_mem_nil, or_false] at hp
    rcases hp with rfl | rfl <;> rfl
  rw [List.forall₂_iff_get] at h2 ⊢
  refine ⟨h2.1, fun k hk hk' => ?_⟩
  obtain ⟨a, -, -, -, r, b, -, c, -⟩ := h2.2 k hk hk'
  exact ⟨by rw [a]; simp, by rw [c]; exact b.trans (hF _ (List.getElem_mem _))⟩

end PerEx

end Verif.Props
