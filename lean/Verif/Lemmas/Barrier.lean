import Verif.Lemmas.P2G
import Mathlib.Algebra.Order.Group.MinMax

set_option linter.unusedSectionVars false
set_option linter.unusedSimpArgs false
set_option linter.unusedVariables false

/-!
# Averages of nodes behind a row of the grid
-/

namespace Verif
open Matrix

variable {K : Type*} [Field K] [LinearOrder K] [IsStrictOrderedRing K]

/-- Half of the width of the spline minus one cell: how far behind a row of nodes a particle has to be to see only
nodes on or behind that row. -/
def leak : Deg → K
  | .one => 0
  | .two => 1 / 2
  | .three => 1

lemma leak_nonneg (deg : Deg) : (0 : K) ≤ leak deg := by cases deg <;> norm_num [leak]

lemma stencilArg_vals (f : K) : stencilArg f 0 = 1 + f ∧ stencilArg f 1 = f ∧ stencilArg f 2 = f - 1 ∧
    stencilArg f 3 = f - 2 := by
  refine ⟨?_, ?_, ?_, ?_⟩ <;> simp only [stencilArg] <;> norm_num <;> ring

section one
variable {f : K} (h0 : 0 ≤ f) (h1 : f < 1)
include h0 h1

/-- Mean of `min t 0` over the nodes `t` of the stencil of a particle at `j + f`. -/
lemma mean_min (deg : Deg) (j : ℤ) (hj : -leak deg ≤ (j : K) + f) :
    -leak deg ≤ ∑ i, N deg (stencilArg f i) * min ((j : K) + f - stencilArg f i) 0 := by
  obtain ⟨a0, a1, a2, a3⟩ := stencilArg_vals f
  rw [sum4, a0, a1, a2, a3]
  have hjm : (-1 : K) < (j : K) + 1 := by
    have : (-1 : K) ≤ -leak deg := by cases deg <;> norm_num [leak]
    linarith
  have hj1 : -1 ≤ j := by
    have : (-2 : K) < (j : K) := by linarith
    have : (-2 : ℤ) < j := by exact_mod_cast this
    omega
  have w := fun u : K => N_nonneg deg u
  rcases hj1.lt_or_eq with h | h
  · have e1 : min ((j : K) + f - f) 0 = 0 := min_eq_right (by
      have : (0 : K) ≤ j := by exact_mod_cast (show 0 ≤ j by omega)
      linarith)
    have e2 : min ((j : K) + f - (f - 1)) 0 = 0 := min_eq_right (by
      have : (0 : K) ≤ j := by exact_mod_cast (show 0 ≤ j by omega)
      linarith)
    have e3 : min ((j : K) + f - (f - 2)) 0 = 0 := min_eq_right (by
      have : (0 : K) ≤ j := by exact_mod_cast (show 0 ≤ j by omega)
      linarith)
    have e0 : -1 ≤ min ((j : K) + f - (1 + f)) 0 := le_min (by
      have : (0 : K) ≤ j := by exact_mod_cast (show 0 ≤ j by omega)
      linarith) (by norm_num)
    rw [e1, e2, e3]
    have h2 : N deg (1 + f) ≤ leak deg := by
      cases deg
      · simp only [N, leak]; rw [(N1_vals h0 h1).1]
      · simp only [N, leak]
        rcases N2_vals h0 h1 with ⟨hf, e, -⟩ | ⟨hf, e, -⟩ <;> rw [e] <;> nlinarith
      · simp only [N, leak]; rw [(N3_vals h0 h1).1]
        have : (1 - f) ^ 3 ≤ 1 := pow_le_one₀ (by linarith) (by linarith)
        linarith
    nlinarith [w (1 + f)]
  · subst h
    push_cast at hj ⊢
    rw [min_eq_left (show -1 + f - (1 + f) ≤ 0 by linarith), min_eq_left (show -1 + f - f ≤ 0 by linarith),
      min_eq_right (show 0 ≤ -1 + f - (f - 1) by linarith), min_eq_right (show 0 ≤ -1 + f - (f - 2) by linarith)]
    cases deg
    · simp only [leak] at hj; linarith
    · simp only [N, leak] at hj ⊢
      rcases N2_vals h0 h1 with ⟨hf, e, e', -⟩ | ⟨hf, e, e', -⟩ <;> rw [e, e'] <;> nlinarith
    · simp only [N, leak] at hj ⊢
      obtain ⟨e, e', -⟩ := N3_vals h0 h1
      rw [e, e']
      have : 0 ≤ f * (1 - f) := mul_nonneg h0 (by linarith)
      nlinarith [mul_nonneg h0 this, mul_nonneg this this, pow_nonneg h0 3]

/-- The same from the other side. -/
lemma mean_max (deg : Deg) (j : ℤ) (hj : (j : K) + f ≤ leak deg) :
    ∑ i, N deg (stencilArg f i) * max ((j : K) + f - stencilArg f i) 0 ≤ leak deg := by
  obtain ⟨a0, a1, a2, a3⟩ := stencilArg_vals f
  rw [sum4, a0, a1, a2, a3]
  have hj1 : j ≤ 1 := by
    have : (j : K) ≤ 1 := by
      have : leak deg ≤ (1 : K) := by cases deg <;> norm_num [leak]
      linarith
    exact_mod_cast this
  have w := fun u : K => N_nonneg deg u
  rcases lt_trichotomy j 0 with h | h | h
  · have hj' : (j : K) ≤ -1 := by exact_mod_cast (show j ≤ -1 by omega)
    have e0 : max ((j : K) + f - (1 + f)) 0 = 0 := max_eq_right (by linarith)
    have e1 : max ((j : K) + f - f) 0 = 0 := max_eq_right (by linarith)
    have e2 : max ((j : K) + f - (f - 1)) 0 = 0 := max_eq_right (by linarith)
    have e3 : max ((j : K) + f - (f - 2)) 0 ≤ 1 := max_le (by linarith) (by norm_num)
    rw [e0, e1, e2]
    have h2 : N deg (f - 2) ≤ leak deg := by
      cases deg
      · simp only [N, leak]; rw [(N1_vals h0 h1).2.2.2]
      · simp only [N, leak]
        rcases N2_vals h0 h1 with ⟨hf, -, -, -, e, -⟩ | ⟨hf, -, -, -, e, -⟩ <;> rw [e] <;> nlinarith
      · simp only [N, leak]; rw [(N3_vals h0 h1).2.2.2.1]
        have : f ^ 3 ≤ 1 := pow_le_one₀ h0 h1.le
        linarith
    nlinarith [w (f - 2), le_max_right ((j : K) + f - (f - 2)) 0]
  · subst h
    push_cast at hj ⊢
    rw [max_eq_right (show 0 + f - (1 + f) ≤ 0 by linarith), max_eq_right (show 0 + f - f ≤ 0 by linarith),
      max_eq_left (show 0 ≤ 0 + f - (f - 1) by linarith), max_eq_left (show 0 ≤ 0 + f - (f - 2) by linarith)]
    cases deg
    · simp only [leak, N] at hj ⊢
      obtain ⟨-, -, e, e'⟩ := N1_vals h0 h1
      rw [e, e']; nlinarith
    · simp only [N, leak] at hj ⊢
      rcases N2_vals h0 h1 with ⟨hf, -, -, e, e', -⟩ | ⟨hf, -, -, e, e', -⟩ <;> rw [e, e'] <;> nlinarith
    · simp only [N, leak] at hj ⊢
      obtain ⟨-, -, e, e', -⟩ := N3_vals h0 h1
      rw [e, e']
      have : 0 ≤ f * (1 - f) := mul_nonneg h0 (by linarith)
      nlinarith [mul_nonneg h0 this, mul_nonneg this this, pow_nonneg h0 3]
  · have : j = 1 := by omega
    subst this
    have hf : f = 0 := by
      have : leak deg ≤ (1 : K) := by cases deg <;> norm_num [leak]
      push_cast at hj
      linarith
    subst hf
    cases deg
    · norm_num [leak] at hj
    · norm_num [leak] at hj
    · obtain ⟨e0, e1, e2, e3, -⟩ := N3_vals (K := K) le_rfl one_pos
      simp only [N, leak]
      rw [e0, e1, e2, e3]
      norm_num

end one

section grid
variable [FloorRing K] {d : ℕ} {deg : Deg} {dx : K} {g : Axes d K}

/-- Distribution of the weights of a stencil along one axis. -/
lemma marginal (hdx : 0 < dx) (hu : ∀ a, UniformAxis dx (g a)) {x : Fin d → K}
    (hi : ∀ a, InsideAxis dx (g a) (x a)) (b : Fin d) :
    ∃ f, 0 ≤ f ∧ f < 1 ∧ (∀ i, x b - dx * stencilArg f i ∈ g b) ∧
      ∀ h : K → K, ∑ c, (stencilOf deg dx g x).weight c * h ((stencilOf deg dx g x).nodePos c b) =
        ∑ i, N deg (stencilArg f i) * h (x b - dx * stencilArg f i) := by
  have hg := goodAt (deg := deg) hdx hu hi
  choose base f hf0 hf1 hb hlen harg using fun a => InsideAxis.base hdx (hu a) (hi a)
  have hP : sequenceFin (baseP2G (1 / dx) g x) = some base :=
    sequenceFin_some fun a => by simp only [baseP2G, hb a, Option.map_some, Int.toNat_natCast]
  have harg' : ∀ a (i : Fin 4), (x a - (g a)[base a + i.val]'(by have := hlen a; omega)) * (1 / dx)
      = stencilArg (f a) i := fun a i => by
    rw [harg a _ _, stencilArg]; push_cast; ring
  have hpos : ∀ a (i : Fin 4), (g a)[base a + i.val]'(by have := hlen a; omega)
      = x a - dx * stencilArg (f a) i := by
    intro a i; rw [← harg' a i]; field_simp; ring
  refine ⟨f b, hf0 b, hf1 b, fun i => ?_, fun h => ?_⟩
  · rw [← hpos b i]; exact List.getElem_mem _
  have hs := hg.p2g
  simp only [stencilP2G, hP, Option.bind_some, mkStencil, dif_pos hlen] at hs
  set s := stencilOf deg dx g x with hsd
  have hs := Option.some.inj hs
  have hW : ∀ a i, s.W a i = N deg (stencilArg (f a) i) := by
    intro a i; rw [← hs]; simp only [harg']
  have hx : ∀ a i, s.xi a i = x a - dx * stencilArg (f a) i := by
    intro a i; rw [← hs]; simp only [hpos]
  have key : ∑ c, s.weight c * h (s.nodePos c b) = ∑ i, s.W b i * h (s.xi b i) := by
    refine (sum_prod_single (fun a i => if a = b then s.W a i * h (s.xi a i) else s.W a i) b
      (fun c => prod_ite_mul (fun a => s.W a (c a)) (fun a => h (s.xi a (c a))) b) ?_).trans ?_
    · intro a ha
      simp only [if_neg ha]
      exact hg.ok.sumW a
    · simp
  rw [key]
  exact Finset.sum_congr rfl fun i _ => by rw [hW, hx]

/-- If the nodes, after moving, are not behind both their old place and the row `z`, the interpolated particle
stays where it was allowed to be. -/
lemma barrier (hdx : 0 < dx) (hu : ∀ a, UniformAxis dx (g a)) {x : Fin d → K}
    (hi : ∀ a, InsideAxis dx (g a) (x a)) (b : Fin d) {s z : K} (hs : s = 1 ∨ s = -1)
    (hz : ∀ y ∈ g b, ∃ k : ℤ, y = z + k * dx) (hx : s * z - leak deg * dx ≤ s * x b)
    {D : (Fin d → Fin 4) → K}
    (hD : ∀ c, min (s * (stencilOf deg dx g x).nodePos c b) (s * z) ≤
      s * ((stencilOf deg dx g x).nodePos c b + D c)) :
    s * z - leak deg * dx ≤ s * (x b + ∑ c, (stencilOf deg dx g x).weight c * D c) := by
  have hg := goodAt (deg := deg) hdx hu hi
  obtain ⟨f, h0, h1, hm, hsum⟩ := marginal (deg := deg) hdx hu hi b
  set S := stencilOf deg dx g x
  obtain ⟨k, hk⟩ := hz _ (hm 1)
  rw [(stencilArg_vals f).2.1] at hk
  have hxk : x b = z + ((k : K) + f) * dx := by linarith
  have e1 : x b + ∑ c, S.weight c * D c = ∑ c, S.weight c * (S.nodePos c b + D c) := by
    simp only [mul_add, Finset.sum_add_distrib, hg.ok.sum_weight_nodePos]
  have e2 : ∑ c, S.weight c * min (s * S.nodePos c b) (s * z) ≤ s * (x b + ∑ c, S.weight c * D c) := by
    rw [e1, Finset.mul_sum]
    refine Finset.sum_le_sum fun c _ => ?_
    have := mul_le_mul_of_nonneg_left (hD c) (hg.ok.weight_nonneg c)
    linarith
  refine le_trans ?_ e2
  rw [hsum fun y => min (s * y) (s * z)]
  have hN := sum_N h0 h1 deg
  rcases hs with rfl | rfl
  · have h2 : -leak deg ≤ (k : K) + f := by
      rw [hxk] at hx
      have : -leak deg * dx ≤ ((k : K) + f) * dx := by linarith
      exact le_of_mul_le_mul_right this hdx
    have h3 := mul_le_mul_of_nonneg_right (mean_min h0 h1 deg k h2) hdx.le
    have e : ∀ i, N deg (stencilArg f i) * min (1 * (x b - dx * stencilArg f i)) (1 * z) =
        N deg (stencilArg f i) * z + N deg (stencilArg f i) * min ((k : K) + f - stencilArg f i) 0 * dx := by
      intro i
      rw [mul_assoc, min_mul_of_nonneg _ _ hdx.le, ← mul_add, ← min_add_add_left, hxk]
      congr 2 <;> ring
    rw [Finset.sum_congr rfl fun i _ => e i, Finset.sum_add_distrib, ← Finset.sum_mul, ← Finset.sum_mul, hN]
    linarith
  · have h2 : (k : K) + f ≤ leak deg := by
      rw [hxk] at hx
      have : ((k : K) + f) * dx ≤ leak deg * dx := by linarith
      exact le_of_mul_le_mul_right this hdx
    have h3 := mul_le_mul_of_nonneg_right (mean_max h0 h1 deg k h2) hdx.le
    have e : ∀ i, N deg (stencilArg f i) * min (-1 * (x b - dx * stencilArg f i)) (-1 * z) =
        -(N deg (stencilArg f i) * z + N deg (stencilArg f i) * max ((k : K) + f - stencilArg f i) 0 * dx) := by
      intro i
      rw [mul_assoc, max_mul_of_nonneg _ _ hdx.le, ← mul_add, ← max_add_add_left, hxk, ← mul_neg, ← min_neg_neg]
      congr 2 <;> ring
    rw [Finset.sum_congr rfl fun i _ => e i, Finset.sum_neg_distrib, Finset.sum_add_distrib, ← Finset.sum_mul,
      ← Finset.sum_mul, hN]
    linarith

end grid
end Verif
