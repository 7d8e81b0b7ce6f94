import Verif.Lemmas.P2G
import Verif.Lemmas.Euler
import Mathlib.LinearAlgebra.Matrix.Gershgorin
import Mathlib.Topology.Instances.Matrix
import Mathlib.Topology.Order.IntermediateValue
import Mathlib.Topology.Instances.Real.Lemmas

set_option linter.unusedSectionVars false
set_option linter.unusedSimpArgs false
set_option linter.unusedVariables false

/-! # The velocity gradient as an average of differences between neighbouring nodes -/

namespace Verif
open Matrix

section spline
variable {K : Type*} [Field K] [LinearOrder K] [IsStrictOrderedRing K]

/-- The derivatives of the four splines as differences of three nonnegative numbers of sum one. -/
lemma dN_parts {f : K} (h0 : 0 ≤ f) (h1 : f < 1) {deg : Deg} (hd : deg ≠ .one) :
    ∃ A : Fin 3 → K, (∀ k, 0 ≤ A k) ∧ A 0 + A 1 + A 2 = 1 ∧
      dNdu deg (stencilArg f 0) = -A 0 ∧ dNdu deg (stencilArg f 1) = A 0 - A 1 ∧
      dNdu deg (stencilArg f 2) = A 1 - A 2 ∧ dNdu deg (stencilArg f 3) = A 2 ∧
      (A 0 ≠ 0 → 0 < N deg (stencilArg f 0)) ∧ 0 < N deg (stencilArg f 1) ∧ 0 < N deg (stencilArg f 2) ∧
      (A 2 ≠ 0 → 0 < N deg (stencilArg f 3)) := by
  have e0 : stencilArg f 0 = 1 + f := by simp [stencilArg]
  have e1 : stencilArg f 1 = f := by simp [stencilArg]
  have e2 : stencilArg f 2 = f - 1 := by simp [stencilArg]; ring
  have e3 : stencilArg f 3 = f - 2 := by simp [stencilArg]; ring
  rw [e0, e1, e2, e3]
  cases deg with
  | one => exact absurd rfl hd
  | two =>
    rcases N2_vals h0 h1 with ⟨hf, a0, a1, a2, a3, b0, b1, b2, b3⟩ | ⟨hf, a0, a1, a2, a3, b0, b1, b2, b3⟩
    · refine ⟨![1/2 - f, f + 1/2, 0], ?_, ?_, ?_, ?_, ?_, ?_, ?_, ?_, ?_, ?_⟩
      · intro k; fin_cases k <;> simp <;> linarith
      · simp; ring
      all_goals simp only [N, dNdu, a0, a1, a2, a3, b0, b1, b2, b3]
      · simp
      · simp; ring
      · simp
      · simp
      · intro h
        have h : 1/2 - f ≠ 0 := by simpa using h
        positivity
      · nlinarith
      · have : 0 < 1/2 + f := by linarith
        positivity
      · simp
    · refine ⟨![0, 3/2 - f, f - 1/2], ?_, ?_, ?_, ?_, ?_, ?_, ?_, ?_, ?_, ?_⟩
      · intro k; fin_cases k <;> simp <;> linarith
      · simp; ring
      all_goals simp only [N, dNdu, a0, a1, a2, a3, b0, b1, b2, b3]
      · simp
      · simp
      · simp; ring
      · simp
      · simp
      · have : 0 < 3/2 - f := by linarith
        positivity
      · nlinarith
      · intro h
        have h : f - 1/2 ≠ 0 := by simpa using h
        positivity
  | three =>
    obtain ⟨a0, a1, a2, a3, b0, b1, b2, b3⟩ := N3_vals h0 h1
    refine ⟨![1/2 * (1 - f)^2, 1/2 + f - f^2, 1/2 * f^2], ?_, ?_, ?_, ?_, ?_, ?_, ?_, ?_, ?_, ?_⟩
    · intro k; fin_cases k
      · simp only [Fin.zero_eta, cons_val_zero]; positivity
      · simp; nlinarith
      · simp; positivity
    · simp; ring
    all_goals simp only [N, dNdu, a0, a1, a2, a3, b0, b1, b2, b3]
    · simp
    · simp; ring
    · simp; ring
    · simp
    · intro h
      have : 0 < 1 - f := by linarith
      positivity
    · have : 0 < 1 - f := by linarith
      have e : 1 / 2 * f ^ 3 - f ^ 2 + 2 / 3 = 1 / 6 + 1 / 2 * (1 - f) * (1 + f - f ^ 2) := by ring
      rw [e]
      have : 0 ≤ 1 + f - f ^ 2 := by nlinarith
      positivity
    · have e : 1 / 2 * (1 - f) ^ 3 - (1 - f) ^ 2 + 2 / 3 = 1 / 6 + 1 / 2 * f * (1 + f - f ^ 2) := by ring
      rw [e]
      have : 0 ≤ 1 + f - f ^ 2 := by nlinarith
      positivity
    · intro h
      have hf : f ≠ 0 := by rintro rfl; simp at h
      have : 0 < f := lt_of_le_of_ne h0 hf.symm
      positivity

end spline

section stencil
variable {K : Type*} [Field K] [LinearOrder K] [IsStrictOrderedRing K] [FloorRing K] {d : ℕ}
  {deg : Deg} {dx : K} {g : Axes d K} {x : Fin d → K}

/-- Summation by parts along one axis of the stencil. -/
lemma stencil_parts (hd : deg ≠ .one) (hdx : 0 < dx) (hu : ∀ a, UniformAxis dx (g a))
    (hi : ∀ a, InsideAxis dx (g a) (x a)) (a : Fin d) :
    ∃ A : Fin 3 → K, (∀ k, 0 ≤ A k) ∧ ∑ k, A k = 1 / dx ∧
      (∀ k, A k ≠ 0 → 0 < (stencilOf deg dx g x).W a k.castSucc ∧ 0 < (stencilOf deg dx g x).W a k.succ) ∧
      ∀ u : Fin 4 → K, ∑ j, (stencilOf deg dx g x).G a j * u j = ∑ k, A k * (u k.succ - u k.castSucc) := by
  choose b f hf0 hf1 hb hlen harg using fun a => InsideAxis.base hdx (hu a) (hi a)
  have hP : sequenceFin (baseP2G (1 / dx) g x) = some b :=
    sequenceFin_some fun a => by simp only [baseP2G, hb a, Option.map_some, Int.toNat_natCast]
  have harg' : ∀ (i : Fin 4), (x a - (g a)[b a + i.val]'(by have := hlen a; omega)) * (1 / dx)
      = stencilArg (f a) i := fun i => by
    rw [harg a _ _, stencilArg]; push_cast; ring
  have hW : ∀ j, (stencilOf deg dx g x).W a j = N deg (stencilArg (f a) j) := by
    intro j
    simp only [stencilOf, stencilP2G, hP, Option.bind_some, mkStencil, dif_pos hlen, Option.getD_some, harg']
  have hG : ∀ j, (stencilOf deg dx g x).G a j = dNdu deg (stencilArg (f a) j) * (1 / dx) := by
    intro j
    simp only [stencilOf, stencilP2G, hP, Option.bind_some, mkStencil, dif_pos hlen, Option.getD_some, harg']
  obtain ⟨A, hA, hs, g0, g1, g2, g3, w0, w1, w2, w3⟩ := dN_parts (hf0 a) (hf1 a) hd
  refine ⟨fun k => A k * (1 / dx), fun k => mul_nonneg (hA k) (by positivity), ?_, ?_, ?_⟩
  · rw [← Finset.sum_mul, Fin.sum_univ_three, hs, one_mul]
  · intro k hk
    have hk : A k ≠ 0 := left_ne_zero_of_mul hk
    rw [hW, hW]
    fin_cases k
    · exact ⟨w0 hk, w1⟩
    · exact ⟨w1, w2⟩
    · exact ⟨w2, w3 hk⟩
  · intro u
    simp only [hG, Fin.sum_univ_four, Fin.sum_univ_three, g0, g1, g2, g3]
    simp only [show (Fin.succ 0 : Fin 4) = 1 from rfl, show (Fin.succ 1 : Fin 4) = 2 from rfl,
      show (Fin.succ 2 : Fin 4) = 3 from rfl, show (Fin.castSucc 0 : Fin 4) = 0 from rfl,
      show (Fin.castSucc 1 : Fin 4) = 1 from rfl, show (Fin.castSucc 2 : Fin 4) = 2 from rfl]
    ring

/-- Splitting the sum over the stencil along axis `b`. -/
lemma sum_split (b : Fin d) (φ : (Fin d → Fin 4) → K) :
    ∑ c, φ c = ∑ r : {j : Fin d // j ≠ b} → Fin 4, ∑ i, φ ((Equiv.funSplitAt b (Fin 4)).symm (i, r)) := by
  rw [← (Equiv.funSplitAt b (Fin 4)).symm.sum_comp, Fintype.sum_prod_type_right]

lemma prod_split (b : Fin d) (h : Fin d → Fin 4 → K) (i : Fin 4) (r : {j : Fin d // j ≠ b} → Fin 4) :
    ∏ e, h e ((Equiv.funSplitAt b (Fin 4)).symm (i, r) e) = h b i * ∏ e : {j : Fin d // j ≠ b}, h e (r e) := by
  rw [Fintype.prod_eq_mul_prod_subtype_ne _ b]
  congr 1
  · simp [Equiv.funSplitAt, Equiv.piSplitAt]
  · refine Finset.prod_congr rfl fun e _ => ?_
    simp [Equiv.funSplitAt, Equiv.piSplitAt, e.2]

/-- Nodes of positive weight which are neighbours along `b` have values of `u` differing by at most `δ`. -/
lemma grad_le (hd : deg ≠ .one) (hdx : 0 < dx) (hu : ∀ a, UniformAxis dx (g a))
    (hi : ∀ a, InsideAxis dx (g a) (x a)) (b : Fin d) {u : (Fin d → ℕ) → K} {δ : K}
    (hδ : ∀ i, IsNode g i → IsNode g (Function.update i b (i b + 1)) → 0 < shape deg dx (nodeAt g i) x →
      0 < shape deg dx (nodeAt g (Function.update i b (i b + 1))) x →
      |u (Function.update i b (i b + 1)) - u i| ≤ δ) :
    |∑ c, u ((stencilOf deg dx g x).node c) * (stencilOf deg dx g x).weightGrad c b| ≤ δ / dx := by
  have hg := goodAt (deg := deg) hdx hu hi
  set s := stencilOf deg dx g x with hs
  obtain ⟨A, hA, hsum, hpos, hparts⟩ := stencil_parts (deg := deg) hd hdx hu hi b
  rw [← hs] at hpos hparts
  have hcons : ∀ r i, (Equiv.funSplitAt b (Fin 4)).symm (i, r) b = i := by
    intro r i; simp [Equiv.funSplitAt, Equiv.piSplitAt]
  have hcons' : ∀ r i (e : Fin d) (he : e ≠ b), (Equiv.funSplitAt b (Fin 4)).symm (i, r) e = r ⟨e, he⟩ := by
    intro r i e he; simp [Equiv.funSplitAt, Equiv.piSplitAt, he]
  let Q : ({j : Fin d // j ≠ b} → Fin 4) → K := fun r => ∏ e : {j : Fin d // j ≠ b}, s.W e (r e)
  have hQ0 : ∀ r, 0 ≤ Q r := fun r => Finset.prod_nonneg fun e _ => hg.ok.nonneg e _
  have hgrad : ∀ r i, s.weightGrad ((Equiv.funSplitAt b (Fin 4)).symm (i, r)) b = s.G b i * Q r := by
    intro r i
    simp only [Stencil.weightGrad]
    rw [prod_split b (fun e j => if e = b then s.G e j else s.W e j)]
    simp only [if_true]
    congr 1
    exact Finset.prod_congr rfl fun e _ => by rw [if_neg e.2]
  have hw : ∀ r i, s.weight ((Equiv.funSplitAt b (Fin 4)).symm (i, r)) = s.W b i * Q r := by
    intro r i
    simp only [Stencil.weight]
    exact prod_split b (fun e j => s.W e j) i r
  have hQ1 : ∑ r, Q r = 1 := by
    have := hg.ok.sum_weight
    rw [sum_split b] at this
    simp only [hw, ← Finset.sum_mul, hg.ok.sumW b, one_mul] at this
    exact this
  have hnode : ∀ r (k : Fin 3), s.node ((Equiv.funSplitAt b (Fin 4)).symm (k.succ, r)) =
      Function.update (s.node ((Equiv.funSplitAt b (Fin 4)).symm (k.castSucc, r))) b
        (s.node ((Equiv.funSplitAt b (Fin 4)).symm (k.castSucc, r)) b + 1) := by
    intro r k
    funext e
    by_cases he : e = b
    · subst he
      simp only [Stencil.node, hcons, Function.update_self, Fin.val_succ, Fin.val_castSucc]
      omega
    · rw [Function.update_of_ne he]
      simp only [Stencil.node, hcons' _ _ _ he]
  have hL : ∑ c, u (s.node c) * s.weightGrad c b = ∑ r, ∑ k, Q r * (A k *
      (u (s.node ((Equiv.funSplitAt b (Fin 4)).symm (k.succ, r))) -
        u (s.node ((Equiv.funSplitAt b (Fin 4)).symm (k.castSucc, r))))) := by
    rw [sum_split b]
    refine Finset.sum_congr rfl fun r _ => ?_
    rw [← Finset.mul_sum, ← hparts fun i => u (s.node ((Equiv.funSplitAt b (Fin 4)).symm (i, r))), Finset.mul_sum]
    refine Finset.sum_congr rfl fun i _ => ?_
    rw [hgrad]; ring
  have hterm : ∀ r (k : Fin 3), |Q r * (A k * (u (s.node ((Equiv.funSplitAt b (Fin 4)).symm (k.succ, r))) -
        u (s.node ((Equiv.funSplitAt b (Fin 4)).symm (k.castSucc, r)))))| ≤ Q r * (A k * δ) := by
    intro r k
    by_cases hz : Q r * A k = 0
    · rw [← mul_assoc, ← mul_assoc, hz, zero_mul, zero_mul, abs_zero]
    obtain ⟨hq, ha⟩ := mul_ne_zero_iff.mp hz
    have hq : 0 < Q r := lt_of_le_of_ne (hQ0 r) hq.symm
    obtain ⟨p1, p2⟩ := hpos k ha
    rw [abs_mul, abs_mul, abs_of_nonneg (hQ0 r), abs_of_nonneg (hA k)]
    refine mul_le_mul_of_nonneg_left (mul_le_mul_of_nonneg_left ?_ (hA k)) (hQ0 r)
    rw [hnode]
    refine hδ _ (hg.ok.node_lt _) ?_ ?_ ?_
    · rw [← hnode]; exact hg.ok.node_lt _
    · rw [← hg.pos, ← hg.weight, hw]; exact mul_pos p1 hq
    · rw [← hnode, ← hg.pos, ← hg.weight, hw]; exact mul_pos p2 hq
  rw [hL]
  calc _ ≤ ∑ r, ∑ k, |Q r * (A k * (u (s.node ((Equiv.funSplitAt b (Fin 4)).symm (k.succ, r))) -
        u (s.node ((Equiv.funSplitAt b (Fin 4)).symm (k.castSucc, r)))))| :=
        (Finset.abs_sum_le_sum_abs _ _).trans (Finset.sum_le_sum fun r _ => Finset.abs_sum_le_sum_abs _ _)
    _ ≤ ∑ r, ∑ k, Q r * (A k * δ) := Finset.sum_le_sum fun r _ => Finset.sum_le_sum fun k _ => hterm r k
    _ = δ / dx := by
        simp only [← Finset.mul_sum, ← Finset.sum_mul, hsum, hQ1]
        ring

end stencil

section det
variable {n : ℕ}

/-- A matrix whose rows deviate from those of the identity by less than one has a positive determinant. -/
lemma det_one_add_pos {M : Matrix (Fin n) (Fin n) ℝ} (h : ∀ a, ∑ b, |M a b| < 1) : 0 < (1 + M).det := by
  have hne : ∀ t ∈ Set.Icc (0 : ℝ) 1, (1 + t • M).det ≠ 0 := by
    intro t ⟨t0, t1⟩
    apply det_ne_zero_of_sum_row_lt_diag
    intro k
    have hk := h k
    rw [← Finset.add_sum_erase _ _ (Finset.mem_univ k)] at hk
    have h1 : ∑ j ∈ Finset.univ.erase k, ‖(1 + t • M) k j‖ = t * ∑ j ∈ Finset.univ.erase k, |M k j| := by
      rw [Finset.mul_sum]
      refine Finset.sum_congr rfl fun j hj => ?_
      rw [Matrix.add_apply, Matrix.one_apply_ne (Finset.ne_of_mem_erase hj).symm, zero_add, Matrix.smul_apply,
        smul_eq_mul, Real.norm_eq_abs, abs_mul, abs_of_nonneg t0]
    have hs : 0 ≤ ∑ j ∈ Finset.univ.erase k, |M k j| := Finset.sum_nonneg fun _ _ => abs_nonneg _
    rw [h1, Matrix.add_apply, Matrix.one_apply_eq, Matrix.smul_apply, smul_eq_mul, Real.norm_eq_abs]
    have h2 : 1 - t * |M k k| ≤ |1 + t * M k k| := by
      have := neg_abs_le (M k k)
      refine le_trans ?_ (le_abs_self _)
      nlinarith
    have h3 : t * (∑ j ∈ Finset.univ.erase k, |M k j| + |M k k|) < 1 := by
      have := abs_nonneg (M k k)
      nlinarith
    linarith
  by_contra hneg
  have hcont : ContinuousOn (fun t : ℝ => (1 + t • M).det) (Set.Icc 0 1) := by
    refine Continuous.continuousOn ?_
    refine Continuous.matrix_det ?_
    fun_prop
  have hiv := intermediate_value_Icc' (zero_le_one' ℝ) hcont
  have h0 : (0 : ℝ) ∈ Set.Icc ((1 + (1 : ℝ) • M).det) ((1 + (0 : ℝ) • M).det) := by
    refine ⟨by simpa using hneg, by simp⟩
  obtain ⟨t, ht, e⟩ := hiv h0
  exact hne t ht e

end det
end Verif
