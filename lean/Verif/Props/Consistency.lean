import Verif.Props.Patch
import Mathlib.Analysis.Calculus.Deriv.Pow
import Mathlib.Analysis.Calculus.Deriv.Add
import Mathlib.Analysis.Calculus.Deriv.Mul

set_option linter.unusedSectionVars false
set_option linter.unusedSimpArgs false
set_option linter.unusedVariables false

/-!
# C124: the equations of motion are discretised exactly for smooth fields
-/

namespace Verif.Props
open Verif Matrix

variable {d : ℕ}

/-! ### Specifications -/

/-- A stress field which is a polynomial of the position of degree at most two. -/
def IsQuadratic (σ : (Fin d → ℝ) → Matrix (Fin d) (Fin d) ℝ) : Prop :=
  ∃ (A : Matrix (Fin d) (Fin d) ℝ) (B : Fin d → Matrix (Fin d) (Fin d) ℝ) (Q : Fin d → Fin d → Matrix (Fin d) (Fin d) ℝ),
    ∀ y, σ y = A + ∑ a, y a • B a + ∑ a, ∑ c, (y a * y c) • Q a c

/-- The divergence of a stress field. -/
noncomputable def divergence (σ : (Fin d → ℝ) → Matrix (Fin d) (Fin d) ℝ) (y : Fin d → ℝ) : Fin d → ℝ := fun i =>
  ∑ b, deriv (fun t => σ (Function.update y b t) i b) (y b)

/-! ### Polynomials -/

/-- The expansion about another point. -/
lemma recentre {σ : (Fin d → ℝ) → Matrix (Fin d) (Fin d) ℝ} {A : Matrix (Fin d) (Fin d) ℝ} {B : Fin d → Matrix (Fin d) (Fin d) ℝ}
    {Q : Fin d → Fin d → Matrix (Fin d) (Fin d) ℝ} (h : ∀ y, σ y = A + ∑ a, y a • B a + ∑ a, ∑ c, (y a * y c) • Q a c)
    (X y : Fin d → ℝ) : σ y = σ X + ∑ a, (y a - X a) • (B a + ∑ c, X c • (Q a c + Q c a)) +
      ∑ a, ∑ c, ((y a - X a) * (y c - X c)) • Q a c := by
  rw [h, h]
  ext i j
  simp only [Matrix.add_apply, Matrix.sum_apply, Matrix.smul_apply, smul_eq_mul]
  have e1 : ∑ a, (y a - X a) * (B a i j + ∑ c, X c * (Q a c i j + Q c a i j)) =
      ∑ a, y a * B a i j - ∑ a, X a * B a i j + ∑ a, ∑ c, ((y a - X a) * X c * Q a c i j + (y c - X c) * X a * Q a c i j) := by
    have : ∑ a, ∑ c, (y c - X c) * X a * Q a c i j = ∑ a, ∑ c, (y a - X a) * X c * Q c a i j := Finset.sum_comm
    simp only [Finset.sum_add_distrib]
    rw [this, ← Finset.sum_sub_distrib, ← Finset.sum_add_distrib, ← Finset.sum_add_distrib]
    refine Finset.sum_congr rfl fun a _ => ?_
    rw [← Finset.sum_add_distrib, mul_add, Finset.mul_sum, sub_mul]
    congr 1
    exact Finset.sum_congr rfl fun c _ => by ring
  rw [e1]
  have e2 : ∑ a, ∑ c, y a * y c * Q a c i j = ∑ a, ∑ c, X a * X c * Q a c i j +
      ∑ a, ∑ c, ((y a - X a) * X c * Q a c i j + (y c - X c) * X a * Q a c i j) +
      ∑ a, ∑ c, (y a - X a) * (y c - X c) * Q a c i j := by
    simp only [← Finset.sum_add_distrib]
    exact Finset.sum_congr rfl fun a _ => Finset.sum_congr rfl fun c _ => by ring
  rw [e2]
  ring

lemma divergence_eq {σ : (Fin d → ℝ) → Matrix (Fin d) (Fin d) ℝ} {X : Fin d → ℝ} {B : Fin d → Matrix (Fin d) (Fin d) ℝ}
    {Q : Fin d → Fin d → Matrix (Fin d) (Fin d) ℝ}
    (h : ∀ y, σ y = σ X + ∑ a, (y a - X a) • B a + ∑ a, ∑ c, ((y a - X a) * (y c - X c)) • Q a c) :
    divergence σ X = fun i => ∑ b, B b i b := by
  funext i
  refine Finset.sum_congr rfl fun b _ => ?_
  have e : (fun t => σ (Function.update X b t) i b) = fun t => σ X i b + (t - X b) * B b i b + (t - X b) ^ 2 * Q b b i b := by
    funext t
    rw [h]
    have hu : ∀ a, Function.update X b t a - X a = if a = b then t - X b else 0 := by
      intro a
      by_cases ha : a = b
      · subst ha; simp
      · simp [ha]
    simp only [hu, Matrix.add_apply, Matrix.sum_apply, Matrix.smul_apply, smul_eq_mul, ite_mul, zero_mul, mul_ite, mul_zero,
      Finset.sum_ite_eq', Finset.mem_univ, if_true]
    ring
  rw [e]
  have h1 : HasDerivAt (fun t : ℝ => t - X b) 1 (X b) := (hasDerivAt_id _).sub_const _
  have h2 := ((h1.mul_const (B b i b)).const_add (σ X i b)).add ((h1.pow 2).mul_const (Q b b i b))
  refine (HasDerivAt.deriv h2).trans ?_
  simp

/-- The divergence of a quadratic field is affine. -/
lemma divergence_affine {σ : (Fin d → ℝ) → Matrix (Fin d) (Fin d) ℝ} (h : IsQuadratic σ) :
    ∃ H : Matrix (Fin d) (Fin d) ℝ, ∀ y, divergence σ y = divergence σ 0 + H *ᵥ y := by
  obtain ⟨A, B, Q, h⟩ := h
  refine ⟨fun i c => ∑ b, (Q b c i b + Q c b i b), fun y => ?_⟩
  rw [divergence_eq (recentre h y), divergence_eq (recentre h 0)]
  funext i
  have e1 : ∀ b, (B b + ∑ c, y c • (Q b c + Q c b)) i b = B b i b + ∑ c, y c * (Q b c i b + Q c b i b) := by
    intro b
    simp only [Matrix.add_apply, Matrix.sum_apply, Matrix.smul_apply, smul_eq_mul]
  have e2 : ∀ b, (B b + ∑ c, (0 : Fin d → ℝ) c • (Q b c + Q c b)) i b = B b i b := by
    intro b
    simp
  simp only [e1, e2, Pi.add_apply, mulVec, dotProduct, Finset.sum_add_distrib]
  congr 1
  rw [Finset.sum_comm]
  refine Finset.sum_congr rfl fun c _ => ?_
  rw [← Finset.mul_sum, mul_comm, Finset.sum_add_distrib]

/-! ### Moments of the shape functions over regular points -/

section moments
variable {deg : Deg} {dx : ℝ} {k : ℕ} {X : Fin d → ℝ} {l : List (Fin d → ℝ)}

lemma sum_dN_sq {deg : Deg} (hd : deg ≠ .one) {f : ℝ} (h0 : 0 ≤ f) (h1 : f < 1) :
    ∑ i, dNdu deg (stencilArg f i) * stencilArg f i ^ 2 = 0 := by
  have a0 : stencilArg f 0 = 1 + f := by simp [stencilArg]
  have a1 : stencilArg f 1 = f := by simp [stencilArg]
  have a2 : stencilArg f 2 = f - 1 := by simp [stencilArg]; ring
  have a3 : stencilArg f 3 = f - 2 := by simp [stencilArg]; ring
  rw [sum4, a0, a1, a2, a3]
  cases deg
  · exact absurd rfl hd
  · simp only [dNdu]
    rcases N2_vals h0 h1 with ⟨_, -, -, -, -, a, b, c, d⟩ | ⟨_, -, -, -, -, a, b, c, d⟩ <;> simp only [a, b, c, d] <;> ring
  · simp only [dNdu]
    obtain ⟨-, -, -, -, a, b, c, d⟩ := N3_vals h0 h1
    simp only [a, b, c, d]; ring

/-- A product of functions of the coordinates added up over regular points. -/
lemma regular_prod (hdx : 0 < dx) (hk : 0 < k) (hl : LatticeNear (dx / k) (width deg / 2 * dx) X l) (f : Fin d → ℝ → ℝ)
    (hf : ∀ a u, width deg / 2 ≤ |u| → f a u = 0) :
    ∃ s : Fin d → ℝ, (l.map fun y => ∏ a, f a ((y a - X a) / dx)).sum = ∏ a, s a ∧
      ∀ a c, (∀ φ : ℝ, 0 ≤ φ → φ < 1 → ∑ i, f a (stencilArg φ i) = c) → s a = k * c := by
  have hk' : (0 : ℝ) < k := by exact_mod_cast hk
  have hw : width deg / 2 ≤ 2 := by cases deg <;> norm_num [width]
  have hnear : ∀ a (z : ℝ), f a ((z - X a) / dx) ≠ 0 → |z - X a| < width deg / 2 * dx := by
    intro a z hz
    by_contra hlt
    refine hz (hf a _ ?_)
    rw [abs_div, abs_of_pos hdx, le_div_iff₀ hdx]
    exact not_lt.mp hlt
  obtain ⟨o, T, hT, hsum⟩ := regular_sum (M := ℝ) (div_pos hdx hk') hl
  refine ⟨fun a => ∑ z ∈ T a, f a ((o a + dx / k * (z : ℝ) - X a) / dx), ?_, fun a c hc => ?_⟩
  · rw [hsum _ fun y hy a => hnear a _ (Finset.prod_ne_zero_iff.mp hy a (Finset.mem_univ a))]
    rw [← Finset.prod_univ_sum T fun a z => f a ((o a + dx / k * (z : ℝ) - X a) / dx)]
  · have e : ∀ z : ℤ, (o a + dx / k * z - X a) / dx = (o a - X a) / dx + z / k := by
      intro z; field_simp; ring
    have hT' : ∀ z : ℤ, f a ((o a - X a) / dx + z / k) ≠ 0 → z ∈ T a := by
      intro z hz
      rw [← e] at hz
      exact hT a z (hnear a _ hz)
    simp only [e]
    exact lattice_sum_finite (fun u hu => hf a u (hw.trans hu)) hc hk _ hT'

/-- Shape functions and their derivatives times powers. -/
noncomputable def mom (deg : Deg) (grad : Prop) [Decidable grad] (e : ℕ) (u : ℝ) : ℝ := (if grad then dNdu deg u else N deg u) * u ^ e

lemma mom_out {grad : Prop} [Decidable grad] {e : ℕ} {u : ℝ} (h : width deg / 2 ≤ |u|) : mom deg grad e u = 0 := by
  have h0 := N_width (deg := deg) h
  unfold mom
  split_ifs
  · rw [dN_eq_zero_of_N_eq_zero h0, zero_mul]
  · rw [h0, zero_mul]

lemma shapeGrad_mom (X y : Fin d → ℝ) (b : Fin d) :
    shapeGrad deg dx X y b = 1 / dx * ∏ c, (if c = b then dNdu deg ((y c - X c) / dx) else N deg ((y c - X c) / dx)) := by
  have : (1 / dx : ℝ) = ∏ c, (1 / dx) ^ (if b = c then 1 else 0) := by
    rw [Finset.prod_pow_boole]; simp
  rw [this, ← Finset.prod_mul_distrib]
  refine Finset.prod_congr rfl fun c _ => ?_
  by_cases h : c = b
  · rw [if_pos h, if_pos h, if_pos h.symm]; ring
  · rw [if_neg h, if_neg h, if_neg (Ne.symm h)]; simp

/-- First moments of the gradients. -/
lemma regular_grad1 (hd : deg ≠ .one) (hdx : 0 < dx) (hk : 0 < k) (hl : LatticeNear (dx / k) (width deg / 2 * dx) X l) (a b : Fin d) :
    (l.map fun y => (y a - X a) * shapeGrad deg dx X y b).sum = if a = b then -(k : ℝ) ^ d else 0 := by
  obtain ⟨s, hs, hc⟩ := regular_prod hdx hk hl (fun c => mom deg (c = b) (if a = c then 1 else 0)) fun c u hu => mom_out hu
  have e : (l.map fun y => (y a - X a) * shapeGrad deg dx X y b).sum = ∏ c, s c := by
    rw [← hs]
    congr 1
    refine List.map_congr_left fun y _ => ?_
    rw [shapeGrad_mom]
    simp only [mom, Finset.prod_mul_distrib]
    rw [Finset.prod_pow_boole, if_pos (Finset.mem_univ _)]
    field_simp
  rw [e]
  by_cases hab : a = b
  · subst hab
    rw [if_pos rfl]
    have hsa : s a = k * (-1) := hc a (-1) fun φ h0 h1 => by simpa [mom] using sum_dN_arg h0 h1 hd
    have hso : ∀ c, c ≠ a → s c = k * 1 := fun c hne => hc c 1 fun φ h0 h1 => by
      simpa [mom, hne, Ne.symm hne] using sum_N h0 h1 deg
    have : ∏ c, s c = ∏ c, ((k : ℝ) * if c = a then -1 else 1) := by
      refine Finset.prod_congr rfl fun c _ => ?_
      by_cases h : c = a
      · rw [h, hsa, if_pos rfl]
      · rw [hso c h, if_neg h]
    rw [this, Finset.prod_mul_distrib, Finset.prod_ite_eq']
    simp
  · rw [if_neg hab]
    refine Finset.prod_eq_zero (Finset.mem_univ b) ?_
    rw [hc b 0 fun φ h0 h1 => by simpa [mom, hab] using sum_dN h0 h1 hd, mul_zero]

/-- Second moments of the gradients. -/
lemma regular_grad2 (hd : deg ≠ .one) (hdx : 0 < dx) (hk : 0 < k) (hl : LatticeNear (dx / k) (width deg / 2 * dx) X l) (a c b : Fin d) :
    (l.map fun y => (y a - X a) * (y c - X c) * shapeGrad deg dx X y b).sum = 0 := by
  obtain ⟨s, hs, hc⟩ := regular_prod hdx hk hl
    (fun j => mom deg (j = b) ((if a = j then 1 else 0) + if c = j then 1 else 0)) fun j u hu => mom_out hu
  have e : (l.map fun y => (y a - X a) * (y c - X c) * shapeGrad deg dx X y b).sum = dx * ∏ j, s j := by
    rw [← hs, ← List.sum_map_mul_left]
    congr 1
    refine List.map_congr_left fun y _ => ?_
    rw [shapeGrad_mom]
    simp only [mom, Finset.prod_mul_distrib, pow_add]
    rw [Finset.prod_pow_boole, if_pos (Finset.mem_univ _), Finset.prod_pow_boole, if_pos (Finset.mem_univ _)]
    field_simp
  rw [e]
  suffices h : ∃ j, s j = 0 by
    obtain ⟨j, hj⟩ := h
    rw [Finset.prod_eq_zero (Finset.mem_univ j) hj, mul_zero]
  by_cases hab : a = b
  · by_cases hcb : c = b
    · refine ⟨b, ?_⟩
      rw [hc b 0 fun φ h0 h1 => by simpa [mom, hab, hcb] using sum_dN_sq hd h0 h1, mul_zero]
    · refine ⟨c, ?_⟩
      have hac : a ≠ c := fun h => hcb (h ▸ hab)
      rw [hc c 0 fun φ h0 h1 => by simpa [mom, hcb, hac] using sum_N_arg h0 h1 deg, mul_zero]
  · by_cases hcb : c = b
    · refine ⟨a, ?_⟩
      have hac : c ≠ a := fun h => hab (h ▸ hcb)
      rw [hc a 0 fun φ h0 h1 => by simpa [mom, hab, hac] using sum_N_arg h0 h1 deg, mul_zero]
    · refine ⟨b, ?_⟩
      rw [hc b 0 fun φ h0 h1 => by simpa [mom, hab, hcb] using sum_dN h0 h1 hd, mul_zero]

/-- First moments of the shape function. -/
lemma regular_shape1 (hdx : 0 < dx) (hk : 0 < k) (hl : LatticeNear (dx / k) (width deg / 2 * dx) X l) (a : Fin d) :
    (l.map fun y => shape deg dx X y * (y a - X a)).sum = 0 := by
  obtain ⟨s, hs, hc⟩ := regular_prod hdx hk hl (fun c => mom deg False (if a = c then 1 else 0)) fun c u hu => mom_out hu
  have e : (l.map fun y => shape deg dx X y * (y a - X a)).sum = dx * ∏ c, s c := by
    rw [← hs, ← List.sum_map_mul_left]
    congr 1
    refine List.map_congr_left fun y _ => ?_
    simp only [mom, Finset.prod_mul_distrib, if_false, shape]
    rw [Finset.prod_pow_boole, if_pos (Finset.mem_univ _)]
    field_simp
  rw [e, Finset.prod_eq_zero (Finset.mem_univ a), mul_zero]
  rw [hc a 0 fun φ h0 h1 => by simpa [mom] using sum_N_arg h0 h1 deg, mul_zero]

end moments

section node
variable {deg : Deg} {dx fr m vol : ℝ} {mibf : Bool} {g : Axes d ℝ} {ps : List (Particle d ℝ)} {k : ℕ} {i : Fin d → ℕ}

lemma list_sum_apply {α ι : Type*} (l : List α) (f : α → ι → ℝ) (j : ι) : (l.map f).sum j = (l.map fun x => f x j).sum := by
  induction l with
  | nil => rfl
  | cons x l ih => simp only [List.map_cons, List.sum_cons, Pi.add_apply, ih]

lemma list_sum_finset {α ι : Type*} (l : List α) (t : Finset ι) (f : α → ι → ℝ) :
    (l.map fun x => ∑ j ∈ t, f x j).sum = ∑ j ∈ t, (l.map fun x => f x j).sum := by
  induction l with
  | nil => simp
  | cons x l ih => simp only [List.map_cons, List.sum_cons, Finset.sum_add_distrib, ih]

lemma list_sum_add {α : Type*} (l : List α) (f h : α → ℝ) : (l.map fun x => f x + h x).sum = (l.map f).sum + (l.map h).sum := by
  induction l with
  | nil => simp
  | cons x l ih => simp only [List.map_cons, List.sum_cons, ih]; ring

/-- The stress forces of a quadratic field over regular points. -/
lemma regular_force (hd : deg ≠ .one) (hdx : 0 < dx) (hk : 0 < k) {X : Fin d → ℝ} {l : List (Fin d → ℝ)}
    (hl : LatticeNear (dx / k) (width deg / 2 * dx) X l) {σ : (Fin d → ℝ) → Matrix (Fin d) (Fin d) ℝ} (hσ : IsQuadratic σ) :
    (l.map fun y => σ y *ᵥ shapeGrad deg dx X y).sum = -(k : ℝ) ^ d • divergence σ X := by
  obtain ⟨A, B, Q, h⟩ := hσ
  obtain ⟨B', hr⟩ : ∃ B' : Fin d → Matrix (Fin d) (Fin d) ℝ, ∀ y, σ y = σ X + ∑ a, (y a - X a) • B' a +
    ∑ a, ∑ c, ((y a - X a) * (y c - X c)) • Q a c := ⟨_, recentre h X⟩
  rw [divergence_eq hr]
  funext j
  rw [list_sum_apply]
  have e : ∀ y, (σ y *ᵥ shapeGrad deg dx X y) j = ∑ b, (σ X j b * shapeGrad deg dx X y b +
      ∑ a, B' a j b * ((y a - X a) * shapeGrad deg dx X y b) +
      ∑ a, ∑ c, Q a c j b * ((y a - X a) * (y c - X c) * shapeGrad deg dx X y b)) := by
    intro y
    rw [hr y]
    simp only [mulVec, dotProduct, Matrix.add_apply, Matrix.sum_apply, Matrix.smul_apply, smul_eq_mul, add_mul, Finset.sum_mul]
    refine Finset.sum_congr rfl fun b _ => ?_
    congr 1
    · congr 1
      exact Finset.sum_congr rfl fun a _ => by ring
    · exact Finset.sum_congr rfl fun a _ => Finset.sum_congr rfl fun c _ => by ring
  simp only [e]
  rw [list_sum_finset]
  have hb : ∀ b, (l.map fun y => σ X j b * shapeGrad deg dx X y b + ∑ a, B' a j b * ((y a - X a) * shapeGrad deg dx X y b) +
      ∑ a, ∑ c, Q a c j b * ((y a - X a) * (y c - X c) * shapeGrad deg dx X y b)).sum = -(k : ℝ) ^ d * B' b j b := by
    intro b
    have h0 : (l.map fun y => shapeGrad deg dx X y b).sum = 0 := by
      rw [← list_sum_apply, regular_shapeGrad hd hdx hk hl]; rfl
    rw [list_sum_add, list_sum_add, list_sum_finset, list_sum_finset]
    simp only [list_sum_finset, List.sum_map_mul_left, h0, regular_grad1 hd hdx hk hl, regular_grad2 hd hdx hk hl, mul_zero,
      Finset.sum_const_zero, add_zero, zero_add, mul_ite, Finset.sum_ite_eq', Finset.mem_univ, if_true]
    ring
  simp only [hb, Pi.smul_apply, smul_eq_mul, Finset.mul_sum]

/-- An affine velocity field on regular points arrives unchanged at a node. -/
lemma affine_node (h : GoodGrid dx g ps) (hk : 0 < k) (hi : IsNode g i)
    (hreg : LatticeNear (dx / k) (width deg / 2 * dx) (nodeAt g i) (ps.map fun p => p.x))
    (hn : NoTinyWeights deg dx g ps) {a : Fin d → ℝ} {C : Matrix (Fin d) (Fin d) ℝ}
    (hv : ∀ p ∈ ps, (∀ j, |p.x j - nodeAt g i j| < width deg / 2 * dx) → p.v = a + C *ᵥ p.x ∧
      (fr < 0 → (mkTransferParams deg dx fr mibf m vol).apicDinverse • p.Bmat = C)) :
    (raw (mkTransferParams deg dx fr mibf m vol) deg dx g ps (flatIndex g.size i)).mass = (k : ℝ) ^ d ∧
    (raw (mkTransferParams deg dx fr mibf m vol) deg dx g ps (flatIndex g.size i)).v = (k : ℝ) ^ d • (a + C *ᵥ nodeAt g i) := by
  have hdx := h.dx_pos
  set P := mkTransferParams deg dx fr mibf m vol with hP
  set X := nodeAt g i with hX
  have hraw := raw_node (P := P) (deg := deg) h hi
  have hcut : ∀ p ∈ ps, ¬ shape deg dx X p.x > cutoff → shape deg dx X p.x = 0 := fun p hp h0 =>
    (hn p hp i hi).resolve_right (by simpa [cutoff] using h0)
  have hmass : (raw P deg dx g ps (flatIndex g.size i)).mass = (k : ℝ) ^ d := by
    have h1 := congrArg (Cell.massHom (d := d) (K := ℝ)) hraw
    rw [map_list_sum, List.map_map] at h1
    refine h1.trans ?_
    rw [← regular_shape hdx hk hreg, List.map_map]
    congr 1
    refine List.map_congr_left fun p hp => ?_
    simp only [Function.comp]
    split_ifs with hc
    · rfl
    · rw [map_zero, hcut p hp hc]
  refine ⟨hmass, ?_⟩
  have h1 := congrArg (Cell.vHom (d := d) (K := ℝ)) hraw
  rw [map_list_sum, List.map_map] at h1
  refine h1.trans ?_
  have hterm : ∀ p ∈ ps, Cell.vHom (if shape deg dx X p.x > cutoff then nodeContribution deg dx P p X else 0) =
      shape deg dx X p.x • (a + C *ᵥ X) + if fr < 0 then 0 else shape deg dx X p.x • (C *ᵥ (p.x - X)) := by
    intro p hp
    split_ifs with hc hfr hfr
    · obtain ⟨e1, e2⟩ := hv p hp (shape_near hdx (lt_trans (by norm_num [cutoff]) hc).ne')
      have hf : P.flipRatio < 0 := hfr
      simp only [Cell.vHom_apply, nodeContribution, hf, if_true]
      rw [mul_comm P.apicDinverse, ← smul_smul, ← smul_mulVec, e2 hfr, ← smul_add, e1, mulVec_sub]
      abel_nf
    · obtain ⟨e1, -⟩ := hv p hp (shape_near hdx (lt_trans (by norm_num [cutoff]) hc).ne')
      have hf : ¬ P.flipRatio < 0 := hfr
      simp only [Cell.vHom_apply, nodeContribution, hf, if_false]
      rw [e1, mulVec_sub, ← smul_add, add_zero]
      congr 1
      abel
    · rw [hcut p hp hc, map_zero, zero_smul, zero_add]
    · rw [hcut p hp hc, map_zero, zero_smul, zero_smul, zero_add]
  refine (congrArg List.sum (List.map_congr_left hterm)).trans ?_
  have hsplit : ∀ l : List (Particle d ℝ), (l.map fun p => shape deg dx X p.x • (a + C *ᵥ X) +
      if fr < 0 then 0 else shape deg dx X p.x • (C *ᵥ (p.x - X))).sum =
      ((l.map fun p => p.x).map fun y => shape deg dx X y).sum • (a + C *ᵥ X) +
      if fr < 0 then 0 else C *ᵥ fun j => ((l.map fun p => p.x).map fun y => shape deg dx X y * (y j - X j)).sum := by
    intro l
    induction l with
    | nil => 
      have : (fun j : Fin d => (0 : ℝ)) = 0 := rfl
      simp [this]
    | cons p l ih =>
      simp only [List.map_cons, List.sum_cons, ih, add_smul]
      by_cases hf : fr < 0
      · simp only [hf, if_true, add_zero]
      · simp only [hf, if_false]
        have : (fun j => shape deg dx X p.x * (p.x j - X j) +
            ((l.map fun p => p.x).map fun y => shape deg dx X y * (y j - X j)).sum) =
            shape deg dx X p.x • (p.x - X) + fun j => ((l.map fun p => p.x).map fun y => shape deg dx X y * (y j - X j)).sum := by
          funext j; rfl
        rw [this, mulVec_add, mulVec_smul]
        abel
  rw [hsplit, regular_shape hdx hk hreg]
  have : (fun j => ((ps.map fun p => p.x).map fun y => shape deg dx X y * (y j - X j)).sum) = 0 := by
    funext j; exact regular_shape1 hdx hk hreg j
  rw [this, mulVec_zero, ite_self, add_zero]

/-- Interpolating a field that is affine on the nodes with non-zero weight. -/
lemma interp_affine {x : Fin d → ℝ} {s : Stencil d ℝ} {v : ℕ → Fin d → ℝ} (hok : StencilOK g.size x s)
    {a : Fin d → ℝ} {C : Matrix (Fin d) (Fin d) ℝ}
    (hv : ∀ c, s.weight c ≠ 0 → v (flatIndex g.size (s.node c)) = a + C *ᵥ s.nodePos c) :
    interpV g.size v s = a + C *ᵥ x ∧
    ∀ D, StencilGradOK D x s → interpGrad g.size v s = C ∧ interpB g.size v s x = D • C := by
  have hvc : ∀ c, s.weight c ≠ 0 → v (flatIndex g.size (s.node c)) = (a + C *ᵥ x) + C *ᵥ (s.nodePos c - x) := by
    intro c hc
    rw [hv c hc, mulVec_sub]; abel
  refine ⟨?_, fun D hD => ⟨?_, ?_⟩⟩
  · rw [interpV_eq, Finset.sum_congr rfl fun c _ => show s.weight c • v (flatIndex g.size (s.node c)) =
      s.weight c • ((a + C *ᵥ x) + C *ᵥ (s.nodePos c - x)) by
        by_cases h0 : s.weight c = 0
        · rw [h0, zero_smul, zero_smul]
        · rw [hvc c h0]]
    simp only [smul_add, Finset.sum_add_distrib, ← Finset.sum_smul, hok.sum_weight, one_smul,
      ← mulVec_smul, ← Matrix.mulVec_sum, hok.sum_weight_smul_pos, mulVec_zero, add_zero]
  · rw [interpGrad_eq, Finset.sum_congr rfl fun c _ => show vecMulVec (v (flatIndex g.size (s.node c))) (s.weightGrad c) =
      vecMulVec ((a + C *ᵥ x) + C *ᵥ (s.nodePos c - x)) (s.weightGrad c) by
        by_cases h0 : s.weight c = 0
        · rw [hok.grad_zero hD h0, vecMulVec_zero, vecMulVec_zero]
        · rw [hvc c h0]]
    ext i j
    simp only [Matrix.sum_apply, vecMulVec_apply, Pi.add_apply, add_mul,
      Finset.sum_add_distrib, ← Finset.mul_sum, hok.sum_grad hD, mul_zero, zero_add]
    simp only [mulVec, dotProduct, Finset.sum_mul]
    rw [Finset.sum_comm]
    have : ∀ k, ∑ c, C i k * (s.nodePos c - x) k * s.weightGrad c j = C i k * if k = j then 1 else 0 := by
      intro k
      rw [← hok.sum_grad_pos hD k j, Finset.mul_sum]
      exact Finset.sum_congr rfl fun c _ => by simp only [Pi.sub_apply]; ring
    simp only [this, mul_ite, mul_one, mul_zero, Finset.sum_ite_eq', Finset.mem_univ, if_true]
  · rw [interpB_eq, Finset.sum_congr rfl fun c _ => show s.weight c • vecMulVec (v (flatIndex g.size (s.node c))) (s.nodePos c - x) =
      s.weight c • vecMulVec ((a + C *ᵥ x) + C *ᵥ (s.nodePos c - x)) (s.nodePos c - x) by
        by_cases h0 : s.weight c = 0
        · rw [h0, zero_smul, zero_smul]
        · rw [hvc c h0]]
    ext i j
    simp only [Matrix.sum_apply, vecMulVec_apply, Pi.add_apply, Matrix.smul_apply, smul_eq_mul, Pi.sub_apply]
    have e1 : ∀ c, s.weight c * ((a i + (C *ᵥ x) i + (C *ᵥ (s.nodePos c - x)) i) * (s.nodePos c j - x j)) =
        (a i + (C *ᵥ x) i) * (s.weight c * (s.nodePos c j - x j)) +
        ∑ k, C i k * (s.weight c * (s.nodePos c k - x k) * (s.nodePos c j - x j)) := by
      intro c
      rw [show (C *ᵥ (s.nodePos c - x)) i = ∑ k, C i k * (s.nodePos c k - x k) from rfl, add_mul, mul_add, Finset.sum_mul,
        Finset.mul_sum]
      congr 1
      · ring
      · exact Finset.sum_congr rfl fun k _ => by ring
    simp only [e1, Finset.sum_add_distrib, ← Finset.mul_sum, hok.sum_weight_pos, mul_zero, zero_add]
    rw [Finset.sum_comm]
    simp only [← Finset.mul_sum, hok.sum_weight_pos_pos hD, mul_ite, mul_zero, Finset.sum_ite_eq', Finset.mem_univ, if_true]
    ring

/-- The force on a node from a quadratic stress field on regular points. -/
lemma force_node (h : GoodGrid dx g ps) (hd : deg ≠ .one) (hk : 0 < k) (hi : IsNode g i)
    (hreg : LatticeNear (dx / k) (width deg / 2 * dx) (nodeAt g i) (ps.map fun p => p.x))
    (hn : NoTinyWeights deg dx g ps) {σ : (Fin d → ℝ) → Matrix (Fin d) (Fin d) ℝ} (hσ : IsQuadratic σ)
    (hτ : ∀ p ∈ ps, (∀ j, |p.x j - nodeAt g i j| < width deg / 2 * dx) → p.tau = σ p.x) :
    (raw (mkTransferParams deg dx fr mibf m vol) deg dx g ps (flatIndex g.size i)).force = -(k : ℝ) ^ d • divergence σ (nodeAt g i) := by
  have hfl : [ps].flatten = ps := by simp
  obtain ⟨arr, harr, hn1⟩ := C54_p2g_nodes (deg := deg) (fr := fr) (m := m) (vol := vol) (mibf := mibf) (threads := [ps])
    (by rw [hfl]; exact h)
  rw [P2G_eq (P := mkTransferParams deg dx fr mibf m vol) (deg := deg) (dx := dx) (g := g) (ts := [ps]) rfl rfl
    (by rw [hfl]; exact h), hfl] at harr
  obtain rfl := Option.some.inj harr
  obtain ⟨-, h2, -⟩ := hn1 i hi
  rw [hfl] at h2
  refine (show _ = _ from h2).trans ?_
  have hcut : ∀ p ∈ ps, ¬ (1 / 10 ^ 25 < shape deg dx (nodeAt g i) p.x) → shape deg dx (nodeAt g i) p.x = 0 :=
    fun p hp h0 => (hn p hp i hi).resolve_right h0
  rw [filter_sum fun p hp h0 => by rw [shapeGrad_zero (hcut p hp h0), mulVec_zero], ← regular_force hd h.dx_pos hk hreg hσ,
    List.map_map]
  congr 1
  refine List.map_congr_left fun p hp => ?_
  simp only [Function.comp]
  by_cases h0 : shape deg dx (nodeAt g i) p.x = 0
  · rw [shapeGrad_zero h0, mulVec_zero, mulVec_zero]
  · rw [hτ p hp (shape_near h.dx_pos h0)]

/-- The second moment of the shape functions (the inertia of the APIC transfers). -/
noncomputable def splineInertia (deg : Deg) (dx : ℝ) : ℝ :=
  match deg with
  | .one => 0
  | .two => dx ^ 2 / 4
  | .three => dx ^ 2 / 3

lemma splineInertia_inv (hd : deg ≠ .one) (hdx : dx ≠ 0) :
    (mkTransferParams deg dx fr mibf m vol).apicDinverse * splineInertia deg dx = 1 := by
  cases deg with
  | one => exact absurd rfl hd
  | two => simp only [mkTransferParams, splineInertia]; field_simp
  | three => simp only [mkTransferParams, splineInertia]; field_simp

/-- **C124** The acceleration of a grid node inside a regularly sampled body (`k` particles per cell in each direction) is the
divergence of the stress field at the node over the density, exactly, if the field is a polynomial of degree at most two; and an
affine velocity field arrives at the node unchanged, for the transfers with affine states (`fr < 0`) and those without. -/
theorem C124_node {threads : List (List (Particle d ℝ))} (h : GoodGrid dx g threads.flatten) (hd : deg ≠ .one) (hm : 0 < m) (hk : 0 < k)
    (hi : IsNode g i)
    (hreg : LatticeNear (dx / k) (width deg / 2 * dx) (nodeAt g i) (threads.flatten.map fun p => p.x))
    (hn : NoTinyWeights deg dx g threads.flatten) {σ : (Fin d → ℝ) → Matrix (Fin d) (Fin d) ℝ} (hσ : IsQuadratic σ)
    {v₀ : Fin d → ℝ} {L : Matrix (Fin d) (Fin d) ℝ}
    (hf : ∀ p ∈ threads.flatten, (∀ j, |p.x j - nodeAt g i j| < width deg / 2 * dx) →
      p.tau = σ p.x ∧ p.v = v₀ + L *ᵥ p.x ∧ (fr < 0 → p.Bmat = splineInertia deg dx • L)) :
    ∃ arr, P2G (mkTransferParams deg dx fr mibf m vol) g threads = some arr ∧
      (arr (flatIndex g.size i)).mass = k ^ d * m ∧ (arr (flatIndex g.size i)).v = v₀ + L *ᵥ nodeAt g i ∧
      ∀ (dt : ℝ) (grav : Fin d → ℝ),
        (eulerUpdate (mkTransferParams deg dx fr mibf m vol) dt grav (fun _ _ v => v) g arr).v (flatIndex g.size i) =
          v₀ + L *ᵥ nodeAt g i + dt • ((vol / m) • divergence σ (nodeAt g i) + grav) := by
  have hinv := splineInertia_inv (fr := fr) (m := m) (vol := vol) (mibf := mibf) hd h.dx_pos.ne'
  refine ⟨_, P2G_eq (deg := deg) rfl rfl h, ?_⟩
  obtain ⟨h1, h2⟩ := affine_node (fr := fr) (m := m) (vol := vol) (mibf := mibf) h hk hi hreg hn (a := v₀) (C := L) fun p hp hpn =>
    ⟨(hf p hp hpn).2.1, fun hfr => by rw [(hf p hp hpn).2.2 hfr, smul_smul, hinv, one_smul]⟩
  have h3 := force_node (fr := fr) (m := m) (vol := vol) (mibf := mibf) h hd hk hi hreg hn hσ fun p hp hpn => (hf p hp hpn).1
  have hk' : (0 : ℝ) < (k : ℝ) ^ d := by positivity
  set P := mkTransferParams deg dx fr mibf m vol with hP
  have e1 : (p2gFinish P (raw P deg dx g threads.flatten) (flatIndex g.size i)).mass = k ^ d * m := by
    show (raw P deg dx g threads.flatten (flatIndex g.size i)).mass * m = _
    rw [h1]
  have e2 : (p2gFinish P (raw P deg dx g threads.flatten) (flatIndex g.size i)).v = v₀ + L *ᵥ nodeAt g i := by
    show (if (raw P deg dx g threads.flatten (flatIndex g.size i)).mass > 0 then _ else _ : Fin d → ℝ) = _
    rw [if_pos (by rw [h1]; exact hk'), h1, h2, smul_smul, inv_mul_cancel₀ hk'.ne', one_smul]
  refine ⟨e1, e2, fun dt grav => ?_⟩
  rw [(eulerUpdate_at P dt grav (fun _ _ v => v) g _ hi).1, if_pos (by rw [e1]; positivity), e2, incrAt, e1]
  have e3 : (p2gFinish P (raw P deg dx g threads.flatten) (flatIndex g.size i)).force = -(k : ℝ) ^ d • divergence σ (nodeAt g i) := h3
  have hvol : P.particleVolume = vol := rfl
  rw [e3, hvol, smul_smul, smul_add, smul_smul]
  congr 3
  field_simp

end node

section step
variable {R : Setup (d + 2)} {s : LoopState (d + 2) (World (d + 2))} {deg : Deg} {dx fr m vol : ℝ} {mibf : Bool} {k : ℕ}

/-- Spec: up to the distance `r` from `x` (in every direction) the body is sampled regularly with spacing `h`, its velocities are
those of the affine field `v₀ + L y` (with the affine state that belongs to it, for transfers with `fr < 0`) and its stresses
those of the field `σ`. -/
structure FieldsNear {d : ℕ} (deg : Deg) (dx fr h r : ℝ) (v₀ : Fin d → ℝ) (L : Matrix (Fin d) (Fin d) ℝ)
    (σ : (Fin d → ℝ) → Matrix (Fin d) (Fin d) ℝ) (ps : List (Particle d ℝ)) (x : Fin d → ℝ) : Prop where
  regular : LatticeNear h r x (ps.map fun q => q.x)
  fields : ∀ q ∈ ps, (∀ a, |q.x a - x a| < r) →
    q.tau = σ q.x ∧ q.v = v₀ + L *ᵥ q.x ∧ (fr < 0 → q.Bmat = splineInertia deg dx • L)

lemma FieldsNear.mono {d : ℕ} {dx fr h r r' : ℝ} {v₀ : Fin d → ℝ} {L : Matrix (Fin d) (Fin d) ℝ}
    {σ : (Fin d → ℝ) → Matrix (Fin d) (Fin d) ℝ} {ps : List (Particle d ℝ)} {x x' : Fin d → ℝ}
    (hp : FieldsNear deg dx fr h r v₀ L σ ps x) (hr : ∀ a, |x' a - x a| + r' ≤ r) : FieldsNear deg dx fr h r' v₀ L σ ps x' := by
  refine ⟨hp.regular.mono hr, fun q hq hqa => hp.fields q hq fun a => ?_⟩
  have h1 := abs_add_le (q.x a - x' a) (x' a - x a)
  have h2 := hqa a
  have h3 := hr a
  rw [show q.x a - x' a + (x' a - x a) = q.x a - x a by ring] at h1
  linarith

/-- Spec: points closer than `r` to `x` do not meet a wall when they move with the velocity `v` for the time `dt`. -/
def NoWallOnWay (R : Setup (d + 2)) (r dt : ℝ) (plates : List (Plate (d + 2))) (v : (Fin (d + 2) → ℝ) → Fin (d + 2) → ℝ)
    (x : Fin (d + 2) → ℝ) : Prop :=
  ∀ z, (∀ a, |z a - x a| < r) → (∀ o ∈ R.objs, ¬ o.inside (z + dt • v z)) ∧ ∀ pl ∈ plates, ¬ R.ops.inside pl (z + dt • v z)

lemma NoWallOnWay.mono {r r' dt : ℝ} {plates : List (Plate (d + 2))} {v : (Fin (d + 2) → ℝ) → Fin (d + 2) → ℝ} {x x' : Fin (d + 2) → ℝ}
    (h : NoWallOnWay R r dt plates v x) (hr : ∀ a, |x' a - x a| + r' ≤ r) : NoWallOnWay R r' dt plates v x' := fun z hz =>
  h z fun a => by
    have h1 := abs_add_le (z a - x' a) (x' a - x a)
    have h2 := hz a
    have h3 := hr a
    rw [show z a - x' a + (x' a - x a) = z a - x a by ring] at h1
    linarith

section fields
variable {dt : ℝ} {grav : Fin (d + 2) → ℝ} {w : World (d + 2)} {g : Axes (d + 2) ℝ} {v₀ a' : Fin (d + 2) → ℝ}
  {L C' : Matrix (Fin (d + 2)) (Fin (d + 2)) ℝ} {σ : (Fin (d + 2) → ℝ) → Matrix (Fin (d + 2)) (Fin (d + 2)) ℝ}

/-- The nodes near a particle after the grid update. -/
lemma fields_node (hS : R.S.P = mkTransferParams deg dx fr mibf m vol) (hd : deg ≠ .one) (hm : 0 < m) (hk : 0 < k)
    (hg : GoodGrid dx g w.ps) (hn : NoTinyWeights deg dx g w.ps) (hσ : IsQuadratic σ)
    (hv : ∀ y, v₀ + L *ᵥ y + dt • ((vol / m) • divergence σ y + grav) = a' + C' *ᵥ y) {x : Fin (d + 2) → ℝ}
    (hp : FieldsNear deg dx fr (dx / k) (width deg * dx) v₀ L σ w.ps x)
    (hw : NoWallOnWay R (width deg / 2 * dx) dt w.plates (fun y => a' + C' *ᵥ y) x)
    {i : Fin (d + 2) → ℕ} (hi : IsNode g i) (hnear : shape deg dx (nodeAt g i) x ≠ 0) :
    let e := stepEuler R.S deg dx dt grav (wallsOn R deg dx dt g w) g w.ps
    e.v (flatIndex g.size i) = a' + C' *ᵥ nodeAt g i ∧
    e.flip (flatIndex g.size i) = (a' - v₀) + (C' - L) *ᵥ nodeAt g i ∧
    (p2gFinish R.S.P (raw R.S.P deg dx g w.ps) (flatIndex g.size i)).mass = (k : ℝ) ^ (d + 2) * m := by
  have hdx := hg.dx_pos
  have hX := fun a => shape_near hdx hnear a
  have hX' : ∀ a, |nodeAt g i a - x a| < width deg / 2 * dx := fun a => by rw [abs_sub_comm]; exact hX a
  have hpi : FieldsNear deg dx fr (dx / k) (width deg / 2 * dx) v₀ L σ w.ps (nodeAt g i) := hp.mono fun a => by
    have := hX' a; linarith
  have hfl : [w.ps].flatten = w.ps := by simp
  obtain ⟨arr, ha, h1, h2, h3⟩ := C124_node (deg := deg) (fr := fr) (m := m) (vol := vol) (mibf := mibf) (threads := [w.ps])
    (by rw [hfl]; exact hg) hd hm hk hi (by rw [hfl]; exact hpi.regular) (by rw [hfl]; exact hn) hσ
    (by rw [hfl]; exact hpi.fields)
  have hP := P2G_eq (P := R.S.P) (deg := deg) (dx := dx) (g := g) (ts := [w.ps]) (by rw [hS]; rfl) (by rw [hS]; rfl)
    (by rw [hfl]; exact hg)
  rw [← hS, hP, hfl] at ha
  obtain rfl := Option.some.inj ha
  have hpos : 0 < (p2gFinish R.S.P (raw R.S.P deg dx g w.ps) (flatIndex g.size i)).mass := by
    rw [h1]; positivity
  have h3' := h3 dt grav
  rw [← hS, (eulerUpdate_at R.S.P dt grav (fun _ _ v => v) g _ hi).1, if_pos hpos, hv] at h3'
  have he := eulerUpdate_at R.S.P dt grav (wallsOn R deg dx dt g w) g (p2gFinish R.S.P (raw R.S.P deg dx g w.ps)) hi
  have hbc : wallsOn R deg dx dt g w (flatIndex g.size i) (nodeAt g i) (a' + C' *ᵥ nodeAt g i) = a' + C' *ᵥ nodeAt g i := by
    have := hw (nodeAt g i) hX'
    exact collide_none this.1 this.2
  simp only [if_pos hpos] at he
  rw [h3', hbc, h2] at he
  refine ⟨he.1, he.2.trans ?_, h1⟩
  rw [sub_mulVec]; abel

/-- The transfer back to a particle. -/
lemma fields_transfer (hS : R.S.P = mkTransferParams deg dx fr mibf m vol) (hd : deg ≠ .one) (hm : 0 < m) (hk : 0 < k)
    (hg : GoodGrid dx g w.ps) (hn : NoTinyWeights deg dx g w.ps) (hσ : IsQuadratic σ)
    (hv : ∀ y, v₀ + L *ᵥ y + dt • ((vol / m) • divergence σ y + grav) = a' + C' *ᵥ y) {p : Particle (d + 2) ℝ} (hmem : p ∈ w.ps)
    (hp : FieldsNear deg dx fr (dx / k) (width deg * dx) v₀ L σ w.ps p.x)
    (hw : NoWallOnWay R (width deg / 2 * dx) dt w.plates (fun y => a' + C' *ᵥ y) p.x) :
    let q := g2pTransfer R.S.P g.size (stepEuler R.S deg dx dt grav (wallsOn R deg dx dt g w) g w.ps) p (stencilOf deg dx g p.x)
    q.pic = a' + C' *ᵥ p.x ∧ q.Bmat = (if fr < 0 then splineInertia deg dx • C' else 0) ∧ blendVelocity R.S.P q = a' + C' *ᵥ p.x := by
  have hgood := hg.good (deg := deg) hmem
  have hnode : ∀ c, (stencilOf deg dx g p.x).weight c ≠ 0 → _ := fun c hc =>
    fields_node hS hd hm hk hg hn hσ hv hp hw (i := (stencilOf deg dx g p.x).node c) (hgood.ok.node_lt c) (by
      rw [← hgood.pos, ← hgood.weight]; exact hc)
  obtain ⟨D, hD, hDi⟩ := apic_D (fr := fr) (m := m) (vol := vol) (mibf := mibf) hd hg p hmem
  have hDD : D = splineInertia deg dx := by
    have h1 := splineInertia_inv (fr := fr) (m := m) (vol := vol) (mibf := mibf) hd hg.dx_pos.ne'
    have h0 : (mkTransferParams deg dx fr mibf m vol).apicDinverse ≠ 0 := left_ne_zero_of_mul_eq_one h1
    exact mul_left_cancel₀ h0 (hDi.trans h1.symm)
  set e := stepEuler R.S deg dx dt grav (wallsOn R deg dx dt g w) g w.ps
  have h1 := interp_affine (g := g) (v := e.v) hgood.ok (a := a') (C := C') fun c hc => by rw [hgood.pos]; exact (hnode c hc).1
  have h2 := (interp_affine (g := g) (v := e.flip) hgood.ok (a := a' - v₀) (C := C' - L) fun c hc => by
    rw [hgood.pos]; exact (hnode c hc).2.1).1
  have hpv : p.v = v₀ + L *ᵥ p.x := by
    refine (hp.fields p hmem fun a => ?_).2.1
    rw [sub_self, abs_zero]
    exact mul_pos (by cases deg <;> norm_num [width]) hg.dx_pos
  have hsum : p.v + ((a' - v₀) + (C' - L) *ᵥ p.x) = a' + C' *ᵥ p.x := by
    rw [hpv, sub_mulVec]; abel
  have hfr : R.S.P.flipRatio = fr := by rw [hS]; rfl
  refine ⟨h1.1, ?_, ?_⟩
  · simp only [g2pTransfer, hfr, (h1.2 D hD).2, hDD]
  · simp only [blendVelocity, g2pTransfer, h1.1, h2]
    by_cases f1 : R.S.P.flipRatio < -1
    · rw [if_pos f1]
    · rw [if_neg f1, if_pos (not_lt.mp f1), hsum, ← add_smul, ← add_smul]
      simp

/-- The velocities with which the gradient is computed. -/
lemma fields_gradVel (hS : R.S.P = mkTransferParams deg dx fr mibf m vol) (hd : deg ≠ .one) (hm : 0 < m) (hk : 0 < k)
    (hg : GoodGrid dx g w.ps) (hn : NoTinyWeights deg dx g w.ps) (hσ : IsQuadratic σ)
    (hv : ∀ y, v₀ + L *ᵥ y + dt • ((vol / m) • divergence σ y + grav) = a' + C' *ᵥ y) {x : Fin (d + 2) → ℝ}
    (hp : FieldsNear deg dx fr (dx / k) (2 * width deg * dx) v₀ L σ w.ps x)
    (hw : NoWallOnWay R (2 * width deg * dx) dt w.plates (fun y => a' + C' *ᵥ y) x)
    {i : Fin (d + 2) → ℕ} (hi : IsNode g i) (hnear : shape deg dx (nodeAt g i) x ≠ 0) :
    gradVel R.S deg dx dt grav (wallsOn R deg dx dt g w) g w.ps (flatIndex g.size i) = a' + C' *ᵥ nodeAt g i := by
  have hdx := hg.dx_pos
  have hwid : 0 < width deg * dx := mul_pos (by cases deg <;> norm_num [width]) hdx
  have hin : ∀ y : Fin (d + 2) → ℝ, (∀ a, |y a - x a| < width deg * dx) →
      FieldsNear deg dx fr (dx / k) (width deg * dx) v₀ L σ w.ps y ∧
      NoWallOnWay R (width deg / 2 * dx) dt w.plates (fun y => a' + C' *ᵥ y) y := fun y hy =>
    ⟨hp.mono fun a => by have := hy a; linarith, hw.mono fun a => by have := hy a; linarith⟩
  have hxx := hin x fun a => by rw [sub_self, abs_zero]; exact hwid
  have hnode := fields_node hS hd hm hk hg hn hσ hv hxx.1 hxx.2 hi hnear
  cases hmu : R.S.useMusl with
  | false =>
    simp only [gradVel, hmu, Bool.false_eq_true, if_false]
    exact hnode.1
  | true =>
    simp only [gradVel, hmu, if_true, muslFinish]
    have hX := fun a => shape_near hdx hnear a
    have hk' : (0 : ℝ) < (k : ℝ) ^ (d + 2) := by positivity
    have hPm : R.S.P.particleMass = m := by rw [hS]; rfl
    rw [if_pos (by rw [hnode.2.2]; positivity), hnode.2.2, hPm]
    set f := fun q : Particle (d + 2) ℝ =>
      let q' := g2pTransfer R.S.P g.size (stepEuler R.S deg dx dt grav (wallsOn R deg dx dt g w) g w.ps) q (stencilOf deg dx g q.x)
      ({ q' with v := blendVelocity R.S.P q' } : Particle (d + 2) ℝ) with hf
    have hgf : GoodGrid dx g (w.ps.map f) := hg.map (fun _ _ => rfl)
    have hpos : (w.ps.map f).map (fun p => p.x) = w.ps.map fun p => p.x := by rw [List.map_map]; rfl
    have hinv := splineInertia_inv (fr := fr) (m := m) (vol := vol) (mibf := mibf) hd hdx.ne'
    have hlast := (affine_node (fr := fr) (m := m) (vol := vol) (mibf := mibf) (deg := deg) hgf hk hi
      (by
        rw [hpos]
        exact hp.regular.mono fun a => by
          have := hX a
          rw [abs_sub_comm] at this
          linarith)
      (fun p hp j hj => by
        obtain ⟨q, hq, rfl⟩ := List.mem_map.mp hp
        exact hn q hq j hj)
      (a := a') (C := C') (fun p hpm hpn => by
        obtain ⟨q, hq, rfl⟩ := List.mem_map.mp hpm
        have hqx : ∀ a, |q.x a - x a| < width deg * dx := fun a => by
          have h1 := abs_add_le (q.x a - nodeAt g i a) (nodeAt g i a - x a)
          have h2 : |q.x a - nodeAt g i a| < width deg / 2 * dx := hpn a
          have h3 := hX a
          rw [abs_sub_comm] at h3
          rw [show q.x a - nodeAt g i a + (nodeAt g i a - x a) = q.x a - x a by ring] at h1
          linarith
        obtain ⟨-, t2, t3⟩ := fields_transfer hS hd hm hk hg hn hσ hv hq (hin q.x hqx).1 (hin q.x hqx).2
        refine ⟨t3, fun hfr => ?_⟩
        rw [if_pos hfr] at t2
        rw [show (f q).Bmat = _ from t2, smul_smul, hinv, one_smul])).2
    rw [← hS] at hlast
    rw [hlast, smul_smul, mul_div_assoc, div_self hm.ne', mul_one, inv_mul_cancel₀ hk'.ne', one_smul]

end fields

/-- **C124** A step of a run deep inside a regularly sampled body with an affine velocity field and a stress field of degree at
most two is the step of the equations of motion of the continuum, exactly: the velocity field is increased by the time step
times (divergence of the stress over density + gravity), particles move with the new velocity field, and the deformation
gradient handed to the plastic model is that of the map `y + dt * v' y`. With or without MUSL, every `flip_ratio`, quadratic
and cubic splines, all material models. -/
theorem C124_step {s1 : LoopState (d + 2) (World (d + 2))} {dt : ℝ} {g : Fin (d + 2) → ℝ} {w : World (d + 2)}
    (hS : R.S.P = mkTransferParams deg dx fr mibf m vol) (hd : deg ≠ .one) (hdx : 0 < dx) (hm : 0 < m) (hk : 0 < k)
    (hpbc : R.S.pbc = false) (hch : R.S.changePos = false) (hsched : ∀ k ps, (R.sched k ps).flatten.Perm ps)
    (hst : StepOf R s s1 dt g w) (hn : NoTinyWeights deg dx w.g s1.w.ps)
    {v₀ : Fin (d + 2) → ℝ} {L : Matrix (Fin (d + 2)) (Fin (d + 2)) ℝ}
    {σ : (Fin (d + 2) → ℝ) → Matrix (Fin (d + 2)) (Fin (d + 2)) ℝ} (hσ : IsQuadratic σ)
    {v' : (Fin (d + 2) → ℝ) → Fin (d + 2) → ℝ} (hv' : ∀ y, v' y = v₀ + L *ᵥ y + dt • ((vol / m) • divergence σ y + g)) :
    ∃ C' : Matrix (Fin (d + 2)) (Fin (d + 2)) ℝ, (∀ y z, v' y - v' z = C' *ᵥ (y - z)) ∧
    List.Forall₂ (fun p q => FieldsNear deg dx fr (dx / k) (2 * width deg * dx) v₀ L σ s1.w.ps p.x →
      NoWallOnWay R (2 * width deg * dx) dt s1.w.plates v' p.x →
      q.v = v' p.x ∧ q.x = p.x + dt • v' p.x ∧ q.Bmat = (if fr < 0 then splineInertia deg dx • C' else 0) ∧
      ∃ r o, plasticity R.cabs R.svd R.m dt r false = some o ∧ r.F = (1 + dt • C') * p.F ∧ r.epsPlVol = p.epsPlVol ∧
        r.epsPlDev = p.epsPlDev ∧ r.epsPlVolPradhana = p.epsPlVolPradhana ∧ q.F = o.q.F ∧ q.tau = o.q.tau ∧
        q.epsPlVol = o.q.epsPlVol ∧ q.epsPlDev = o.q.epsPlDev ∧ q.epsPlVolPradhana = o.q.epsPlVolPradhana)
      s1.w.ps w.ps := by
  obtain ⟨H, hH⟩ := divergence_affine hσ
  set C' := L + (dt * (vol / m)) • H with hC'
  set a' := v₀ + dt • ((vol / m) • divergence σ 0 + g) with ha'
  have hva : ∀ y, v₀ + L *ᵥ y + dt • ((vol / m) • divergence σ y + g) = a' + C' *ᵥ y := by
    intro y
    rw [hH y, ha', hC', add_mulVec, smul_mulVec, ← smul_smul]
    simp only [smul_add]
    abel
  have hvf : v' = fun y => a' + C' *ᵥ y := funext fun y => (hv' y).trans (hva y)
  refine ⟨C', fun y z => by rw [hvf, mulVec_sub]; simp only [add_sub_add_left_eq_sub], ?_⟩
  rw [hvf]
  have h := hst.phys
  have hP : R.S.P.deg = deg := by rw [hS]; rfl
  have hP1 : R.S.P.oneOverDx = 1 / dx := by rw [hS]; rfl
  have hPdx : R.S.P.dx = dx := by rw [hS]; rfl
  have hgood := physStep_goodGrid hpbc (by rw [hPdx]; exact hdx) (by rw [hS]; rfl) h
  rw [hPdx] at hgood
  obtain ⟨bg, hbg, hbg2⟩ := physStep_choose h
  rw [hbg2] at hgood hn
  rw [physStep_good hpbc hP hP1 (hsched _) hbg hgood] at h
  obtain ⟨qs, hqs, h1⟩ := Option.map_eq_some_iff.mp h
  obtain ⟨rfl, -⟩ := Prod.mk.inj h1
  rw [List.forall₂_map_right_iff]
  refine forall₂_imp_mem (mapM_forall₂ hqs) fun p hp o ho hint hnw => ?_
  have hwid : 0 < width deg * dx := mul_pos (by cases deg <;> norm_num [width]) hdx
  obtain ⟨t1, t2, t3⟩ := fields_transfer (dt := dt) (grav := g) hS hd hm hk hgood hn hσ hva hp
    (hint.mono fun a => by rw [sub_self, abs_zero]; linarith)
    (hnw.mono fun a => by rw [sub_self, abs_zero]; linarith)
  have hgp := hgood.good (deg := deg) hp
  obtain ⟨D, hD⟩ := hgp.gradOK hd
  have hgrad := ((interp_affine (g := bg.2) (v := gradVel R.S deg dx dt g (wallsOn R deg dx dt bg.2 s1.w) bg.2 s1.w.ps) hgp.ok
    (a := a') (C := C') fun c hc => by
      rw [hgp.pos]
      exact fields_gradVel hS hd hm hk hgood hn hσ hva hint hnw (hgp.ok.node_lt c) (by rw [← hgp.pos, ← hgp.weight]; exact hc)).2
        D hD).1
  simp only [particleStep] at ho
  rw [hgrad] at ho
  have hF : ∀ M : Matrix (Fin (d + 2)) (Fin (d + 2)) ℝ, trialF dt M p.F = (1 + dt • M) * p.F := fun M => by
    rw [trialF, Matrix.add_mul, Matrix.one_mul, Matrix.smul_mul]
  rw [hF] at ho
  obtain ⟨out, hout, rfl⟩ := plasticUpdate_some ho
  obtain ⟨m1, m2, m3, m4, m5⟩ := motion_plasticity hout
  refine ⟨?_, ?_, ?_, ⟨_, out, hout, rfl, ?_, ?_, ?_, rfl, rfl, rfl, rfl, rfl⟩⟩
  · cases hmu : R.S.useMusl with
    | true =>
      simp only [positionParticle, if_true]
      rw [m2]
      simp only [hmu, if_true]
      exact t3
    | false =>
      simp only [positionParticle, Bool.false_eq_true, if_false]
      simp only [hmu, Bool.false_eq_true, if_false] at m2 m3 m4
      rw [← t3]
      unfold blendVelocity
      rw [m2, m3, m4]
  · simp only [positionParticle, hch, Bool.false_eq_true, if_false]
    rw [m1, m3]
    cases hmu : R.S.useMusl with
    | true => simp only [if_true, t1]; rfl
    | false => simp only [Bool.false_eq_true, if_false, t1]; rfl
  · show out.q.Bmat = _
    rw [m5]
    cases hmu : R.S.useMusl with
    | true => simpa only [if_true] using t2
    | false => simpa only [Bool.false_eq_true, if_false] using t2
  · cases R.S.useMusl <;> rfl
  · cases R.S.useMusl <;> rfl
  · cases R.S.useMusl <;> rfl

/-- **C124** Geostatic equilibrium: deep inside a regularly sampled body at rest, whose stress field balances gravity (divergence
over density equal to minus gravity, for instance a pressure that grows linearly with depth), nothing happens in a step. -/
theorem C124_equilibrium {s1 : LoopState (d + 2) (World (d + 2))} {dt : ℝ} {g : Fin (d + 2) → ℝ} {w : World (d + 2)}
    (hS : R.S.P = mkTransferParams deg dx fr mibf m vol) (hd : deg ≠ .one) (hdx : 0 < dx) (hm : 0 < m) (hk : 0 < k)
    (hpbc : R.S.pbc = false) (hch : R.S.changePos = false) (hsched : ∀ k ps, (R.sched k ps).flatten.Perm ps)
    (hst : StepOf R s s1 dt g w) (hn : NoTinyWeights deg dx w.g s1.w.ps)
    {σ : (Fin (d + 2) → ℝ) → Matrix (Fin (d + 2)) (Fin (d + 2)) ℝ} (hσ : IsQuadratic σ)
    (hbal : ∀ y, (vol / m) • divergence σ y = -g) :
    List.Forall₂ (fun p q => FieldsNear deg dx fr (dx / k) (2 * width deg * dx) 0 0 σ s1.w.ps p.x →
      NoWallNear R (2 * width deg * dx) s1.w.plates p.x →
      q.v = 0 ∧ q.x = p.x ∧ q.Bmat = 0 ∧
      ∃ r o, plasticity R.cabs R.svd R.m dt r false = some o ∧ r.F = p.F ∧ r.epsPlVol = p.epsPlVol ∧
        r.epsPlDev = p.epsPlDev ∧ r.epsPlVolPradhana = p.epsPlVolPradhana ∧ q.F = o.q.F ∧ q.tau = o.q.tau ∧
        q.epsPlVol = o.q.epsPlVol ∧ q.epsPlDev = o.q.epsPlDev ∧ q.epsPlVolPradhana = o.q.epsPlVolPradhana)
      s1.w.ps w.ps := by
  obtain ⟨C', hC, h⟩ := C124_step hS hd hdx hm hk hpbc hch hsched hst hn (v₀ := 0) (L := 0) hσ (v' := fun _ => 0)
    (fun y => by rw [hbal]; simp)
  have hC0 : C' = 0 := by
    ext i j
    have := congrFun (hC (Pi.single j 1) 0) i
    simp only [sub_self, sub_zero, Pi.zero_apply] at this
    rw [Matrix.mulVec_single_one] at this
    simpa using this.symm
  refine h.imp fun p q hpq h1 h2 => ?_
  obtain ⟨e1, e2, e3, r, o, e4, e5, e6⟩ := hpq h1 fun z hz => by
    rw [smul_zero, add_zero]; exact h2 z hz
  exact ⟨e1, by rw [e2, smul_zero, add_zero], by rw [e3, hC0, smul_zero, ite_self], r, o, e4,
    by rw [e5, hC0, smul_zero, add_zero, Matrix.one_mul], e6⟩

end step

end Verif.Props
