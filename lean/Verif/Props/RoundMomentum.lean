import Verif.Model.RoundStep
import Verif.Lemmas.RoundNode
import Verif.Props.RoundTransfer

set_option linter.unusedSectionVars false
set_option linter.unusedSimpArgs false
set_option linter.unusedVariables false

/-!
# C119: rounding errors do not create momentum

The momentum balance of a step without walls (C04), in floating-point arithmetic.
-/

namespace Verif.Props
open Verif
variable {d : ℕ} {u : ℝ} {fl : ℝ → ℝ}

/-! ### One particle -/

lemma closed_sum {F : ℝ → ℝ} {c : ℝ} (h2 : F 2 = 0) (h2' : F (-2) = 0)
    (h : ∀ f : ℝ, 0 ≤ f → f < 1 → ∑ k, F (stencilArg f k) = c) {f : ℝ} (hf0 : 0 ≤ f) (hf1 : f ≤ 1) :
    ∑ k, F (stencilArg f k) = c := by
  rcases eq_or_lt_of_le hf1 with rfl | h1
  · have := h 0 le_rfl one_pos
    rw [sum4] at this ⊢
    simp only [stencilArg] at this ⊢
    norm_num at this ⊢
    rw [h2'] at this
    rw [h2]
    linarith
  · exact h f hf0 h1

lemma dN_two {deg : Deg} (hd : deg ≠ .one) : dNdu deg (2 : ℝ) = 0 ∧ dNdu deg (-2 : ℝ) = 0 := by
  cases deg with
  | one => exact absurd rfl hd
  | two => constructor <;> norm_num [dNdu, dN2]
  | three => constructor <;> norm_num [dNdu, dN3]

/-- A sum over the nodes of a product, bounded by its factors. -/
lemma sum_prod_le {d : ℕ} (hd3 : d ≤ 3) (X : Fin d → Fin 4 → ℝ) (b : Fin d) {α : ℝ} (hb : |∑ k, X b k| ≤ α)
    (ho : ∀ a ≠ b, |∑ k, X a k| ≤ 13 / 10) : |∑ c : Fin d → Fin 4, ∏ a, X a (c a)| ≤ 17 / 10 * α := by
  classical
  have e1 : ∑ c : Fin d → Fin 4, ∏ a, X a (c a) = ∏ a, ∑ k, X a k := by
    rw [Finset.prod_univ_sum, Fintype.piFinset_univ]
  rw [e1, Finset.abs_prod, ← Finset.mul_prod_erase _ _ (Finset.mem_univ b)]
  have h1 : ∏ a ∈ Finset.univ.erase b, |∑ k, X a k| ≤ 17 / 10 := by
    have h2 : ∏ a ∈ Finset.univ.erase b, |∑ k, X a k| ≤ ∏ _a ∈ Finset.univ.erase b, (13 / 10 : ℝ) :=
      Finset.prod_le_prod (fun a _ => abs_nonneg _) fun a ha => ho a (Finset.ne_of_mem_erase ha)
    rw [Finset.prod_const] at h2
    have h3 : ((13 / 10 : ℝ)) ^ (Finset.univ.erase b).card ≤ (13 / 10) ^ 2 := by
      refine pow_le_pow_right₀ (by norm_num) ?_
      rw [Finset.card_erase_of_mem (Finset.mem_univ b), Finset.card_univ, Fintype.card_fin]
      omega
    refine h2.trans (h3.trans (by norm_num))
  have := mul_le_mul hb h1 (Finset.prod_nonneg fun a _ => abs_nonneg _) ((abs_nonneg _).trans hb)
  linarith

section one
variable {deg : Deg} {dx e : ℝ} {g : Axes d ℝ} {x : Fin d → ℝ} {s : StFl d}

lemma StOk.sumW (h : StOk fl deg dx e g x s) (hr : Rounding u fl) (he : e ≤ 1 / 25) (a : Fin d) :
    |∑ k, s.W a k - 1| ≤ 4 * e + 100 * u ∧ ∑ k, s.W a k ≤ 13 / 10 := by
  have hu := hr.nonneg
  have hus := hr.small
  have h1 := h.sum a
  have h2 : |∑ k, s.W a k - ∑ k, N deg (argFl fl dx (x a) (s.xi a k))| ≤ 100 * u := by
    rw [← Finset.sum_sub_distrib]
    refine (Finset.abs_sum_le_sum_abs _ _).trans ?_
    calc _ ≤ ∑ k : Fin 4, 25 * u := Finset.sum_le_sum fun k _ => by rw [h.W]; exact NFl_err hr _
      _ = 100 * u := by simp; ring
  have e1 : ∑ k, s.W a k - 1 = (∑ k, s.W a k - ∑ k, N deg (argFl fl dx (x a) (s.xi a k))) +
    (∑ k, N deg (argFl fl dx (x a) (s.xi a k)) - 1) := by ring
  have h3 : |∑ k, s.W a k - 1| ≤ 4 * e + 100 * u := by
    rw [e1]
    exact (abs_add_le _ _).trans (by linarith)
  exact ⟨h3, by have := (abs_le.mp h3).2; linarith⟩

lemma StOk.absW (h : StOk fl deg dx e g x s) (hr : Rounding u fl) (he : e ≤ 1 / 25) (a : Fin d) :
    |∑ k, (|s.W a k| : ℝ)| ≤ 13 / 10 ∧ |∑ k, s.W a k| ≤ 13 / 10 := by
  have h0 : ∀ k, 0 ≤ s.W a k := fun k => h.W_nonneg hr a k
  have h1 : ∑ k, |s.W a k| = ∑ k, s.W a k := Finset.sum_congr rfl fun k _ => abs_of_nonneg (h0 k)
  have h2 : 0 ≤ ∑ k, s.W a k := Finset.sum_nonneg fun k _ => h0 k
  rw [h1, abs_of_nonneg h2]
  exact ⟨(h.sumW hr he a).2, (h.sumW hr he a).2⟩

lemma oneOver_le (hr : Rounding u fl) (hdx : 0 < dx) : |oneOverFl fl dx - 1 / dx| ≤ u * (1 / dx) ∧
    0 ≤ oneOverFl fl dx ∧ oneOverFl fl dx ≤ 1001 / 1000 * (1 / dx) := by
  have hu := hr.nonneg
  have hus := hr.small
  have h0 : 0 < 1 / dx := by positivity
  have h := hr.err (1 / dx)
  rw [abs_of_pos h0] at h
  obtain ⟨h1, h2⟩ := abs_le.mp h
  refine ⟨h, ?_, ?_⟩
  · show 0 ≤ fl (1 / dx); nlinarith
  · show fl (1 / dx) ≤ _; nlinarith

/-- The derivatives of the weights sum to zero, up to rounding. -/
lemma StOk.sum_dW (h : StOk fl deg dx e g x s) (hr : Rounding u fl) (hd : deg ≠ .one) (hdx : 0 < dx) (he0 : 0 ≤ e) (a : Fin d) :
    |∑ k, s.dW fl deg dx x a k| ≤ (9 * e + 110 * u) * (1 / dx) ∧
    (∀ k, |s.dW fl deg dx x a k| ≤ 102 / 100 * |dNFl fl deg (argFl fl dx (x a) (s.xi a k))| * (1 / dx)) ∧
    ∑ k, |s.dW fl deg dx x a k| ≤ 45 / 10 * (1 / dx) := by
  have hu := hr.nonneg
  have hus := hr.small
  obtain ⟨o1, o2, o3⟩ := oneOver_le hr hdx
  obtain ⟨f, hf0, hf1, hf⟩ := h.arg a
  have h0 : 0 < 1 / dx := by positivity
  set y : Fin 4 → ℝ := fun k => argFl fl dx (x a) (s.xi a k)
  set o := oneOverFl fl dx
  have hle : ∀ k, |dNFl fl deg (y k)| ≤ 1 + 25 * u := fun k => dNFl_le hr hd _
  have hone : ∀ k, |s.dW fl deg dx x a k - dNFl fl deg (y k) * o| ≤ u * (103 / 100 * (1 / dx)) := by
    intro k
    refine (hr.err _).trans (mul_le_mul_of_nonneg_left ?_ hu)
    rw [abs_mul, abs_of_nonneg o2]
    calc _ ≤ (1 + 25 * u) * (1001 / 1000 * (1 / dx)) := mul_le_mul (hle k) o3 o2 (by positivity)
      _ ≤ _ := by rw [← mul_assoc]; exact mul_le_mul_of_nonneg_right (by linarith) h0.le
  have hsum : |∑ k, dNFl fl deg (y k)| ≤ 8 * e + 100 * u := by
    have h2 : |∑ k, dNFl fl deg (y k) - ∑ k, dNdu deg (stencilArg f k)| ≤ ∑ k : Fin 4, (2 * e + 25 * u) := by
      rw [← Finset.sum_sub_distrib]
      refine (Finset.abs_sum_le_sum_abs _ _).trans (Finset.sum_le_sum fun k _ => ?_)
      have e1 : dNFl fl deg (y k) - dNdu deg (stencilArg f k) = (dNFl fl deg (y k) - dNdu deg (y k)) +
        (dNdu deg (y k) - dNdu deg (stencilArg f k)) := by ring
      rw [e1]
      have h3 := dNFl_err hr hd (y k)
      have h4 := dNdu_lipschitz hd (y k) (stencilArg f k)
      have h5 : |y k - stencilArg f k| ≤ e := hf k
      exact (abs_add_le _ _).trans (by linarith)
    rw [closed_sum (F := dNdu deg) (dN_two hd).1 (dN_two hd).2 (fun f h0 h1 => sum_dN h0 h1 hd) hf0 hf1, sub_zero] at h2
    refine h2.trans (le_of_eq ?_)
    simp; ring
  refine ⟨?_, fun k => ?_, ?_⟩
  · have h2 : |∑ k, s.dW fl deg dx x a k - (∑ k, dNFl fl deg (y k)) * o| ≤ ∑ k : Fin 4, u * (103 / 100 * (1 / dx)) := by
      rw [Finset.sum_mul, ← Finset.sum_sub_distrib]
      exact (Finset.abs_sum_le_sum_abs _ _).trans (Finset.sum_le_sum fun k _ => hone k)
    have h3 : |(∑ k, dNFl fl deg (y k)) * o| ≤ (8 * e + 100 * u) * (1001 / 1000 * (1 / dx)) := by
      rw [abs_mul, abs_of_nonneg o2]
      exact mul_le_mul hsum o3 o2 (by positivity)
    have h4 := abs_add_le (∑ k, s.dW fl deg dx x a k - (∑ k, dNFl fl deg (y k)) * o) ((∑ k, dNFl fl deg (y k)) * o)
    rw [sub_add_cancel] at h4
    simp only [Finset.sum_const, Finset.card_univ, Fintype.card_fin, nsmul_eq_mul] at h2
    push_cast at h2
    have h5 : 0 ≤ e * (1 / dx) := by positivity
    have h6 : 0 ≤ u * (1 / dx) := by positivity
    nlinarith
  · have h1 := hr.err (dNFl fl deg (y k) * o)
    have h2 := abs_add_le (s.dW fl deg dx x a k - dNFl fl deg (y k) * o) (dNFl fl deg (y k) * o)
    rw [sub_add_cancel] at h2
    have h3 : |dNFl fl deg (y k) * o| ≤ |dNFl fl deg (y k)| * (1001 / 1000 * (1 / dx)) := by
      rw [abs_mul, abs_of_nonneg o2]
      exact mul_le_mul_of_nonneg_left o3 (abs_nonneg _)
    have h4 : u * |dNFl fl deg (y k) * o| ≤ 1 / 1000 * (|dNFl fl deg (y k)| * (1001 / 1000 * (1 / dx))) :=
      mul_le_mul hus h3 (abs_nonneg _) (by norm_num)
    have h5 : 0 ≤ |dNFl fl deg (y k)| * (1 / dx) := by positivity
    change |s.dW fl deg dx x a k - dNFl fl deg (y k) * o| ≤ _ at h1
    show _ ≤ 102 / 100 * |dNFl fl deg (y k)| * (1 / dx)
    nlinarith
  · have h1 : ∀ k, |s.dW fl deg dx x a k| ≤ 110 / 100 * (1 / dx) := by
      intro k
      have h2 := abs_add_le (s.dW fl deg dx x a k - dNFl fl deg (y k) * o) (dNFl fl deg (y k) * o)
      rw [sub_add_cancel] at h2
      have h3 : |dNFl fl deg (y k) * o| ≤ (1 + 25 * u) * (1001 / 1000 * (1 / dx)) := by
        rw [abs_mul, abs_of_nonneg o2]
        exact mul_le_mul (hle k) o3 o2 (by positivity)
      have h4 := hone k
      have h5 : u * (1 / dx) ≤ 1 / 1000 * (1 / dx) := mul_le_mul_of_nonneg_right hus h0.le
      nlinarith
    calc _ ≤ ∑ k : Fin 4, 110 / 100 * (1 / dx) := Finset.sum_le_sum fun k _ => h1 k
      _ = 44 / 10 * (1 / dx) := by rw [Finset.sum_const, Finset.card_univ, Fintype.card_fin]; norm_num; ring
      _ ≤ _ := by linarith

/-- The factors of a component of the gradient. -/
noncomputable def gradFactor (fl : ℝ → ℝ) (deg : Deg) (dx : ℝ) (x : Fin d → ℝ) (s : StFl d) (b a : Fin d) (k : Fin 4) : ℝ :=
  if a = b then s.dW fl deg dx x a k else s.W a k

lemma grad_near (hr : Rounding u fl) (c : Fin d → Fin 4) (b : Fin d) :
    Near u d (∏ a, gradFactor fl deg dx x s b a (c a)) (∏ a, |gradFactor fl deg dx x s b a (c a)|) (s.grad fl deg dx x c b) := by
  have h := prodFl_abs hr (List.ofFn fun a => gradFactor fl deg dx x s b a (c a))
  rw [List.length_ofFn, List.prod_ofFn, List.map_ofFn, List.prod_ofFn] at h
  exact h

/-- The gradients of the nodes sum to zero, up to rounding. -/
lemma StOk.sum_grad (h : StOk fl deg dx e g x s) (hr : Rounding u fl) (hd : deg ≠ .one) (hdx : 0 < dx) (hd3 : d ≤ 3) (he0 : 0 ≤ e)
    (he : e ≤ 1 / 25) (b : Fin d) :
    |∑ c, s.grad fl deg dx x c b| ≤ (16 * e + 240 * u) * (1 / dx) ∧ ∑ c, |s.grad fl deg dx x c b| ≤ 8 * (1 / dx) := by
  have hu := hr.nonneg
  have hus := hr.small
  have h0 : 0 < 1 / dx := by positivity
  obtain ⟨h1, -, h2⟩ := h.sum_dW hr hd hdx he0 b
  have g1 : ∑ k, gradFactor fl deg dx x s b b k = ∑ k, s.dW fl deg dx x b k := by simp [gradFactor]
  have g2 : ∑ k, |gradFactor fl deg dx x s b b k| = ∑ k, |s.dW fl deg dx x b k| := by simp [gradFactor]
  have hs1 := sum_prod_le hd3 (gradFactor fl deg dx x s b) b (α := (9 * e + 110 * u) * (1 / dx)) (by rw [g1]; exact h1)
    (fun a ha => by simp only [gradFactor, if_neg ha]; exact (h.absW hr he a).2)
  have hs2 := sum_prod_le hd3 (fun a k => |gradFactor fl deg dx x s b a k|) b (α := 45 / 10 * (1 / dx))
    (by rw [g2, abs_of_nonneg (Finset.sum_nonneg fun k _ => abs_nonneg _)]; exact h2)
    (fun a ha => by simp only [gradFactor, if_neg ha]; exact (h.absW hr he a).1)
  rw [abs_of_nonneg (Finset.sum_nonneg fun c _ => Finset.prod_nonneg fun a _ => abs_nonneg _)] at hs2
  have hn : ∀ c, |s.grad fl deg dx x c b - ∏ a, gradFactor fl deg dx x s b a (c a)| ≤
      2 * (3 * u) * ∏ a, |gradFactor fl deg dx x s b a (c a)| := fun c => by
    have := ((grad_near (x := x) (s := s) (deg := deg) (dx := dx) hr c b).mono hu hd3).simple hu (by push_cast; linarith)
    exact_mod_cast this
  have hu1 : u * (1 / dx) ≤ 1 / 1000 * (1 / dx) := mul_le_mul_of_nonneg_right hus h0.le
  constructor
  · have h3 : |∑ c, s.grad fl deg dx x c b - ∑ c : Fin d → Fin 4, ∏ a, gradFactor fl deg dx x s b a (c a)| ≤
        2 * (3 * u) * (17 / 10 * (45 / 10 * (1 / dx))) := by
      rw [← Finset.sum_sub_distrib]
      refine (Finset.abs_sum_le_sum_abs _ _).trans ((Finset.sum_le_sum fun c _ => hn c).trans ?_)
      rw [← Finset.mul_sum]
      exact mul_le_mul_of_nonneg_left hs2 (by positivity)
    have h4 := abs_add_le (∑ c, s.grad fl deg dx x c b - ∑ c : Fin d → Fin 4, ∏ a, gradFactor fl deg dx x s b a (c a))
      (∑ c : Fin d → Fin 4, ∏ a, gradFactor fl deg dx x s b a (c a))
    rw [sub_add_cancel] at h4
    have h5 : 0 ≤ e * (1 / dx) := by positivity
    have h6 : 0 ≤ u * (1 / dx) := by positivity
    nlinarith
  · have h3 : ∀ c, |s.grad fl deg dx x c b| ≤ (1 + 6 * u) * ∏ a, |gradFactor fl deg dx x s b a (c a)| := by
      intro c
      have h4 := abs_add_le (s.grad fl deg dx x c b - ∏ a, gradFactor fl deg dx x s b a (c a))
        (∏ a, gradFactor fl deg dx x s b a (c a))
      rw [sub_add_cancel, Finset.abs_prod] at h4
      linarith [hn c]
    refine (Finset.sum_le_sum fun c _ => h3 c).trans ?_
    rw [← Finset.mul_sum]
    have := mul_le_mul_of_nonneg_left hs2 (by positivity : 0 ≤ 1 + 6 * u)
    nlinarith

/-- The gradient at a node is small where the weight is. -/
lemma StOk.grad_sq (h : StOk fl deg dx e g x s) (hr : Rounding u fl) (hd : deg ≠ .one) (hdx : 0 < dx) (hd3 : d ≤ 3)
    (c : Fin d → Fin 4) (b : Fin d) : s.grad fl deg dx x c b ^ 2 ≤ 5 * s.weight fl c * (1 / dx) ^ 2 := by
  classical
  have hu := hr.nonneg
  have hus := hr.small
  have h0 : 0 < 1 / dx := by positivity
  have hW0 : ∀ a, 0 ≤ s.W a (c a) := fun a => h.W_nonneg hr a (c a)
  have hW1 : ∀ a, s.W a (c a) ≤ 1 + u := fun a => by rw [h.W]; exact NFl_le hr _ _
  set R := ∏ a ∈ Finset.univ.erase b, s.W a (c a)
  have hR0 : 0 ≤ R := Finset.prod_nonneg fun a _ => hW0 a
  have hR1 : R ≤ 1003 / 1000 := by
    have h2 : R ≤ ∏ _a ∈ Finset.univ.erase b, (1 + u) := Finset.prod_le_prod (fun a _ => hW0 a) fun a _ => hW1 a
    rw [Finset.prod_const] at h2
    have h3 : (1 + u) ^ (Finset.univ.erase b).card ≤ (1 + u) ^ 2 := by
      refine pow_le_pow_right₀ (by linarith) ?_
      rw [Finset.card_erase_of_mem (Finset.mem_univ b), Finset.card_univ, Fintype.card_fin]
      omega
    nlinarith
  have hprod : ∏ a, s.W a (c a) = s.W b (c b) * R := (Finset.mul_prod_erase _ _ (Finset.mem_univ b)).symm
  have hw := ((weightFl_near hr c (h.W_nonneg hr)).1.mono hu hd3).simple hu (by push_cast; linarith)
  rw [hprod] at hw
  have hP0 : 0 ≤ s.W b (c b) * R := mul_nonneg (hW0 b) hR0
  have hw1 : 99 / 100 * (s.W b (c b) * R) ≤ s.weight fl c := by
    have := (abs_le.mp hw).1
    push_cast at this
    nlinarith
  -- the gradient
  have hfac : ∏ a, |gradFactor fl deg dx x s b a (c a)| = |s.dW fl deg dx x b (c b)| * R := by
    rw [← Finset.mul_prod_erase _ _ (Finset.mem_univ b)]
    congr 1
    · simp [gradFactor]
    · exact Finset.prod_congr rfl fun a ha => by
        rw [gradFactor, if_neg (Finset.ne_of_mem_erase ha), abs_of_nonneg (hW0 a)]
  have hn := ((grad_near (x := x) (s := s) (deg := deg) (dx := dx) hr c b).mono hu hd3).le hu
  rw [hfac] at hn
  have hdW := (h.sum_dW (e := e) hr hd hdx (by
    obtain ⟨f, -, -, hf⟩ := h.arg b
    exact (abs_nonneg _).trans (hf 0)) b).2.1 (c b)
  have hsq := dNFl_sq hr hd (argFl fl dx (x b) (s.xi b (c b)))
  rw [← h.W] at hsq
  set D := |dNFl fl deg (argFl fl dx (x b) (s.xi b (c b)))|
  have hD0 : 0 ≤ D := abs_nonneg _
  have hD : D ^ 2 ≤ 4 * s.W b (c b) := by rw [sq_abs]; exact hsq
  have hp3 : (1 + u) ^ 3 ≤ 1004 / 1000 := by nlinarith [mul_nonneg hu hu]
  have h5 : |s.grad fl deg dx x c b| ≤ 1004 / 1000 * (102 / 100 * D * (1 / dx) * R) :=
    hn.trans (mul_le_mul hp3 (mul_le_mul_of_nonneg_right hdW hR0) (by positivity) (by norm_num))
  have h6 := mul_le_mul h5 h5 (abs_nonneg _) (by positivity)
  rw [abs_mul_abs_self] at h6
  have h7 : D ^ 2 * (R * R) ≤ 4 * s.W b (c b) * (R * (1003 / 1000)) :=
    mul_le_mul hD (mul_le_mul_of_nonneg_left hR1 hR0) (by positivity) (by have := hW0 b; positivity)
  have h8 : D ^ 2 * (R * R) ≤ 406 / 100 * s.weight fl c := by nlinarith
  have h9 : 0 ≤ (1 / dx) ^ 2 := by positivity
  calc s.grad fl deg dx x c b ^ 2 = s.grad fl deg dx x c b * s.grad fl deg dx x c b := by ring
    _ ≤ _ := h6
    _ = (1004 / 1000 * (102 / 100)) ^ 2 * (D ^ 2 * (R * R)) * (1 / dx) ^ 2 := by ring
    _ ≤ (1004 / 1000 * (102 / 100)) ^ 2 * (406 / 100 * s.weight fl c) * (1 / dx) ^ 2 :=
        mul_le_mul_of_nonneg_right (mul_le_mul_of_nonneg_left h8 (by positivity)) h9
    _ ≤ _ := by
        refine mul_le_mul_of_nonneg_right ?_ h9
        have : 0 ≤ s.weight fl c := (weightFl_near hr c (h.W_nonneg hr)).2
        nlinarith

lemma StOk.grad_small (h : StOk fl deg dx e g x s) (hr : Rounding u fl) (hd : deg ≠ .one) (hdx : 0 < dx) (hd3 : d ≤ 3)
    (c : Fin d → Fin 4) (b : Fin d) :
    (s.weight fl c ≤ fl (1 / 10 ^ 25) → |s.grad fl deg dx x c b| ≤ 1 / 10 ^ 12 * (1 / dx)) ∧
    (fl (1 / 10 ^ 25) < s.weight fl c → |s.grad fl deg dx x c b| ≤ 10 ^ 13 * s.weight fl c * (1 / dx)) := by
  have hu := hr.nonneg
  have hus := hr.small
  have h0 : 0 < 1 / dx := by positivity
  have hq := h.grad_sq hr hd hdx hd3 c b
  have hcut := hr.err (1 / 10 ^ 25)
  rw [abs_of_pos (by positivity : (0 : ℝ) < 1 / 10 ^ 25)] at hcut
  obtain ⟨c1, c2⟩ := abs_le.mp hcut
  have c3 : u * (1 / 10 ^ 25) ≤ 1 / 1000 * (1 / 10 ^ 25) := mul_le_mul_of_nonneg_right hus (by positivity)
  constructor
  · intro hw
    refine abs_le_of_sq_le_sq (hq.trans ?_) (by positivity)
    rw [mul_pow]
    refine mul_le_mul_of_nonneg_right ?_ (by positivity)
    norm_num at c2 c3 hw ⊢
    linarith
  · intro hw
    have hw1 : 1 / 10 ^ 26 ≤ s.weight fl c := by
      refine le_trans ?_ hw.le
      norm_num at c1 c3 ⊢
      linarith
    have hw0 : 0 ≤ s.weight fl c := le_trans (by positivity) hw1
    refine abs_le_of_sq_le_sq (hq.trans ?_) (by positivity)
    rw [mul_pow]
    refine mul_le_mul_of_nonneg_right ?_ (by positivity)
    have hw2 : 9 / 10 ^ 26 ≤ s.weight fl c := by
      refine le_trans ?_ hw.le
      norm_num at c1 c3 ⊢
      linarith
    rw [mul_pow, sq (s.weight fl c), ← mul_assoc]
    refine mul_le_mul_of_nonneg_right ?_ hw0
    have := mul_le_mul_of_nonneg_left hw2 (by positivity : (0 : ℝ) ≤ (10 ^ 13) ^ 2)
    norm_num at this ⊢
    linarith

/-- The weights balance around the particle, up to rounding. -/
lemma StOk.moment (h : StOk fl deg dx e g x s) (hr : Rounding u fl) (hdx : 0 < dx) (hd3 : d ≤ 3) (he0 : 0 ≤ e)
    (he : e ≤ 1 / 25) (b : Fin d) :
    |∑ c, s.weight fl c * ((s.pos c b - x b) / dx)| ≤ 23 * e + 470 * u ∧ ∀ c, |(s.pos c b - x b) / dx| ≤ 3 := by
  have hu := hr.nonneg
  have hus := hr.small
  obtain ⟨f, hf0, hf1, hf⟩ := h.arg b
  set y : Fin 4 → ℝ := fun k => argFl fl dx (x b) (s.xi b k) with hy
  set z : Fin 4 → ℝ := fun k => (s.xi b k - x b) / dx with hz
  have hst : ∀ k : Fin 4, |stencilArg f k| ≤ 2 := by
    intro k
    rw [abs_le]
    fin_cases k <;> simp [stencilArg] <;> constructor <;> linarith
  have hyz : ∀ k, |y k - -z k| ≤ 4 * u * |z k| := by
    intro k
    have := argFl_err hr hdx (x b) (s.xi b k)
    have e1 : (x b - s.xi b k) / dx = -z k := by simp only [hz]; ring
    rw [e1, abs_neg] at this
    exact this
  have hys : ∀ k, |y k - stencilArg f k| ≤ e := hf
  have hz2 : ∀ k, |z k| ≤ 21 / 10 := by
    intro k
    have h1 := abs_add_le (-(y k - -z k)) (y k)
    have h2 := abs_add_le (y k - stencilArg f k) (stencilArg f k)
    rw [sub_add_cancel] at h2
    rw [show -(y k - -z k) + y k = -z k by ring, abs_neg, abs_neg] at h1
    have h3 := hyz k
    have h4 := hys k
    have h5 := hst k
    have h6 : u * |z k| ≤ 1 / 1000 * |z k| := mul_le_mul_of_nonneg_right hus (abs_nonneg _)
    linarith
  have hzs : ∀ k, |z k - -stencilArg f k| ≤ e + 9 * u := by
    intro k
    rw [show z k - -stencilArg f k = (y k - -z k) + -(y k - stencilArg f k) by ring]
    refine (abs_add_le _ _).trans ?_
    rw [abs_neg (y k - stencilArg f k)]
    have h3 := hyz k
    have h4 := hys k
    have h6 : u * |z k| ≤ u * (21 / 10) := mul_le_mul_of_nonneg_left (hz2 k) hu
    linarith
  have hW : ∀ k, |s.W b k - N deg (stencilArg f k)| ≤ e + 25 * u := by
    intro k
    rw [h.W]
    have h1 := NFl_err hr (deg := deg) (y k)
    have h2 := N_lipschitz deg (y k) (stencilArg f k)
    have h3 := hys k
    rw [show NFl fl deg (argFl fl dx (x b) (s.xi b k)) - N deg (stencilArg f k) =
      (NFl fl deg (y k) - N deg (y k)) + (N deg (y k) - N deg (stencilArg f k)) by ring]
    exact (abs_add_le _ _).trans (by linarith)
  have hterm : ∀ k, |s.W b k * z k - -(N deg (stencilArg f k) * stencilArg f k)| ≤ 31 / 10 * e + 62 * u := by
    intro k
    rw [show s.W b k * z k - -(N deg (stencilArg f k) * stencilArg f k) =
      (s.W b k - N deg (stencilArg f k)) * z k + N deg (stencilArg f k) * (z k - -stencilArg f k) by ring]
    refine (abs_add_le _ _).trans ?_
    rw [abs_mul, abs_mul, abs_of_nonneg (N_nonneg deg (stencilArg f k))]
    have h1 := mul_le_mul (hW k) (hz2 k) (abs_nonneg _) (by positivity)
    have h2 := mul_le_mul (N_le_one deg (stencilArg f k)) (hzs k) (abs_nonneg _) zero_le_one
    linarith
  have hN2 : N deg (2 : ℝ) = 0 ∧ N deg (-2 : ℝ) = 0 := ⟨N_out (by norm_num), N_out (by norm_num)⟩
  have h0 : ∑ k, -(N deg (stencilArg f k) * stencilArg f k) = 0 := by
    rw [Finset.sum_neg_distrib, closed_sum (F := fun t => N deg t * t) (by rw [hN2.1, zero_mul]) (by rw [hN2.2, zero_mul])
      (fun f h0 h1 => sum_N_arg h0 h1 deg) hf0 hf1, neg_zero]
  have hb : |∑ k, s.W b k * z k| ≤ 13 * e + 250 * u := by
    have h1 : |∑ k, s.W b k * z k - ∑ k, -(N deg (stencilArg f k) * stencilArg f k)| ≤ ∑ _k : Fin 4, (31 / 10 * e + 62 * u) := by
      rw [← Finset.sum_sub_distrib]
      exact (Finset.abs_sum_le_sum_abs _ _).trans (Finset.sum_le_sum fun k _ => hterm k)
    rw [h0, sub_zero, Finset.sum_const, Finset.card_univ, Fintype.card_fin, nsmul_eq_mul] at h1
    push_cast at h1
    linarith
  have hz3 : ∀ c : Fin d → Fin 4, |(s.pos c b - x b) / dx| ≤ 21 / 10 := fun c => hz2 (c b)
  refine ⟨?_, fun c => (hz3 c).trans (by norm_num)⟩
  have hprod : ∀ c : Fin d → Fin 4, ∏ a, (if a = b then s.W a (c a) * z (c a) else s.W a (c a)) =
      (∏ a, s.W a (c a)) * ((s.pos c b - x b) / dx) := by
    intro c
    have e1 : ∀ a, (if a = b then s.W a (c a) * z (c a) else s.W a (c a)) = s.W a (c a) * (if a = b then z (c a) else 1) :=
      fun a => by split_ifs <;> ring
    simp only [e1]
    rw [Finset.prod_mul_distrib, Finset.prod_ite_eq' Finset.univ b, if_pos (Finset.mem_univ b)]
    rfl
  have h1 := sum_prod_le hd3 (fun a k => if a = b then s.W a k * z k else s.W a k) b (α := 13 * e + 250 * u)
    (by simpa using hb) (fun a ha => by simp only [if_neg ha]; exact (h.absW hr he a).2)
  simp only [hprod] at h1
  have hWp : ∑ c : Fin d → Fin 4, ∏ a, s.W a (c a) ≤ 22 / 10 := by
    rw [show ∑ c : Fin d → Fin 4, ∏ a, s.W a (c a) = ∏ a, ∑ k, s.W a k by rw [Finset.prod_univ_sum, Fintype.piFinset_univ]]
    have h2 : ∏ a, ∑ k, s.W a k ≤ ∏ _a : Fin d, (13 / 10 : ℝ) :=
      Finset.prod_le_prod (fun a _ => Finset.sum_nonneg fun k _ => h.W_nonneg hr a k) fun a _ => (h.sumW hr he a).2
    rw [Finset.prod_const, Finset.card_univ, Fintype.card_fin] at h2
    refine h2.trans ((pow_le_pow_right₀ (by norm_num) hd3).trans (by norm_num))
  have h2 : |∑ c, s.weight fl c * ((s.pos c b - x b) / dx) - ∑ c : Fin d → Fin 4, (∏ a, s.W a (c a)) * ((s.pos c b - x b) / dx)| ≤
      ∑ c : Fin d → Fin 4, 2 * (3 * u) * (∏ a, s.W a (c a)) * (21 / 10) := by
    rw [← Finset.sum_sub_distrib]
    refine (Finset.abs_sum_le_sum_abs _ _).trans (Finset.sum_le_sum fun c _ => ?_)
    rw [← sub_mul, abs_mul]
    have h3 := ((weightFl_near hr c (h.W_nonneg hr)).1.mono hu hd3).simple hu (by push_cast; linarith)
    push_cast at h3
    exact mul_le_mul h3 (hz3 c) (abs_nonneg _) (mul_nonneg (by positivity) (Finset.prod_nonneg fun a _ => h.W_nonneg hr a (c a)))
  rw [← Finset.sum_mul, ← Finset.mul_sum] at h2
  have h3 := mul_le_mul_of_nonneg_left hWp (by positivity : 0 ≤ 2 * (3 * u))
  have h4 := abs_add_le (∑ c, s.weight fl c * ((s.pos c b - x b) / dx) -
    ∑ c : Fin d → Fin 4, (∏ a, s.W a (c a)) * ((s.pos c b - x b) / dx)) (∑ c : Fin d → Fin 4, (∏ a, s.W a (c a)) * ((s.pos c b - x b) / dx))
  rw [sub_add_cancel] at h4
  linarith

end one

/-! ### The forces at a node -/

open Classical in
/-- The contributions of a particle to the node with flat index `l`. -/
noncomputable def forceHits (fl : ℝ → ℝ) (n : Fin d → ℕ) (l : ℕ) (q : Particle d ℝ × StFl d) :
    List ((Particle d ℝ × StFl d) × (Fin d → Fin 4)) :=
  ((allIdx d).filter fun c => fl (1 / 10 ^ 25) < q.2.weight fl c ∧ flatIndex n (q.2.node c) = l).map fun c => (q, c)

lemma forceHits_length (n : Fin d → ℕ) (l : ℕ) (q : Particle d ℝ × StFl d) :
    (forceHits fl n l q).length = (hits fl n l q).length := by
  rw [forceHits, hits, List.length_map, List.length_map]

open Classical in
lemma forceHits_sum (n : Fin d → ℕ) (l : ℕ) (q : Particle d ℝ × StFl d) (f : (Particle d ℝ × StFl d) × (Fin d → Fin 4) → ℝ) :
    ((forceHits fl n l q).map f).sum = ∑ c, if fl (1 / 10 ^ 25) < q.2.weight fl c ∧ flatIndex n (q.2.node c) = l then
      f (q, c) else 0 := by
  rw [← sum_allIdx, forceHits]
  generalize allIdx d = L
  induction L with
  | nil => rfl
  | cons c L ih =>
    rw [List.filter_cons, List.map_cons, List.sum_cons, ← ih]
    split_ifs with h1 h2 h2
    · rw [List.map_cons, List.map_cons, List.sum_cons]
    · exact absurd (by simpa using h1) h2
    · exact absurd (by simpa using h2) h1
    · rw [zero_add]

/-- One contribution to the force. -/
noncomputable def forceStep (fl : ℝ → ℝ) (P : TransferParams ℝ) (a : Fin d) (x : ℝ)
    (h : (Particle d ℝ × StFl d) × (Fin d → Fin 4)) : ℝ := fl (x + tauGradFl fl P.deg P.dx h.1.1 h.1.2 h.2 a)

lemma forceParticle_at (P : TransferParams ℝ) (n : Fin d → ℕ) (f : ℕ → Fin d → ℝ) (q : Particle d ℝ × StFl d) (l : ℕ) (a : Fin d) :
    (allIdx d).foldl (forceAtFl fl P n q) f l a = (forceHits fl n l q).foldl (forceStep fl P a) (f l a) := by
  classical
  rw [forceHits]
  generalize allIdx d = L
  induction L generalizing f with
  | nil => rfl
  | cons c L ih =>
    rw [List.foldl_cons, ih, List.filter_cons]
    by_cases h1 : fl (1 / 10 ^ 25) < q.2.weight fl c
    · by_cases h2 : flatIndex n (q.2.node c) = l
      · rw [if_pos (by simpa using ⟨by simpa using h1, h2⟩), List.map_cons, List.foldl_cons]
        congr 1
        rw [forceAtFl, if_pos h1, h2, Function.update_self]
        rfl
      · rw [if_neg (by simp [h2])]
        congr 1
        rw [forceAtFl, if_pos h1, Function.update_of_ne (Ne.symm h2)]
    · rw [if_neg (by simp only [h1, false_and]; simp)]
      congr 1
      rw [forceAtFl, if_neg h1]

lemma forceLocalFl_at (P : TransferParams ℝ) (n : Fin d → ℕ) (ts : List (Particle d ℝ × StFl d)) (l : ℕ) (a : Fin d) :
    forceLocalFl fl P n ts l a = (ts.flatMap (forceHits fl n l)).foldl (forceStep fl P a) 0 := by
  have gen : ∀ f : ℕ → Fin d → ℝ, ts.foldl (fun f q => (allIdx d).foldl (forceAtFl fl P n q) f) f l a =
      (ts.flatMap (forceHits fl n l)).foldl (forceStep fl P a) (f l a) := by
    induction ts with
    | nil => intro f; rfl
    | cons q qs ih =>
      intro f
      rw [List.foldl_cons, ih, forceParticle_at, List.flatMap_cons, List.foldl_append]
  rw [forceLocalFl, gen]

/-- The force of a particle on a node, with the computed gradient. -/
noncomputable def pull (fl : ℝ → ℝ) (P : TransferParams ℝ) (a : Fin d) (h : (Particle d ℝ × StFl d) × (Fin d → Fin 4)) : ℝ :=
  ∑ b, h.1.1.tau a b * h.1.2.grad fl P.deg P.dx h.1.1.x h.2 b

/-- The same with absolute values. -/
noncomputable def pullAbs (fl : ℝ → ℝ) (P : TransferParams ℝ) (a : Fin d) (h : (Particle d ℝ × StFl d) × (Fin d → Fin 4)) : ℝ :=
  ∑ b, |h.1.1.tau a b| * |h.1.2.grad fl P.deg P.dx h.1.1.x h.2 b|

lemma tauGradFl_near (hr : Rounding u fl) (P : TransferParams ℝ) (a : Fin d) (h : (Particle d ℝ × StFl d) × (Fin d → Fin 4)) :
    Near u (1 + d) (pull fl P a h) (pullAbs fl P a h) (tauGradFl fl P.deg P.dx h.1.1 h.1.2 h.2 a) := by
  have h1 := sumFl_near hr (k := 1) (fun b => h.1.1.tau a b * h.1.2.grad fl P.deg P.dx h.1.1.x h.2 b)
    (fun b => |h.1.1.tau a b| * |h.1.2.grad fl P.deg P.dx h.1.1.x h.2 b|)
    (fun b => fl (h.1.1.tau a b * h.1.2.grad fl P.deg P.dx h.1.1.x h.2 b)) (List.finRange d) fun b _ => Near.term hr _ _
  rw [List.length_finRange, ← List.ofFn_eq_map, ← List.ofFn_eq_map, ← List.ofFn_eq_map, List.sum_ofFn, List.sum_ofFn] at h1
  exact h1

lemma forceLocalFl_near (hr : Rounding u fl) (P : TransferParams ℝ) (n : Fin d → ℕ) (t : List (Particle d ℝ × StFl d)) (l : ℕ) (a : Fin d) :
    Near u (1 + d + (t.flatMap (forceHits fl n l)).length) ((t.flatMap (forceHits fl n l)).map (pull fl P a)).sum
      ((t.flatMap (forceHits fl n l)).map (pullAbs fl P a)).sum (forceLocalFl fl P n t l a) := by
  have := foldl_near (u := u) (forceStep fl P a) id (pull fl P a) (pullAbs fl P a) 1 (t.flatMap (forceHits fl n l)) (k0 := 1 + d)
    (fun h _ k g s A hk hn => hn.add hr ((tauGradFl_near hr P a h).mono hr.nonneg hk)) (g := 0) (k := 1 + d) le_rfl (zero_near _)
  rw [zero_add, zero_add, one_mul] at this
  rw [forceLocalFl_at]
  exact this

lemma forceFl_near (hr : Rounding u fl) (P : TransferParams ℝ) (n : Fin d → ℕ) (ts : List (List (Particle d ℝ × StFl d))) (l : ℕ)
    (a : Fin d) {k : ℕ} (hk : ∀ t ∈ ts, 1 + d + (t.flatMap (forceHits fl n l)).length ≤ k) :
    Near u (k + ts.length) ((ts.flatten.flatMap (forceHits fl n l)).map (pull fl P a)).sum
      ((ts.flatten.flatMap (forceHits fl n l)).map (pullAbs fl P a)).sum (forceFl fl P n ts l a) := by
  have := foldl_near (u := u) (fun (f : ℕ → Fin d → ℝ) t => fun l a => fl (f l a + forceLocalFl fl P n t l a)) (fun f => f l a)
    (fun t => ((t.flatMap (forceHits fl n l)).map (pull fl P a)).sum)
    (fun t => ((t.flatMap (forceHits fl n l)).map (pullAbs fl P a)).sum) 1 ts
    (fun t ht j g s A hj hn => hn.add hr ((forceLocalFl_near hr P n t l a).mono hr.nonneg ((hk t ht).trans hj)))
    (g := fun _ _ => 0) (k0 := k) (k := k) le_rfl (zero_near k)
  rw [sum_flatMap_flatten, sum_flatMap_flatten, zero_add, zero_add, one_mul] at this
  exact this

/-! ### All contributions -/

section contributions
variable (fl : ℝ → ℝ) (P : TransferParams ℝ) (g : Axes d ℝ) (ps : List (Particle d ℝ))

/-- The nodes of particle number `i`. -/
noncomputable def cst (i : Fin ps.length) : StFl d := stOf fl P.deg P.dx g ps[i].x

/-- The contribution is above the cut-off. -/
def clive (j : Fin ps.length × (Fin d → Fin 4)) : Prop := fl (1 / 10 ^ 25) < (cst fl P g ps j.1).weight fl j.2

/-- The node of a contribution. -/
noncomputable def cidx (j : Fin ps.length × (Fin d → Fin 4)) : ℕ := flatIndex g.size ((cst fl P g ps j.1).node j.2)

/-- The weight of a contribution. -/
noncomputable def cw (j : Fin ps.length × (Fin d → Fin 4)) : ℝ := (cst fl P g ps j.1).weight fl j.2

lemma allHits_atNode (l : ℕ) (f : Hit d → ℝ) : ((allHits fl P g ps l).map f).sum =
    atNode (clive fl P g ps) (cidx fl P g ps) (fun j => f ⟨ps[j.1], cw fl P g ps j, (cst fl P g ps j.1).pos j.2⟩) l := by
  classical
  rw [allHits, sum_flatMap', withSt, List.map_map, ← Fin.sum_univ_fun_getElem, atNode, Fintype.sum_prod_type]
  refine Finset.sum_congr rfl fun i _ => ?_
  simp only [Function.comp, hits_sum]
  exact Finset.sum_congr rfl fun c _ => by simp only [clive, cidx, cw]; rfl

lemma forceHits_atNode (l : ℕ) (f : (Particle d ℝ × StFl d) × (Fin d → Fin 4) → ℝ) :
    (((withSt fl P.deg P.dx g ps).flatMap (forceHits fl g.size l)).map f).sum =
    atNode (clive fl P g ps) (cidx fl P g ps) (fun j => f ((ps[j.1], cst fl P g ps j.1), j.2)) l := by
  classical
  rw [sum_flatMap', withSt, List.map_map, ← Fin.sum_univ_fun_getElem, atNode, Fintype.sum_prod_type]
  refine Finset.sum_congr rfl fun i _ => ?_
  simp only [Function.comp, forceHits_sum]
  exact Finset.sum_congr rfl fun c _ => by simp only [clive, cidx, cw]; rfl

end contributions

/-- Spec: row `a` of the stress of every particle, summed without signs, is at most `Θ`. -/
def StressBound (ps : List (Particle d ℝ)) (a : Fin d) (Θ : ℝ) : Prop := ∀ p ∈ ps, ∑ b, |p.tau a b| ≤ Θ

namespace Setting
variable {P : TransferParams ℝ} {e : ℝ} {g : Axes d ℝ} {ps : List (Particle d ℝ)} {T : ℕ}
  (hs : Setting u fl P e g ps T)
include hs

lemma stOk' (i : Fin ps.length) : StOk fl P.deg P.dx e g ps[i].x (cst fl P g ps i) := hs.stOk (List.getElem_mem i.2)

lemma cw_nonneg (j : Fin ps.length × (Fin d → Fin 4)) : 0 ≤ cw fl P g ps j :=
  (weightFl_near hs.rnd j.2 ((hs.stOk' j.1).W_nonneg hs.rnd)).2

lemma cw_pos {j : Fin ps.length × (Fin d → Fin 4)} (h : clive fl P g ps j) : 0 < cw fl P g ps j :=
  lt_of_le_of_lt hs.cut_nonneg h

lemma cidx_lt (j : Fin ps.length × (Fin d → Fin 4)) : cidx fl P g ps j < gridNodes g.size :=
  flatIndex_lt ((hs.stOk' j.1).node_lt j.2)

lemma cnear {j : Fin ps.length × (Fin d → Fin 4)} (h : clive fl P g ps j) (a : Fin d) :
    |(cst fl P g ps j.1).pos j.2 a - ps[j.1].x a| ≤ 3 * P.dx := (hs.stOk' j.1).near hs.rnd hs.dx (hs.cw_pos h) a

lemma cut_le : fl (1 / 10 ^ 25) ≤ 2 / 10 ^ 25 := by
  have hu := hs.rnd.nonneg
  have hus := hs.rnd.small
  have := hs.rnd.le (x := 1 / 10 ^ 25) (by positivity)
  have h2 : u * (1 / 10 ^ 25) ≤ 1 * (1 / 10 ^ 25) := mul_le_mul_of_nonneg_right (by linarith) (by positivity)
  linarith

lemma card_le : (Fintype.card (Fin d → Fin 4) : ℝ) ≤ 64 := by
  rw [Fintype.card_fun, Fintype.card_fin, Fintype.card_fin]
  have : 4 ^ d ≤ 4 ^ 3 := Nat.pow_le_pow_right (by norm_num) hs.dim
  exact_mod_cast this

open Classical in
/-- What is below the cut-off. -/
lemma dead_le (i : Fin ps.length) : (∑ c, if clive fl P g ps (i, c) then 0 else cw fl P g ps (i, c)) ≤ 128 / 10 ^ 25 := by
  have h1 : ∀ c ∈ (Finset.univ : Finset (Fin d → Fin 4)), (if clive fl P g ps (i, c) then 0 else cw fl P g ps (i, c)) ≤ 2 / 10 ^ 25 := by
    intro c _
    split_ifs with h
    · positivity
    · exact (not_lt.mp h).trans hs.cut_le
  refine (Finset.sum_le_sum h1).trans ?_
  rw [Finset.sum_const, Finset.card_univ, nsmul_eq_mul]
  have := mul_le_mul_of_nonneg_right hs.card_le (by positivity : (0 : ℝ) ≤ 2 / 10 ^ 25)
  linarith

open Classical in
lemma live_sum (i : Fin ps.length) :
    |(∑ c, if clive fl P g ps (i, c) then cw fl P g ps (i, c) else 0) - 1| ≤ 16 * e + 420 * u + 128 / 10 ^ 25 ∧
    (∑ c, if clive fl P g ps (i, c) then cw fl P g ps (i, c) else 0) ≤ 3 := by
  have hu := hs.rnd.nonneg
  have hus := hs.rnd.small
  have he := hs.e1
  have h1 := (hs.stOk' i).sum_weight hs.rnd hs.dim hs.e0 hs.e1
  have h2 := hs.dead_le i
  have h0 : 0 ≤ ∑ c, if clive fl P g ps (i, c) then 0 else cw fl P g ps (i, c) :=
    Finset.sum_nonneg fun c _ => by split_ifs <;> [exact le_rfl; exact hs.cw_nonneg _]
  have h3 : ∑ c, (cst fl P g ps i).weight fl c = (∑ c, if clive fl P g ps (i, c) then cw fl P g ps (i, c) else 0) +
      ∑ c, if clive fl P g ps (i, c) then 0 else cw fl P g ps (i, c) := by
    rw [← Finset.sum_add_distrib]
    exact Finset.sum_congr rfl fun c _ => by split_ifs <;> simp [cw]
  obtain ⟨a1, a2⟩ := abs_le.mp h1
  constructor
  · rw [abs_le]; constructor <;> linarith
  · norm_num at h2; linarith

open Classical in
/-- The momentum of a particle on the grid. -/
lemma live_vel (i : Fin ps.length) {a : Fin d} {M : ℝ} (hM : SpeedBound P ps a M) :
    |(∑ c, if clive fl P g ps (i, c) then (Hit.mk ps[i] (cw fl P g ps (i, c)) ((cst fl P g ps i).pos c)).vel fl P a * cw fl P g ps (i, c)
      else 0) - ps[i].v a| ≤ (39 * e + 930 * u + 1 / 10 ^ 22) * M := by
  have hu := hs.rnd.nonneg
  have hus := hs.rnd.small
  have he0 := hs.e0
  have hdx := hs.dx
  have hp : ps[i] ∈ ps := List.getElem_mem i.2
  have hM0 := hM.nonneg hdx hp
  obtain ⟨l1, l2⟩ := hs.live_sum i
  have hv : |ps[i].v a| ≤ M := by
    have := hM _ hp ps[i].x fun b => by simp only [sub_self, abs_zero]; positivity
    refine le_trans ?_ this
    split_ifs
    · exact le_add_of_nonneg_right (by positivity)
    · simp
  set s := cst fl P g ps i with hsdef
  set p := ps[i] with hpdef
  set W := ∑ c, if clive fl P g ps (i, c) then cw fl P g ps (i, c) else 0 with hW
  have h1 : |p.v a * W - p.v a| ≤ M * (16 * e + 420 * u + 128 / 10 ^ 25) := by
    rw [show p.v a * W - p.v a = p.v a * (W - 1) by ring, abs_mul]
    exact mul_le_mul hv l1 (abs_nonneg _) hM0
  by_cases hc : P.flipRatio < 0
  swap
  · have e1 : (∑ c, if clive fl P g ps (i, c) then (Hit.mk p (cw fl P g ps (i, c)) (s.pos c)).vel fl P a * cw fl P g ps (i, c) else 0) =
        p.v a * W := by
      rw [hW, Finset.mul_sum]
      refine Finset.sum_congr rfl fun c _ => ?_
      simp only [Hit.vel, if_neg hc, add_zero]
      split_ifs <;> simp
    rw [e1]
    refine h1.trans ?_
    rw [mul_comm]
    refine mul_le_mul_of_nonneg_right ?_ hM0
    norm_num
    linarith
  -- the affine part
  have hB : (∑ b, |p.Bmat a b|) * |P.apicDinverse| * P.dx ≤ M := by
    have := hM p hp (fun b => p.x b + 3 * P.dx) fun b => by rw [add_sub_cancel_left, abs_of_pos (by positivity)]
    rw [if_pos hc] at this
    simp only [add_sub_cancel_left, abs_mul, abs_of_pos (by positivity : (0 : ℝ) < 3), abs_of_pos hdx] at this
    rw [← Finset.sum_mul] at this
    have h2 : 0 ≤ (∑ b, |p.Bmat a b|) * |P.apicDinverse| * P.dx := by positivity
    have h3 : 0 ≤ |p.v a| := abs_nonneg _
    nlinarith
  have hlin : ∀ c, clive fl P g ps (i, c) → |apicFl fl P.apicDinverse p (s.pos c) a -
      (∑ b, p.Bmat a b * (s.pos c b - p.x b)) * P.apicDinverse| ≤ 12 * u * M := by
    intro c hl
    refine (apicFl_err hs.rnd hs.dim _ _ _ _).1.trans (mul_le_mul_of_nonneg_left ?_ (by positivity))
    have := hM p hp (s.pos c) fun b => hs.cnear hl b
    rw [if_pos hc] at this
    linarith [abs_nonneg (p.v a)]
  have hmom : ∀ b, |∑ c, (if clive fl P g ps (i, c) then cw fl P g ps (i, c) * ((s.pos c b - p.x b) / P.dx) else 0)| ≤
      23 * e + 470 * u + 384 / 10 ^ 25 := by
    intro b
    obtain ⟨m1, m2⟩ := (hs.stOk' i).moment hs.rnd hdx hs.dim he0 hs.e1 b
    have h2 : |∑ c, (if clive fl P g ps (i, c) then cw fl P g ps (i, c) * ((s.pos c b - p.x b) / P.dx) else 0) -
        ∑ c, s.weight fl c * ((s.pos c b - p.x b) / P.dx)| ≤ 384 / 10 ^ 25 := by
      rw [← Finset.sum_sub_distrib]
      refine (Finset.abs_sum_le_sum_abs _ _).trans ?_
      calc _ ≤ ∑ c, 3 * (if clive fl P g ps (i, c) then 0 else cw fl P g ps (i, c)) := by
            refine Finset.sum_le_sum fun c _ => ?_
            split_ifs
            · simp [cw, hsdef]
            · rw [zero_sub, abs_neg, abs_mul, mul_comm]
              have hw0 := hs.cw_nonneg (i, c)
              exact mul_le_mul (m2 c) (by rw [cw] at hw0; rw [abs_of_nonneg hw0]; exact le_rfl) (abs_nonneg _) (by norm_num)
        _ ≤ _ := by
            rw [← Finset.mul_sum]
            have := hs.dead_le i
            linarith
    have h3 := abs_add_le (∑ c, (if clive fl P g ps (i, c) then cw fl P g ps (i, c) * ((s.pos c b - p.x b) / P.dx) else 0) -
        ∑ c, s.weight fl c * ((s.pos c b - p.x b) / P.dx)) (∑ c, s.weight fl c * ((s.pos c b - p.x b) / P.dx))
    rw [sub_add_cancel] at h3
    linarith
  have e1 : (∑ c, if clive fl P g ps (i, c) then (Hit.mk p (cw fl P g ps (i, c)) (s.pos c)).vel fl P a * cw fl P g ps (i, c) else 0) =
      p.v a * W + (∑ c, if clive fl P g ps (i, c) then (apicFl fl P.apicDinverse p (s.pos c) a -
        (∑ b, p.Bmat a b * (s.pos c b - p.x b)) * P.apicDinverse) * cw fl P g ps (i, c) else 0) +
      ∑ b, p.Bmat a b * P.apicDinverse * P.dx *
        ∑ c, (if clive fl P g ps (i, c) then cw fl P g ps (i, c) * ((s.pos c b - p.x b) / P.dx) else 0) := by
    have e2 : ∑ b, p.Bmat a b * P.apicDinverse * P.dx *
        ∑ c, (if clive fl P g ps (i, c) then cw fl P g ps (i, c) * ((s.pos c b - p.x b) / P.dx) else 0) =
        ∑ c, if clive fl P g ps (i, c) then (∑ b, p.Bmat a b * (s.pos c b - p.x b)) * P.apicDinverse * cw fl P g ps (i, c) else 0 := by
      simp only [Finset.mul_sum]
      rw [Finset.sum_comm]
      refine Finset.sum_congr rfl fun c _ => ?_
      split_ifs
      · rw [Finset.sum_mul, Finset.sum_mul]
        refine Finset.sum_congr rfl fun b _ => ?_
        have := hdx.ne'
        field_simp
      · simp
    rw [e2, hW, Finset.mul_sum, ← Finset.sum_add_distrib, ← Finset.sum_add_distrib]
    refine Finset.sum_congr rfl fun c _ => ?_
    simp only [Hit.vel, if_pos hc]
    split_ifs
    · ring
    · simp
  rw [e1]
  have h2 : |∑ c, (if clive fl P g ps (i, c) then (apicFl fl P.apicDinverse p (s.pos c) a -
        (∑ b, p.Bmat a b * (s.pos c b - p.x b)) * P.apicDinverse) * cw fl P g ps (i, c) else 0)| ≤ 12 * u * M * 3 := by
    refine (Finset.abs_sum_le_sum_abs _ _).trans (le_trans ?_ (mul_le_mul_of_nonneg_left l2 (by positivity : 0 ≤ 12 * u * M)))
    rw [hW, Finset.mul_sum]
    refine Finset.sum_le_sum fun c _ => ?_
    split_ifs with hl
    · rw [abs_mul, abs_of_nonneg (hs.cw_nonneg _)]
      exact mul_le_mul_of_nonneg_right (hlin c hl) (hs.cw_nonneg _)
    · simp
  have h3 : |∑ b, p.Bmat a b * P.apicDinverse * P.dx *
        ∑ c, (if clive fl P g ps (i, c) then cw fl P g ps (i, c) * ((s.pos c b - p.x b) / P.dx) else 0)| ≤
        M * (23 * e + 470 * u + 384 / 10 ^ 25) := by
    refine (Finset.abs_sum_le_sum_abs _ _).trans (le_trans ?_ (mul_le_mul_of_nonneg_right hB (by positivity)))
    rw [Finset.sum_mul, Finset.sum_mul, Finset.sum_mul]
    refine Finset.sum_le_sum fun b _ => ?_
    rw [abs_mul, abs_mul, abs_mul, abs_of_pos hdx]
    exact mul_le_mul_of_nonneg_left (hmom b) (by positivity)
  set A2 := ∑ c, (if clive fl P g ps (i, c) then (apicFl fl P.apicDinverse p (s.pos c) a -
        (∑ b, p.Bmat a b * (s.pos c b - p.x b)) * P.apicDinverse) * cw fl P g ps (i, c) else 0)
  set A3 := ∑ b, p.Bmat a b * P.apicDinverse * P.dx *
        ∑ c, (if clive fl P g ps (i, c) then cw fl P g ps (i, c) * ((s.pos c b - p.x b) / P.dx) else 0)
  have h4 := abs_add_le (p.v a * W - p.v a + A2) A3
  have h5 := abs_add_le (p.v a * W - p.v a) A2
  rw [show p.v a * W + A2 + A3 - p.v a = p.v a * W - p.v a + A2 + A3 by ring]
  have h6 : (0 : ℝ) ≤ M * (1 / 10 ^ 22 - 512 / 10 ^ 25) := mul_nonneg hM0 (by norm_num)
  have h7 : 0 ≤ M * u := by positivity
  nlinarith

open Classical in
/-- The forces of a particle. -/
lemma live_pull (hd : P.deg ≠ .one) (i : Fin ps.length) {a : Fin d} {Θ : ℝ} (hΘ : StressBound ps a Θ) :
    |∑ c, (if clive fl P g ps (i, c) then pull fl P a ((ps[i], cst fl P g ps i), c) else 0)| ≤
      (16 * e + 240 * u + 64 / 10 ^ 12) * (Θ * (1 / P.dx)) ∧
    (∑ c, if clive fl P g ps (i, c) then pullAbs fl P a ((ps[i], cst fl P g ps i), c) else 0) ≤ 8 * (Θ * (1 / P.dx)) ∧
    (∀ c, |pull fl P a ((ps[i], cst fl P g ps i), c)| ≤ pullAbs fl P a ((ps[i], cst fl P g ps i), c)) ∧
    ∀ c, clive fl P g ps (i, c) → pullAbs fl P a ((ps[i], cst fl P g ps i), c) ≤ 10 ^ 13 * (Θ * (1 / P.dx)) * cw fl P g ps (i, c) := by
  have hu := hs.rnd.nonneg
  have hp : ps[i] ∈ ps := List.getElem_mem i.2
  have hdx := hs.dx
  have he0 := hs.e0
  have h0 : 0 < 1 / P.dx := by positivity
  have hT := hΘ _ hp
  have ho := hs.stOk' i
  set s := cst fl P g ps i with hsdef
  set p := ps[i] with hpdef
  have hg := fun b => ho.sum_grad hs.rnd hd hdx hs.dim he0 hs.e1 b
  have hsm := fun c b => ho.grad_small hs.rnd hd hdx hs.dim c b
  have hΘ0 : 0 ≤ Θ := le_trans (Finset.sum_nonneg fun b _ => abs_nonneg _) hT
  refine ⟨?_, ?_, fun c => ?_, fun c hl => ?_⟩
  · have hb : ∀ b, |∑ c, (if clive fl P g ps (i, c) then s.grad fl P.deg P.dx p.x c b else 0)| ≤
        (16 * e + 240 * u + 64 / 10 ^ 12) * (1 / P.dx) := by
      intro b
      have h2 : |∑ c, (if clive fl P g ps (i, c) then s.grad fl P.deg P.dx p.x c b else 0) - ∑ c, s.grad fl P.deg P.dx p.x c b| ≤
          64 / 10 ^ 12 * (1 / P.dx) := by
        rw [← Finset.sum_sub_distrib]
        refine (Finset.abs_sum_le_sum_abs _ _).trans ?_
        calc _ ≤ ∑ _c : Fin d → Fin 4, 1 / 10 ^ 12 * (1 / P.dx) := by
              refine Finset.sum_le_sum fun c _ => ?_
              split_ifs with hl
              · rw [sub_self, abs_zero]; positivity
              · rw [zero_sub, abs_neg]; exact (hsm c b).1 (not_lt.mp hl)
          _ ≤ _ := by
              rw [Finset.sum_const, Finset.card_univ, nsmul_eq_mul]
              have := mul_le_mul_of_nonneg_right hs.card_le (by positivity : (0 : ℝ) ≤ 1 / 10 ^ 12 * (1 / P.dx))
              linarith
      have h3 := abs_add_le (∑ c, (if clive fl P g ps (i, c) then s.grad fl P.deg P.dx p.x c b else 0) - ∑ c, s.grad fl P.deg P.dx p.x c b)
        (∑ c, s.grad fl P.deg P.dx p.x c b)
      rw [sub_add_cancel] at h3
      have := (hg b).1
      linarith
    have e1 : ∑ c, (if clive fl P g ps (i, c) then pull fl P a ((p, s), c) else 0) =
        ∑ b, p.tau a b * ∑ c, (if clive fl P g ps (i, c) then s.grad fl P.deg P.dx p.x c b else 0) := by
      simp only [Finset.mul_sum]
      rw [Finset.sum_comm]
      refine Finset.sum_congr rfl fun c _ => ?_
      split_ifs
      · rfl
      · simp
    rw [e1]
    refine (Finset.abs_sum_le_sum_abs _ _).trans ?_
    calc _ ≤ ∑ b, |p.tau a b| * ((16 * e + 240 * u + 64 / 10 ^ 12) * (1 / P.dx)) := by
          refine Finset.sum_le_sum fun b _ => ?_
          rw [abs_mul]
          exact mul_le_mul_of_nonneg_left (hb b) (abs_nonneg _)
      _ ≤ _ := by
          rw [← Finset.sum_mul]
          have := mul_le_mul_of_nonneg_right hT (by positivity : 0 ≤ (16 * e + 240 * u + 64 / 10 ^ 12) * (1 / P.dx))
          linarith
  · calc _ ≤ ∑ c, pullAbs fl P a ((p, s), c) := by
          refine Finset.sum_le_sum fun c _ => ?_
          have : 0 ≤ pullAbs fl P a ((p, s), c) := Finset.sum_nonneg fun b _ => by positivity
          split_ifs
          · exact le_rfl
          · exact this
      _ = ∑ b, |p.tau a b| * ∑ c, |s.grad fl P.deg P.dx p.x c b| := by
          simp only [pullAbs, Finset.mul_sum]
          rw [Finset.sum_comm]
      _ ≤ ∑ b, |p.tau a b| * (8 * (1 / P.dx)) := Finset.sum_le_sum fun b _ => mul_le_mul_of_nonneg_left (hg b).2 (abs_nonneg _)
      _ ≤ _ := by
          rw [← Finset.sum_mul]
          have := mul_le_mul_of_nonneg_right hT (by positivity : 0 ≤ 8 * (1 / P.dx))
          linarith
  · refine (Finset.abs_sum_le_sum_abs _ _).trans (le_of_eq (Finset.sum_congr rfl fun b _ => ?_))
    rw [abs_mul]
  · calc _ ≤ ∑ b, |p.tau a b| * (10 ^ 13 * s.weight fl c * (1 / P.dx)) :=
          Finset.sum_le_sum fun b _ => mul_le_mul_of_nonneg_left ((hsm c b).2 hl) (abs_nonneg _)
      _ ≤ _ := by
          rw [← Finset.sum_mul]
          have hw0 : 0 ≤ s.weight fl c := hs.cw_nonneg (i, c)
          have := mul_le_mul_of_nonneg_right hT (by positivity : 0 ≤ 10 ^ 13 * s.weight fl c * (1 / P.dx))
          refine this.trans (le_of_eq ?_)
          show _ = _ * s.weight fl c
          ring

/-! ### The nodes -/

lemma wsum_at (l : ℕ) : hs.wsum l = atNode (clive fl P g ps) (cidx fl P g ps) (cw fl P g ps) l :=
  allHits_atNode fl P g ps l fun h => h.w

variable {ts : List (List (Particle d ℝ))} (hts : ts.flatten.Perm ps) (hT : ts.length ≤ T)
include hts hT

lemma force_at (l : ℕ) (a : Fin d) :
    |forceFl fl P g.size (ts.map (withSt fl P.deg P.dx g)) l a -
      atNode (clive fl P g ps) (cidx fl P g ps) (fun j => pull fl P a ((ps[j.1], cst fl P g ps j.1), j.2)) l| ≤
      6 * ((2 * ps.length + T + 2 : ℕ) * u) *
        atNode (clive fl P g ps) (cidx fl P g ps) (fun j => pullAbs fl P a ((ps[j.1], cst fl P g ps j.1), j.2)) l := by
  have hu := hs.rnd.nonneg
  have hd := hs.dim
  have h1 := forceFl_near hs.rnd P g.size (ts.map (withSt fl P.deg P.dx g)) l a (k := ps.length + 4) (fun t ht => by
    obtain ⟨t, ht', rfl⟩ := List.mem_map.mp ht
    obtain ⟨h1, h2⟩ := hs.thread_len hts hT ht'
    have h3 : ((withSt fl P.deg P.dx g t).flatMap (forceHits fl g.size l)).length ≤ t.length := by
      have h4 := hs.length_le h2 l
      rw [List.length_flatMap] at h4 ⊢
      simp only [forceHits_length]
      exact h4
    omega)
  have hperm : ∀ f : (Particle d ℝ × StFl d) × (Fin d → Fin 4) → ℝ,
      (((ts.map (withSt fl P.deg P.dx g)).flatten.flatMap (forceHits fl g.size l)).map f).sum =
      atNode (clive fl P g ps) (cidx fl P g ps) (fun j => f ((ps[j.1], cst fl P g ps j.1), j.2)) l := by
    intro f
    rw [hs.flatten_with, ← forceHits_atNode]
    have hp : (withSt fl P.deg P.dx g ts.flatten).Perm (withSt fl P.deg P.dx g ps) := hts.map _
    exact ((hp.flatMap_right (forceHits fl g.size l)).map f).sum_eq
  rw [hperm, hperm, List.length_map] at h1
  have h2 := h1.mono hu (by omega : ps.length + 4 + ts.length ≤ 2 * ps.length + T + 2 + 2)
  have hA := h2.nonneg
  have h3 := h2.simple hu (by
    have := hs.few
    have := hs.rnd.small
    rw [Nat.cast_add, add_mul]
    push_cast at *
    linarith)
  refine h3.trans (mul_le_mul_of_nonneg_right ?_ hA)
  have := hs.errs.2.1
  rw [Nat.cast_add (2 * ps.length + T + 2) 2, add_mul]
  push_cast at *
  linarith

/-- The new velocities of the nodes and their increments. -/
lemma node_fields {M : ℝ} {a : Fin d} (hM : SpeedBoundFl fl P ps a M) (hmp : 0 < P.particleMass) (hvol : 0 ≤ P.particleVolume)
    {dt : ℝ} (hdt : 0 ≤ dt) (gravity : Fin d → ℝ) (l : ℕ) {G : ℕ → CellFl d} {f : ℕ → Fin d → ℝ}
    (hG : G = p2gFinishFl fl P (p2gAccumulateFl fl P g.size (ts.map (withSt fl P.deg P.dx g))))
    (hf : f = forceFl fl P g.size (ts.map (withSt fl P.deg P.dx g))) :
    (atNode (clive fl P g ps) (cidx fl P g ps) (cw fl P g ps) l = 0 →
      eulerFl fl P dt gravity G f l a = 0 ∧ flipFl fl G (eulerFl fl P dt gravity G f) l a = 0) ∧
    (0 < atNode (clive fl P g ps) (cidx fl P g ps) (cw fl P g ps) l →
      |eulerFl fl P dt gravity G f l a - ((atNode (clive fl P g ps) (cidx fl P g ps) (fun j =>
          (Hit.mk ps[j.1] (cw fl P g ps j) ((cst fl P g ps j.1).pos j.2)).vel fl P a * cw fl P g ps j) l -
        dt * P.particleVolume / P.particleMass *
          atNode (clive fl P g ps) (cidx fl P g ps) (fun j => pull fl P a ((ps[j.1], cst fl P g ps j.1), j.2)) l) /
        atNode (clive fl P g ps) (cidx fl P g ps) (cw fl P g ps) l + dt * gravity a)| ≤
        20 * ((2 * ps.length + T + 2 : ℕ) * u) * (M + dt * P.particleVolume / P.particleMass *
          atNode (clive fl P g ps) (cidx fl P g ps) (fun j => pullAbs fl P a ((ps[j.1], cst fl P g ps j.1), j.2)) l /
          atNode (clive fl P g ps) (cidx fl P g ps) (cw fl P g ps) l + |dt * gravity a|) ∧
      |flipFl fl G (eulerFl fl P dt gravity G f) l a - ((0 - dt * P.particleVolume / P.particleMass *
          atNode (clive fl P g ps) (cidx fl P g ps) (fun j => pull fl P a ((ps[j.1], cst fl P g ps j.1), j.2)) l) /
        atNode (clive fl P g ps) (cidx fl P g ps) (cw fl P g ps) l + dt * gravity a)| ≤
        20 * ((2 * ps.length + T + 2 : ℕ) * u) * (M + dt * P.particleVolume / P.particleMass *
          atNode (clive fl P g ps) (cidx fl P g ps) (fun j => pullAbs fl P a ((ps[j.1], cst fl P g ps j.1), j.2)) l /
          atNode (clive fl P g ps) (cidx fl P g ps) (cw fl P g ps) l + |dt * gravity a|)) := by
  have hraw := hs.raw_pos hts hT l
  have hmass := hs.mass_pos hts hT hmp l
  rw [wsum_at] at hraw hmass
  have hm0 : (G l).mass = fl ((p2gAccumulateFl fl P g.size (ts.map (withSt fl P.deg P.dx g)) l).mass * P.particleMass) := by rw [hG]; rfl
  have hv0 : (G l).v a = if (p2gAccumulateFl fl P g.size (ts.map (withSt fl P.deg P.dx g)) l).mass > 0 then
      fl ((p2gAccumulateFl fl P g.size (ts.map (withSt fl P.deg P.dx g)) l).v a /
        (p2gAccumulateFl fl P g.size (ts.map (withSt fl P.deg P.dx g)) l).mass) else 0 := by rw [hG]; rfl
  constructor
  · intro h0
    have h1 : ¬ (G l).mass > 0 := by rw [hm0]; exact fun h => (h0 ▸ hmass.mp h).false
    have h2 : ¬ (p2gAccumulateFl fl P g.size (ts.map (withSt fl P.deg P.dx g)) l).mass > 0 := fun h => (h0 ▸ hraw.mp h).false
    rw [if_neg h2] at hv0
    exact ⟨by rw [eulerFl, if_neg h1, hv0], by rw [flipFl, if_neg h1]⟩
  · intro hpos
    have h1 : (G l).mass > 0 := by rw [hm0]; exact hmass.mpr hpos
    have h2 : (p2gAccumulateFl fl P g.size (ts.map (withSt fl P.deg P.dx g)) l).mass > 0 := hraw.mpr hpos
    rw [if_pos h2] at hv0
    have hmean := hs.node_mean hts hT l a hM (by rw [wsum_at]; exact hpos)
    rw [← hv0, wsum_at, allHits_atNode] at hmean
    have hme := hs.mass_err hts hT hmp.le l
    rw [← hm0, wsum_at] at hme
    have hfo := hs.force_at hts hT l a
    rw [← hf] at hfo
    obtain ⟨hu, e1, e2⟩ := hs.errs
    set κ := ((2 * ps.length + T + 2 : ℕ) : ℝ) * u
    have hV : |atNode (clive fl P g ps) (cidx fl P g ps) (fun j =>
          (Hit.mk ps[j.1] (cw fl P g ps j) ((cst fl P g ps j.1).pos j.2)).vel fl P a * cw fl P g ps j) l| ≤
        M * atNode (clive fl P g ps) (cidx fl P g ps) (cw fl P g ps) l := by
      refine (atNode_abs _ l).trans ?_
      rw [← atNode_smul]
      refine atNode_mono (fun j hj => ?_) l
      rw [abs_mul, abs_of_nonneg (hs.cw_nonneg j)]
      refine mul_le_mul_of_nonneg_right ?_ (hs.cw_nonneg j)
      have h3 := hM ps[j.1] (List.getElem_mem j.1.2) ((cst fl P g ps j.1).pos j.2) (hs.cnear hj)
      refine le_trans ?_ h3
      simp only [Hit.vel]
      split_ifs
      · exact abs_add_le _ _
      · simp
    have hΦ : |atNode (clive fl P g ps) (cidx fl P g ps) (fun j => pull fl P a ((ps[j.1], cst fl P g ps j.1), j.2)) l| ≤
        atNode (clive fl P g ps) (cidx fl P g ps) (fun j => pullAbs fl P a ((ps[j.1], cst fl P g ps j.1), j.2)) l := by
      refine (atNode_abs _ l).trans (atNode_mono (fun j _ => ?_) l)
      refine (Finset.abs_sum_le_sum_abs _ _).trans (le_of_eq (Finset.sum_congr rfl fun b _ => ?_))
      rw [abs_mul]
    have key := euler_err (grav := gravity a) hs.rnd (by linarith : 2 * u ≤ κ) (by linarith) hpos hmp hdt hvol
      (v := (G l).v a) (mi := (G l).mass) (F := f l a)
      (by refine hmean.trans (le_of_eq ?_); ring) hV hme hfo hΦ
    have h3 : eulerFl fl P dt gravity G f l a = fl ((G l).v a + incrementFl fl P.particleVolume dt (gravity a) (G l).mass (f l a)) := by
      rw [eulerFl, if_pos h1]
    refine ⟨by rw [h3]; exact key.1, ?_⟩
    have h4 : flipFl fl G (eulerFl fl P dt gravity G f) l a = fl (eulerFl fl P dt gravity G f l a - (G l).v a) := by
      rw [flipFl, if_pos h1]
    rw [h4, h3]
    exact key.2

end Setting

section main
variable {P : TransferParams ℝ} {e : ℝ} {g : Axes d ℝ} {ps : List (Particle d ℝ)} {T : ℕ}
  {ts : List (List (Particle d ℝ))}

open Classical in
/-- Interpolating a nodal field of the kind of `node_fields`. -/
lemma interpolated (hs : Setting u fl P e g ps T) (hd : P.deg ≠ .one) {a : Fin d} {M Θ D γ : ℝ} (hM0 : 0 ≤ M) (hD : 0 ≤ D)
    (hΘ : StressBound ps a Θ) {f : ℕ → Fin d → ℝ} {φ : Fin ps.length × (Fin d → Fin 4) → ℝ}
    (hφ : ∀ j, clive fl P g ps j → |φ j| ≤ M * cw fl P g ps j)
    (hf0 : ∀ l, atNode (clive fl P g ps) (cidx fl P g ps) (cw fl P g ps) l = 0 → f l a = 0)
    (hf : ∀ l, 0 < atNode (clive fl P g ps) (cidx fl P g ps) (cw fl P g ps) l →
      |f l a - ((atNode (clive fl P g ps) (cidx fl P g ps) φ l -
        D * atNode (clive fl P g ps) (cidx fl P g ps) (fun j => pull fl P a ((ps[j.1], cst fl P g ps j.1), j.2)) l) /
        atNode (clive fl P g ps) (cidx fl P g ps) (cw fl P g ps) l + γ)| ≤
        20 * ((2 * ps.length + T + 2 : ℕ) * u) * (M + D *
          atNode (clive fl P g ps) (cidx fl P g ps) (fun j => pullAbs fl P a ((ps[j.1], cst fl P g ps j.1), j.2)) l /
          atNode (clive fl P g ps) (cidx fl P g ps) (cw fl P g ps) l + |γ|))
    {v0 : Fin ps.length → ℝ} {ε : ℝ}
    (hv0 : ∀ i, |(∑ c, if clive fl P g ps (i, c) then φ (i, c) else 0) - v0 i| ≤ ε * M)
    (hε0 : 16 * e + 420 * u + 1 / 10 ^ 10 ≤ ε) {w : Fin ps.length → Fin d → ℝ}
    (hw : ∀ i, picFl fl P g f ps[i].x = some (w i)) :
    |∑ i, w i a - ∑ i, (v0 i + γ)| ≤ ps.length * ((ε + 1800 * ((2 * ps.length + T + 2 : ℕ) * u) + 5 / 10 ^ 10) *
      (M + D * (Θ * (1 / P.dx)) + |γ|)) ∧
    ∑ i, |w i a| ≤ ps.length * (30 * (M + D * (Θ * (1 / P.dx)) + |γ|)) := by
  obtain ⟨hu, e1, e2⟩ := hs.errs
  have hus := hs.rnd.small
  have he0 := hs.e0
  have hdx := hs.dx
  set κ := ((2 * ps.length + T + 2 : ℕ) : ℝ) * u
  set n := (ps.length : ℝ) with hn
  have hn0 : 0 ≤ n := Nat.cast_nonneg _
  set live := clive fl P g ps
  set L := cidx fl P g ps
  set W := cw fl P g ps
  rcases Nat.eq_zero_or_pos ps.length with hnil | hnpos
  · have : IsEmpty (Fin ps.length) := by rw [hnil]; infer_instance
    have hn' : n = 0 := by rw [hn]; exact_mod_cast hnil
    rw [hn']
    simp
  have hΘ0 : 0 ≤ Θ := le_trans (Finset.sum_nonneg fun b _ => abs_nonneg _) (hΘ _ (List.getElem_mem hnpos))
  set E := D * (Θ * (1 / P.dx)) with hE
  have hE0 : 0 ≤ E := by positivity
  have hγ0 := abs_nonneg γ
  set ψ : Fin ps.length × (Fin d → Fin 4) → ℝ := fun j => pull fl P a ((ps[j.1], cst fl P g ps j.1), j.2)
  set α : Fin ps.length × (Fin d → Fin 4) → ℝ := fun j => pullAbs fl P a ((ps[j.1], cst fl P g ps j.1), j.2)
  have hlp := fun i => hs.live_pull hd i hΘ
  have hdead : (∑ j, if live j then 0 else W j) ≤ n * (128 / 10 ^ 25) := by
    rw [Fintype.sum_prod_type]
    refine (Finset.sum_le_sum fun i _ => hs.dead_le i).trans (le_of_eq ?_)
    rw [Finset.sum_const, Finset.card_univ, Fintype.card_fin, nsmul_eq_mul]
  obtain ⟨g1, g2⟩ := gather (f := fun l => f l a) (φ := φ) (ψ := ψ) (α := α) (M := M) (D := D) (Z := 10 ^ 13 * E) (γ := γ)
    (δ := 20 * κ) hs.cidx_lt hs.cw_nonneg (fun j => hs.cw_pos) hM0 hD (by positivity) hφ (fun j => (hlp j.1).2.2.1 j.2)
    (fun j hj => by
      have := mul_le_mul_of_nonneg_left ((hlp j.1).2.2.2 j.2 hj) hD
      refine this.trans (le_of_eq ?_)
      rw [hE]; ring) (by linarith) (by linarith) hf0 hf hdead
  -- the sums
  set B := M + E + |γ|
  have hB0 : 0 ≤ B := by positivity
  have hT : (∑ j, if live j then M * W j + D * α j + |γ| * W j else 0) ≤ n * (8 * B) := by
    rw [Fintype.sum_prod_type]
    have h1 : ∀ i ∈ (Finset.univ : Finset (Fin ps.length)),
        (∑ c, if live (i, c) then M * W (i, c) + D * α (i, c) + |γ| * W (i, c) else 0) ≤ 8 * B := by
      intro i _
      have e3 : (∑ c, if live (i, c) then M * W (i, c) + D * α (i, c) + |γ| * W (i, c) else 0) =
          (M + |γ|) * (∑ c, if live (i, c) then W (i, c) else 0) + D * ∑ c, if live (i, c) then α (i, c) else 0 := by
        rw [Finset.mul_sum, Finset.mul_sum, ← Finset.sum_add_distrib]
        refine Finset.sum_congr rfl fun c _ => ?_
        split_ifs
        · ring
        · simp
      rw [e3]
      have h2 := mul_le_mul_of_nonneg_left (hs.live_sum i).2 (by positivity : 0 ≤ M + |γ|)
      have h3 := mul_le_mul_of_nonneg_left (hlp i).2.1 hD
      have h4 : D * (8 * (Θ * (1 / P.dx))) = 8 * E := by rw [hE]; ring
      change D * (∑ c, if live (i, c) then α (i, c) else 0) ≤ _ at h3
      change (M + |γ|) * (∑ c, if live (i, c) then W (i, c) else 0) ≤ _ at h2
      linarith
    refine (Finset.sum_le_sum h1).trans (le_of_eq ?_)
    rw [Finset.sum_const, Finset.card_univ, Fintype.card_fin, nsmul_eq_mul]
  have hX : 3 * (M + 10 ^ 13 * E + |γ|) * (n * (128 / 10 ^ 25)) ≤ n * (4 / 10 ^ 10 * B) := by
    have h1 : M + 10 ^ 13 * E + |γ| ≤ 10 ^ 13 * B := by
      show M + 10 ^ 13 * E + |γ| ≤ 10 ^ 13 * (M + E + |γ|)
      norm_num; linarith
    have h2 := mul_le_mul_of_nonneg_right h1 (by positivity : 0 ≤ 3 * (n * (128 / 10 ^ 25)))
    have h3 : 10 ^ 13 * B * (3 * (n * (128 / 10 ^ 25))) ≤ n * (4 / 10 ^ 10 * B) := by
      have : 0 ≤ n * B := by positivity
      norm_num at this ⊢
      linarith
    linarith
  have hsumAbs : ∑ j, |f (L j) a| * W j ≤ n * (25 * B) := by
    refine g2.trans ?_
    have : 0 ≤ n * B := by positivity
    norm_num at hX ⊢
    linarith
  -- the exact sums
  have hid : |∑ j, (if live j then φ j - D * ψ j + γ * W j else 0) - ∑ i, (v0 i + γ)| ≤ n * (ε * B) := by
    rw [Fintype.sum_prod_type, ← Finset.sum_sub_distrib]
    refine (Finset.abs_sum_le_sum_abs _ _).trans ?_
    have h1 : ∀ i ∈ (Finset.univ : Finset (Fin ps.length)),
        |(∑ c, if live (i, c) then φ (i, c) - D * ψ (i, c) + γ * W (i, c) else 0) - (v0 i + γ)| ≤ ε * B := by
      intro i _
      have e3 : (∑ c, if live (i, c) then φ (i, c) - D * ψ (i, c) + γ * W (i, c) else 0) - (v0 i + γ) =
          ((∑ c, if live (i, c) then φ (i, c) else 0) - v0 i) + (-(D * ∑ c, if live (i, c) then ψ (i, c) else 0) +
          γ * ((∑ c, if live (i, c) then W (i, c) else 0) - 1)) := by
        have : (∑ c, if live (i, c) then φ (i, c) - D * ψ (i, c) + γ * W (i, c) else 0) =
            (∑ c, if live (i, c) then φ (i, c) else 0) + (-D * ∑ c, if live (i, c) then ψ (i, c) else 0) +
            γ * ∑ c, if live (i, c) then W (i, c) else 0 := by
          rw [Finset.mul_sum, Finset.mul_sum, ← Finset.sum_add_distrib, ← Finset.sum_add_distrib]
          refine Finset.sum_congr rfl fun c _ => ?_
          split_ifs
          · ring
          · simp
        rw [this]; ring
      rw [e3]
      have h2 := hv0 i
      have h3 : |-(D * ∑ c, if live (i, c) then ψ (i, c) else 0)| ≤ ε * E := by
        rw [abs_neg, abs_mul, abs_of_nonneg hD]
        have h4 := mul_le_mul_of_nonneg_left (hlp i).1 hD
        refine h4.trans ?_
        rw [show D * ((16 * e + 240 * u + 64 / 10 ^ 12) * (Θ * (1 / P.dx))) = (16 * e + 240 * u + 64 / 10 ^ 12) * E by rw [hE]; ring]
        refine mul_le_mul_of_nonneg_right (le_trans ?_ hε0) hE0
        norm_num
        linarith
      have h5 : |γ * ((∑ c, if live (i, c) then W (i, c) else 0) - 1)| ≤ ε * |γ| := by
        rw [abs_mul, mul_comm]
        refine mul_le_mul_of_nonneg_right ((hs.live_sum i).1.trans (le_trans ?_ hε0)) hγ0
        norm_num
      refine (abs_add_le _ _).trans ?_
      have h6 := abs_add_le (-(D * ∑ c, if live (i, c) then ψ (i, c) else 0)) (γ * ((∑ c, if live (i, c) then W (i, c) else 0) - 1))
      show _ ≤ ε * (M + E + |γ|)
      linarith
    refine (Finset.sum_le_sum h1).trans (le_of_eq ?_)
    rw [Finset.sum_const, Finset.card_univ, Fintype.card_fin, nsmul_eq_mul]
  -- the interpolation
  have hpic : ∀ i, |w i a - ∑ c, f (L (i, c)) a * W (i, c)| ≤ 130 * u * ∑ c, |f (L (i, c)) a| * W (i, c) := by
    intro i
    obtain ⟨w', hw', hnear⟩ := picFl_near hs f (List.getElem_mem i.2)
    have : w' = w i := Option.some.inj (hw'.symm.trans (hw i))
    subst this
    have := (hnear a).simple hu (by push_cast; linarith)
    push_cast at this
    refine this.trans (le_of_eq ?_)
    rw [show 2 * (65 * u) = 130 * u by ring]
    rfl
  have hpicS : |∑ i, w i a - ∑ j, f (L j) a * W j| ≤ 130 * u * (n * (25 * B)) := by
    rw [Fintype.sum_prod_type, ← Finset.sum_sub_distrib]
    refine (Finset.abs_sum_le_sum_abs _ _).trans ((Finset.sum_le_sum fun i _ => hpic i).trans ?_)
    rw [← Finset.mul_sum, ← Fintype.sum_prod_type (f := fun j => |f (L j) a| * W j)]
    exact mul_le_mul_of_nonneg_left hsumAbs (by positivity)
  have hnB : 0 ≤ n * B := by positivity
  have hunB : u * (n * B) ≤ κ / 2 * (n * B) := mul_le_mul_of_nonneg_right (by linarith) hnB
  constructor
  · have h1 := mul_le_mul_of_nonneg_left hT (by linarith : 0 ≤ 20 * κ)
    have h2 := abs_add_le (∑ i, w i a - ∑ j, f (L j) a * W j) (∑ j, f (L j) a * W j -
      ∑ j, (if live j then φ j - D * ψ j + γ * W j else 0))
    have h3 := abs_add_le (∑ i, w i a - ∑ j, (if live j then φ j - D * ψ j + γ * W j else 0))
      (∑ j, (if live j then φ j - D * ψ j + γ * W j else 0) - ∑ i, (v0 i + γ))
    rw [sub_add_sub_cancel] at h2 h3
    have h4 : 0 ≤ κ * (n * B) := mul_nonneg (by linarith) hnB
    have h5 := g1.trans (add_le_add h1 hX)
    have e4 : n * ((ε + 1800 * κ + 5 / 10 ^ 10) * B) = n * (ε * B) + 1800 * (κ * (n * B)) + 5 / 10 ^ 10 * (n * B) := by ring
    rw [e4]
    have h6 : 20 * κ * (n * (8 * B)) = 160 * (κ * (n * B)) := by ring
    have h7 : n * (4 / 10 ^ 10 * B) ≤ 5 / 10 ^ 10 * (n * B) := by norm_num; linarith
    linarith
  · have h1 : ∀ i ∈ (Finset.univ : Finset (Fin ps.length)), |w i a| ≤ (1 + 130 * u) * ∑ c, |f (L (i, c)) a| * W (i, c) := by
      intro i _
      have h2 := abs_add_le (w i a - ∑ c, f (L (i, c)) a * W (i, c)) (∑ c, f (L (i, c)) a * W (i, c))
      rw [sub_add_cancel] at h2
      have h3 : |∑ c, f (L (i, c)) a * W (i, c)| ≤ ∑ c, |f (L (i, c)) a| * W (i, c) := by
        refine (Finset.abs_sum_le_sum_abs _ _).trans (le_of_eq (Finset.sum_congr rfl fun c _ => ?_))
        rw [abs_mul, abs_of_nonneg (hs.cw_nonneg _)]
      have := hpic i
      linarith
    refine (Finset.sum_le_sum h1).trans ?_
    rw [← Finset.mul_sum, ← Fintype.sum_prod_type (f := fun j => |f (L j) a| * W j)]
    refine (mul_le_mul_of_nonneg_left hsumAbs (by positivity)).trans ?_
    nlinarith

lemma blend_err (hr : Rounding u fl) {r v pic flip : ℝ} (h0 : 0 ≤ r) (h1 : r ≤ 1) :
    |fl (fl (r * fl (v + flip)) + fl (fl (1 - r) * pic)) - (r * (v + flip) + (1 - r) * pic)| ≤ 6 * u * (|v| + |flip| + |pic|) := by
  have hu := hr.nonneg
  have hus := hr.small
  have a1 := ((Near.exact (u := u) v).add hr (Near.exact flip))
  have a2 := (Near.exact (u := u) r).mul hr a1
  have a3 := ((Near.exact (u := u) (1 - r)).round hr).mul hr (Near.exact pic)
  have a4 := a2.add hr a3
  have a5 := a4.simple hu (by push_cast; linarith)
  rw [abs_of_nonneg h0, abs_of_nonneg (by linarith : 0 ≤ 1 - r)] at a5
  push_cast at a5
  have b1 : r * (|v| + |flip|) ≤ 1 * (|v| + |flip|) := mul_le_mul_of_nonneg_right h1 (by positivity)
  have b2 : (1 - r) * |pic| ≤ 1 * |pic| := mul_le_mul_of_nonneg_right (by linarith) (abs_nonneg _)
  have b3 := mul_le_mul_of_nonneg_left (add_le_add b1 b2) hu
  norm_num at a5
  linarith

set_option maxHeartbeats 1000000 in
/-- **C119** With rounding, a step without walls changes the momentum of all particles by gravity alone, up to rounding
errors: relative to `M + dt vol Θ / (mp dx) + dt |g|`, the fastest speed, the largest change by stress and the change by
gravity, the error per particle is at most `40 e + 2500 K u + 1e-9`. Here `e` bounds the rounding errors of the places of
the nodes (C99), `K` the number of additions per node, and `1e-9` is due to the cut-off of small weights. The velocities
are those of the step for all settings of the transfer (PIC, FLIP, APIC, AFLIP). -/
theorem C119_momentum (hs : Setting u fl P e g ps T) (hts : ts.flatten.Perm ps) (hT : ts.length ≤ T) (hd : P.deg ≠ .one)
    (hmp : 0 < P.particleMass) (hvol : 0 ≤ P.particleVolume) (hratio : P.flipRatio ≤ 1) {dt : ℝ} (hdt : 0 ≤ dt) (gravity : Fin d → ℝ)
    {a : Fin d} {M Θ : ℝ} (hM : SpeedBound P ps a M) (hΘ : StressBound ps a Θ) :
    ∃ vs, velocitiesFl fl P dt gravity g ts ps = some vs ∧ vs.length = ps.length ∧
      |(vs.map fun v => v a).sum - ((ps.map fun p => p.v a).sum + ps.length * (dt * gravity a))| ≤
        ps.length * ((40 * e + 2500 * ((2 * ps.length + T + 2 : ℕ) * u) + 1 / 10 ^ 9) *
          (M + dt * P.particleVolume / P.particleMass * (Θ * (1 / P.dx)) + |dt * gravity a|)) := by
  classical
  obtain ⟨hu, e1, e2⟩ := hs.errs
  have hus := hs.rnd.small
  have he0 := hs.e0
  have hdx := hs.dx
  have hFM := hM.computed hs.rnd hs.dim
  have h1 : (ts.mapM fun t => t.mapM fun p => (stP2GFl fl P.deg P.dx g p.x).map fun s => (p, s)) =
      some (ts.map (withSt fl P.deg P.dx g)) := by
    refine mapM_all fun t ht => mapM_all fun p hp => ?_
    rw [(stOf_ok P.deg (hs.placed p (hts.subset (List.mem_flatten.mpr ⟨t, ht, hp⟩)))).1]; rfl
  have hforce : P2GForceFl fl P g ts = some (forceFl fl P g.size (ts.map (withSt fl P.deg P.dx g))) := by
    simp only [P2GForceFl, h1, Option.bind_eq_bind, Option.bind_some]
  have hG := hs.p2g_eq hts hT
  set G := p2gFinishFl fl P (p2gAccumulateFl fl P g.size (ts.map (withSt fl P.deg P.dx g))) with hGdef
  set f := forceFl fl P g.size (ts.map (withSt fl P.deg P.dx g)) with hfdef
  set V := eulerFl fl P dt gravity G f with hVdef
  set Fp := flipFl fl G V with hFpdef
  have hpic : ∀ p ∈ ps, picFl fl P g V p.x = some ((picFl fl P g V p.x).getD 0) := fun p hp => by
    obtain ⟨w, hw, -⟩ := picFl_near hs V hp
    rw [hw]; rfl
  have hflip : ∀ p ∈ ps, picFl fl P g Fp p.x = some ((picFl fl P g Fp p.x).getD 0) := fun p hp => by
    obtain ⟨w, hw, -⟩ := picFl_near hs Fp hp
    rw [hw]; rfl
  set res : Particle d ℝ → Fin d → ℝ := fun p a =>
    blendFl fl P.flipRatio (p.v a) ((picFl fl P g V p.x).getD 0 a) ((picFl fl P g Fp p.x).getD 0 a) with hres
  refine ⟨ps.map res, ?_, by rw [List.length_map], ?_⟩
  · simp only [velocitiesFl, hG, hforce, Option.bind_eq_bind, Option.bind_some]
    refine mapM_all fun p hp => ?_
    show ((picFl fl P g V p.x).bind fun pic => (picFl fl P g Fp p.x).bind fun flip => _) = _
    rw [hpic p hp, hflip p hp]
    rfl
  rw [List.map_map, ← Fin.sum_univ_fun_getElem, ← Fin.sum_univ_fun_getElem]
  set n := (ps.length : ℝ) with hn
  have hn0 : 0 ≤ n := Nat.cast_nonneg _
  rcases Nat.eq_zero_or_pos ps.length with hnil | hnpos
  · have : IsEmpty (Fin ps.length) := by rw [hnil]; infer_instance
    have hn' : n = 0 := by rw [hn]; exact_mod_cast hnil
    rw [hn']
    simp
  have hp0 : ps[0] ∈ ps := List.getElem_mem hnpos
  have hM0 := hM.nonneg hdx hp0
  have hΘ0 : 0 ≤ Θ := le_trans (Finset.sum_nonneg fun b _ => abs_nonneg _) (hΘ _ hp0)
  set κ := ((2 * ps.length + T + 2 : ℕ) : ℝ) * u with hκ
  set D := dt * P.particleVolume / P.particleMass with hD
  have hD0 : 0 ≤ D := by positivity
  set γ := dt * gravity a with hγ
  have hnode := fun l => hs.node_fields hts hT hFM hmp hvol hdt gravity l hGdef hfdef
  set M' := (1 + 12 * u) * M with hM'
  have hM'0 : 0 ≤ M' := by positivity
  have hMM' : M ≤ M' := by rw [hM']; nlinarith
  have hM'M : M' ≤ 1012 / 1000 * M := by rw [hM']; nlinarith
  obtain ⟨p1, p2⟩ := interpolated hs hd (D := D) (γ := γ) hM'0 hD0 hΘ (f := V)
    (φ := fun j => (Hit.mk ps[j.1] (cw fl P g ps j) ((cst fl P g ps j.1).pos j.2)).vel fl P a * cw fl P g ps j)
    (fun j hj => by
      rw [abs_mul, abs_of_nonneg (hs.cw_nonneg j)]
      refine mul_le_mul_of_nonneg_right ?_ (hs.cw_nonneg j)
      refine le_trans ?_ (hFM ps[j.1] (List.getElem_mem j.1.2) ((cst fl P g ps j.1).pos j.2) (hs.cnear hj))
      simp only [Hit.vel]
      split_ifs
      · exact abs_add_le _ _
      · simp)
    (fun l hl => ((hnode l).1 hl).1) (fun l hl => ((hnode l).2 hl).1) (v0 := fun i => ps[i].v a)
    (ε := 39 * e + 930 * u + 1 / 10 ^ 10)
    (fun i => (hs.live_vel i hM).trans (mul_le_mul (by norm_num) hMM' hM0 (by positivity)))
    (by linarith) (w := fun i => (picFl fl P g V ps[i].x).getD 0) (fun i => hpic _ (List.getElem_mem i.2))
  obtain ⟨q1, q2⟩ := interpolated hs hd (D := D) (γ := γ) hM'0 hD0 hΘ (f := Fp) (φ := fun j => 0)
    (fun j hj => by rw [abs_zero]; exact mul_nonneg hM'0 (hs.cw_nonneg j))
    (fun l hl => ((hnode l).1 hl).2) (fun l hl => by
      have := ((hnode l).2 hl).2
      have e0 : atNode (clive fl P g ps) (cidx fl P g ps) (fun _ => (0 : ℝ)) l = 0 := by simp [atNode]
      rw [e0]
      exact this) (v0 := fun i => 0)
    (ε := 39 * e + 930 * u + 1 / 10 ^ 10)
    (fun i => by simp only [ite_self, Finset.sum_const_zero, sub_zero, abs_zero]; positivity)
    (by linarith) (w := fun i => (picFl fl P g Fp ps[i].x).getD 0) (fun i => hflip _ (List.getElem_mem i.2))
  set pic : Fin ps.length → ℝ := fun i => (picFl fl P g V ps[i].x).getD 0 a
  set flp : Fin ps.length → ℝ := fun i => (picFl fl P g Fp ps[i].x).getD 0 a
  set E := D * (Θ * (1 / P.dx)) with hE
  have hE0 : 0 ≤ E := by positivity
  set B := M + E + |γ| with hB
  have hB0 : 0 ≤ B := by positivity
  have hBB : M' + E + |γ| ≤ 1012 / 1000 * B := by rw [hB]; linarith [abs_nonneg γ]
  have hnB : 0 ≤ n * B := by positivity
  have hκ0 : 0 ≤ κ := by linarith
  have hfac : n * ((39 * e + 930 * u + 1 / 10 ^ 10 + 1800 * κ + 5 / 10 ^ 10) * (M' + E + |γ|)) ≤
      (40 * e + 2300 * κ + 7 / 10 ^ 10) * (n * B) := by
    have h2 : (39 * e + 930 * u + 1 / 10 ^ 10 + 1800 * κ + 5 / 10 ^ 10) * (M' + E + |γ|) ≤
        (39 * e + 2265 * κ + 6 / 10 ^ 10) * (1012 / 1000 * B) := by
      refine mul_le_mul ?_ hBB (by positivity) (by positivity)
      norm_num
      linarith
    have h3 := mul_le_mul_of_nonneg_left h2 hn0
    have h4 : 0 ≤ e * (n * B) := by positivity
    have h5 : 0 ≤ κ * (n * B) := by positivity
    refine h3.trans ?_
    have e5 : n * ((39 * e + 2265 * κ + 6 / 10 ^ 10) * (1012 / 1000 * B)) = 39 * 1012 / 1000 * (e * (n * B)) +
      2265 * 1012 / 1000 * (κ * (n * B)) + 6 * 1012 / 1000 / 10 ^ 10 * (n * B) := by ring
    have e6 : (40 * e + 2300 * κ + 7 / 10 ^ 10) * (n * B) = 40 * (e * (n * B)) + 2300 * (κ * (n * B)) + 7 / 10 ^ 10 * (n * B) := by ring
    rw [e5, e6]
    have h6 : 6 * 1012 / 1000 / 10 ^ 10 * (n * B) ≤ 7 / 10 ^ 10 * (n * B) := mul_le_mul_of_nonneg_right (by norm_num) hnB
    linarith
  have P1 := p1.trans hfac
  have Q1 := q1.trans hfac
  have hsum : ∑ i : Fin ps.length, (ps[i].v a + γ) = ∑ i : Fin ps.length, ps[i].v a + n * γ := by
    rw [Finset.sum_add_distrib, Finset.sum_const, Finset.card_univ, Fintype.card_fin, nsmul_eq_mul]
  have hsum0 : ∑ i : Fin ps.length, ((0 : ℝ) + γ) = n * γ := by
    rw [Finset.sum_add_distrib, Finset.sum_const_zero, zero_add, Finset.sum_const, Finset.card_univ, Fintype.card_fin, nsmul_eq_mul]
  change |∑ i, pic i - ∑ i : Fin ps.length, (ps[i].v a + γ)| ≤ _ at P1
  change |∑ i, flp i - ∑ i : Fin ps.length, ((0 : ℝ) + γ)| ≤ _ at Q1
  change ∑ i, |pic i| ≤ _ at p2
  change ∑ i, |flp i| ≤ _ at q2
  rw [hsum] at P1
  rw [hsum0] at Q1
  set S := ∑ i : Fin ps.length, ps[i].v a with hS
  change |∑ i : Fin ps.length, blendFl fl P.flipRatio (ps[i].v a) (pic i) (flp i) - (S + n * γ)| ≤ _
  set ρ := (40 * e + 2300 * κ + 7 / 10 ^ 10) * (n * B) with hρ
  have hρ0 : 0 ≤ ρ := by positivity
  have hgoal : ρ + 6 * u * (n * (62 * B)) ≤ n * ((40 * e + 2500 * κ + 1 / 10 ^ 9) * B) := by
    have h2 : u * (n * B) ≤ κ / 2 * (n * B) := mul_le_mul_of_nonneg_right (by linarith) hnB
    have h5 : 0 ≤ κ * (n * B) := by positivity
    have e6 : ρ = 40 * (e * (n * B)) + 2300 * (κ * (n * B)) + 7 / 10 ^ 10 * (n * B) := by rw [hρ]; ring
    have e7 : n * ((40 * e + 2500 * κ + 1 / 10 ^ 9) * B) = 40 * (e * (n * B)) + 2500 * (κ * (n * B)) + 1 / 10 ^ 9 * (n * B) := by ring
    rw [e6, e7]
    have h6 : 7 / 10 ^ 10 * (n * B) ≤ 1 / 10 ^ 9 * (n * B) := mul_le_mul_of_nonneg_right (by norm_num) hnB
    linarith
  refine le_trans ?_ hgoal
  have hmix : ∀ r : ℝ, 0 ≤ r → r ≤ 1 →
      |∑ i : Fin ps.length, fl (fl (r * fl (ps[i].v a + flp i)) + fl (fl (1 - r) * pic i)) - (S + n * γ)| ≤
        ρ + 6 * u * (n * (62 * B)) := by
    intro r h0 h1
    have h2 : |∑ i : Fin ps.length, fl (fl (r * fl (ps[i].v a + flp i)) + fl (fl (1 - r) * pic i)) -
        ∑ i : Fin ps.length, (r * (ps[i].v a + flp i) + (1 - r) * pic i)| ≤
        ∑ i : Fin ps.length, 6 * u * (|ps[i].v a| + |flp i| + |pic i|) := by
      rw [← Finset.sum_sub_distrib]
      exact (Finset.abs_sum_le_sum_abs _ _).trans (Finset.sum_le_sum fun i _ => blend_err hs.rnd h0 h1)
    have h3 : ∑ i : Fin ps.length, |ps[i].v a| ≤ n * M := by
      have : ∀ i ∈ (Finset.univ : Finset (Fin ps.length)), |ps[i].v a| ≤ M := by
        intro i _
        have := hM _ (List.getElem_mem i.2) ps[i].x fun b => by simp only [Fin.getElem_fin, sub_self, abs_zero]; positivity
        refine le_trans ?_ this
        split_ifs
        · exact le_add_of_nonneg_right (by positivity)
        · simp
      refine (Finset.sum_le_sum this).trans (le_of_eq ?_)
      rw [Finset.sum_const, Finset.card_univ, Fintype.card_fin, nsmul_eq_mul]
    have h4 : ∑ i : Fin ps.length, 6 * u * (|ps[i].v a| + |flp i| + |pic i|) ≤ 6 * u * (n * (62 * B)) := by
      rw [← Finset.mul_sum]
      refine mul_le_mul_of_nonneg_left ?_ (by positivity)
      rw [Finset.sum_add_distrib, Finset.sum_add_distrib]
      have h5 := mul_le_mul_of_nonneg_left hBB hn0
      have h6 : n * M ≤ n * B := mul_le_mul_of_nonneg_left (by rw [hB]; linarith [abs_nonneg γ]) hn0
      linarith
    have e3 : ∑ i : Fin ps.length, (r * (ps[i].v a + flp i) + (1 - r) * pic i) - (S + n * γ) =
        r * (∑ i, flp i - n * γ) + (1 - r) * (∑ i, pic i - (S + n * γ)) := by
      rw [Finset.sum_add_distrib, ← Finset.mul_sum, ← Finset.mul_sum, Finset.sum_add_distrib]
      ring
    have h5 : |∑ i : Fin ps.length, (r * (ps[i].v a + flp i) + (1 - r) * pic i) - (S + n * γ)| ≤ ρ := by
      rw [e3]
      refine (abs_add_le _ _).trans ?_
      rw [abs_mul, abs_mul, abs_of_nonneg h0, abs_of_nonneg (by linarith : 0 ≤ 1 - r)]
      have := mul_le_mul_of_nonneg_left Q1 h0
      have := mul_le_mul_of_nonneg_left P1 (by linarith : 0 ≤ 1 - r)
      linarith
    have h6 := abs_add_le (∑ i : Fin ps.length, fl (fl (r * fl (ps[i].v a + flp i)) + fl (fl (1 - r) * pic i)) -
        ∑ i : Fin ps.length, (r * (ps[i].v a + flp i) + (1 - r) * pic i))
      (∑ i : Fin ps.length, (r * (ps[i].v a + flp i) + (1 - r) * pic i) - (S + n * γ))
    rw [sub_add_sub_cancel] at h6
    linarith
  by_cases c1 : P.flipRatio < -1
  · simp only [blendFl, if_pos c1]
    refine P1.trans (le_add_of_nonneg_right (by positivity))
  · by_cases c2 : P.flipRatio < 0
    · simp only [blendFl, if_neg c1, if_pos c2]
      exact hmix (-P.flipRatio) (by linarith) (by linarith)
    · simp only [blendFl, if_neg c1, if_neg c2]
      exact hmix P.flipRatio (by linarith) hratio

end main

/-! ### A concrete case -/

namespace RoundEx

/-- A particle of the example, under stress and with an affine part. -/
noncomputable def sp (x y vx vy m t : ℝ) : Particle 2 ℝ :=
  { rp x y vx vy m with tau := !![t, 1; 1, -t], Bmat := !![1 / 1000, 0; 0, 1 / 1000] }

/-- The particles of C100's example, under stress. -/
noncomputable def sps : List (Particle 2 ℝ) :=
  [sp 0 (3 / 10) 1 0 (1 / 2) 2, sp (3 / 10) 1 2 (-1) (2 / 5) (-3), sp 1 0 (3 / 2) 1 (3 / 5) 0]

/-- The transfers of the default setting, a blend of FLIP with an affine part. -/
noncomputable def sP : TransferParams ℝ := mkTransferParams .two (1 / 10) (-19 / 20) true 1 (1 / 1000)

lemma sps_at : rAt sps := by
  refine ⟨rfl, fun p hp a => ?_⟩
  simp only [sps, List.mem_cons, List.not_mem_nil, or_false] at hp
  rcases hp with rfl | rfl | rfl <;> fin_cases a <;> simp [sp, rp]

lemma s_apic : sP.flipRatio < 0 := by norm_num [sP, mkTransferParams]

lemma s_dinv : sP.apicDinverse = 400 ∧ sP.dx = 1 / 10 := by constructor <;> norm_num [sP, mkTransferParams]

lemma s_speed : SpeedBound sP sps 0 3 := by
  intro p hp X hX
  rw [if_pos s_apic, s_dinv.1]
  have h0 := hX 0
  rw [s_dinv.2] at h0
  simp only [sps, List.mem_cons, List.not_mem_nil, or_false] at hp
  have hB : p.Bmat 0 0 = 1 / 1000 ∧ p.Bmat 0 1 = 0 := by rcases hp with rfl | rfl | rfl <;> simp [sp]
  have hv : |p.v 0| ≤ 2 := by rcases hp with rfl | rfl | rfl <;> simp [sp, rp] <;> norm_num [abs_le]
  rw [Fin.sum_univ_two, hB.1, hB.2, zero_mul, abs_zero, add_zero, abs_mul, abs_of_pos (by norm_num : (0 : ℝ) < 1 / 1000),
    abs_of_pos (by norm_num : (0 : ℝ) < 400)]
  linarith

lemma s_stress : StressBound sps 0 4 := by
  intro p hp
  simp only [sps, List.mem_cons, List.not_mem_nil, or_false] at hp
  rw [Fin.sum_univ_two]
  rcases hp with rfl | rfl | rfl <;> simp [sp] <;> norm_num

/-- The theorem applies to a step of these particles with one thread: stresses up to 4, time step 1/10000, gravity 10. -/
example : ∃ nodes ai, axisInitFl (trunc 52) (1 / 10) 2 none [0, 3 / 10, 1] = some ai ∧
    axisInitNodesFl (trunc 52) 80 (1 / 10) ai = some nodes ∧
    ∃ vs, velocitiesFl (trunc 52) sP (1 / 10000) ![10, 0] (fun _ : Fin 2 => nodes) [sps] sps = some vs ∧ vs.length = 3 ∧
      |(vs.map fun v => v 0).sum - (9 / 2 + 3 * (1 / 1000))| ≤ 5 / 10 ^ 8 := by
  have hr : Rounding (1 / 2 ^ 52) (trunc 52) := (trunc_floats (by norm_num)).toRounding
  obtain ⟨ai, nodes, h1, h2, h3⟩ := C99_first_step (dx := 1 / 10) (B := 2) (xs := [0, 3 / 10, 1]) hr (by norm_num) (by norm_num)
    cells_small none (by simp) (by intro y hy; simp at hy; rcases hy with rfl | rfl | rfl <;> norm_num)
  have hs : Setting (1 / 2 ^ 52) (trunc 52) sP (40 * (1 / 2 ^ 52 * (2 / (1 / 10)) ^ 2)) (fun _ : Fin 2 => nodes) sps 2 :=
    ⟨hr, by norm_num [sP, mkTransferParams], by norm_num, by norm_num, by norm_num,
      fun p hpp a => by rw [s_dinv.2]; exact h3 _ (sps_at.2 p hpp a), by rw [sps_at.1]; norm_num⟩
  obtain ⟨vs, hv, hl, hb⟩ := C119_momentum hs (ts := [sps]) (by simp) (by simp) (by simp [sP, mkTransferParams])
    (by norm_num [sP, mkTransferParams]) (by norm_num [sP, mkTransferParams]) (by norm_num [sP, mkTransferParams])
    (by norm_num : (0 : ℝ) ≤ 1 / 10000) ![10, 0] s_speed s_stress
  refine ⟨nodes, ai, h1, h2 80 (by norm_num), vs, hv, hl.trans sps_at.1, ?_⟩
  have e1 : (sps.map fun p => p.v 0).sum = 9 / 2 := by simp [sps, sp, rp]; norm_num
  rw [e1, sps_at.1, s_dinv.2] at hb
  have e2 : sP.particleVolume = 1 / 1000 ∧ sP.particleMass = 1 := by constructor <;> norm_num [sP, mkTransferParams]
  rw [e2.1, e2.2] at hb
  have e3 : (1 / 10000 : ℝ) * (![10, 0] : Fin 2 → ℝ) 0 = 1 / 1000 := by norm_num
  rw [e3, abs_of_pos (by norm_num : (0 : ℝ) < 1 / 1000)] at hb
  refine le_trans (le_of_eq ?_) (hb.trans ?_)
  · norm_num
  · norm_num

end RoundEx

end Verif.Props
