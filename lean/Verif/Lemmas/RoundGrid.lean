import Verif.Model.RoundGrid
import Verif.Lemmas.Round
import Verif.Lemmas.Remesh
import Verif.Lemmas.SplineDeriv
import Mathlib.Analysis.Calculus.MeanValue

/-!
# Nodes and stencils under rounding
-/

set_option linter.unusedSectionVars false
set_option linter.unusedVariables false

namespace Verif
variable {u : ℝ} {fl : ℝ → ℝ}

/-- The values of the loop variable of `arange`. -/
noncomputable def nodeFl (fl : ℝ → ℝ) (step start : ℝ) : ℕ → ℝ
  | 0 => start
  | i + 1 => fl (nodeFl fl step start i + step)

lemma nodeFl_succ (step start : ℝ) (i : ℕ) :
    nodeFl fl step (fl (start + step)) i = nodeFl fl step start (i + 1) := by
  induction i with
  | zero => rfl
  | succ i ih => rw [nodeFl, ih]; rfl

lemma arangeLoopFl_eq (step stop : ℝ) (n : ℕ) : ∀ (start : ℝ) (fuel : ℕ), n ≤ fuel →
    (∀ i < n, nodeFl fl step start i < stop) → ¬ nodeFl fl step start n < stop →
    arangeLoopFl fl fuel start stop step = some ((List.range n).map (nodeFl fl step start)) := by
  induction n with
  | zero =>
    intro start fuel _ _ hn
    have : ¬ start < stop := hn
    cases fuel with
    | zero => simp [arangeLoopFl, this]
    | succ fuel => simp [arangeLoopFl, this]
  | succ n ih =>
    intro start fuel hf hlt hn
    obtain ⟨fuel, rfl⟩ : ∃ k, fuel = k + 1 := ⟨fuel - 1, by omega⟩
    have h0 : start < stop := hlt 0 (by omega)
    rw [arangeLoopFl, if_pos h0, ih (fl (start + step)) fuel (by omega)
      (fun i hi => by rw [nodeFl_succ]; exact hlt (i + 1) (by omega)) (by rw [nodeFl_succ]; exact hn)]
    rw [Option.map_some, List.range_succ_eq_map, List.map_cons, List.map_map]
    congr 2
    exact List.map_congr_left fun i _ => nodeFl_succ step start i

/-- Rounded differences in cells. -/
lemma argFl_err (hr : Rounding u fl) {dx : ℝ} (hd : 0 < dx) (x y : ℝ) : |argFl fl dx x y - (x - y) / dx| ≤ 4 * u * |(x - y) / dx| := by
  have hu := hr.nonneg
  have hu1 := hr.small
  have h1 := hr.err (x - y)
  have h2 := hr.err (1 / dx)
  have h3 := hr.err (fl (x - y) * oneOverFl fl dx)
  simp only [argFl, oneOverFl] at h3 ⊢
  set D := x - y
  set I := 1 / dx with hI
  have hIp : 0 < I := one_div_pos.mpr hd
  rw [abs_of_pos hIp] at h2
  have e : D / dx = D * I := by rw [hI]; ring
  rw [e]
  set p := fl D - D with hp
  set q := fl I - I with hq
  have e1 : fl D = D + p := by rw [hp]; ring
  have e2 : fl I = I + q := by rw [hq]; ring
  rw [e1, e2] at h3 ⊢
  have a1 : |D * q| ≤ |D| * (u * I) := by rw [abs_mul]; exact mul_le_mul_of_nonneg_left h2 (abs_nonneg _)
  have a2 : |p * I| ≤ u * |D| * I := by rw [abs_mul, abs_of_pos hIp]; exact mul_le_mul_of_nonneg_right h1 hIp.le
  have a3 : |p * q| ≤ u * |D| * (u * I) := by
    rw [abs_mul]; exact mul_le_mul h1 h2 (abs_nonneg _) (by positivity)
  have hDI : |D * I| = |D| * I := by rw [abs_mul, abs_of_pos hIp]
  have e3 : (D + p) * (I + q) - D * I = D * q + p * I + p * q := by ring
  have hM0 : 0 ≤ |D| * I := by positivity
  have a4 : |(D + p) * (I + q) - D * I| ≤ (2 * u + u * u) * (|D| * I) := by
    rw [e3]
    refine (abs_add_three _ _ _).trans ?_
    nlinarith
  have a7 : u * u ≤ u / 1000 := by nlinarith
  set M := |D| * I with hM
  have a8 : u * u * M ≤ u / 1000 * M := mul_le_mul_of_nonneg_right a7 hM0
  have a9 : 0 ≤ u * M := mul_nonneg hu hM0
  have a5' : |(D + p) * (I + q)| ≤ (1 + 3 * u) * M := by
    have : (D + p) * (I + q) = ((D + p) * (I + q) - D * I) + D * I := by ring
    rw [this]
    refine (abs_add_le _ _).trans ?_
    rw [hDI]
    nlinarith
  have e4 : fl ((D + p) * (I + q)) - D * I =
      (fl ((D + p) * (I + q)) - (D + p) * (I + q)) + ((D + p) * (I + q) - D * I) := by ring
  rw [e4, hDI]
  refine (abs_add_le _ _).trans ?_
  have a6 := mul_le_mul_of_nonneg_left a5' hu
  nlinarith

/-- The cells and rounding errors: `B` bounds all coordinates, `B/dx` cells. -/
structure Cells (u : ℝ) (fl : ℝ → ℝ) (dx B : ℝ) : Prop where
  rnd : Rounding u fl
  hdx : 0 < dx
  big : 10 * dx ≤ B
  small : 1000 * (u * (B / dx) ^ 2) ≤ 1

namespace Cells
variable {dx B : ℝ}

lemma cells (h : Cells u fl dx B) : 10 ≤ B / dx := (le_div_iff₀ h.hdx).mpr h.big

lemma pos (h : Cells u fl dx B) : 0 < B := by linarith [h.big, h.hdx]

/-- `u B/dx` and `u` in terms of the small number. -/
lemma uk (h : Cells u fl dx B) : 10 * (u * (B / dx)) ≤ u * (B / dx) ^ 2 := by
  have := h.cells
  have hu := h.rnd.nonneg
  have h1 : u * (B / dx) * 10 ≤ u * (B / dx) * (B / dx) := mul_le_mul_of_nonneg_left this (by positivity)
  nlinarith

lemma u1 (h : Cells u fl dx B) : 10 * u ≤ u * (B / dx) := by
  have := h.cells
  nlinarith [h.rnd.nonneg]

lemma uB (h : Cells u fl dx B) : u * B = u * (B / dx) * dx := by
  have := h.hdx.ne'
  field_simp

/-- The nodes lie on the lattice up to rounding. -/
lemma node_err (h : Cells u fl dx B) {low : ℝ} (hlow : |low| ≤ 2 * B) (i : ℕ) (hi : (i : ℝ) ≤ 4 * (B / dx)) :
    |nodeFl fl dx low i - (low + i * dx)| ≤ i * (8 * (u * B)) := by
  have hu := h.rnd.nonneg
  have hd := h.hdx
  have hB := h.pos
  have hk := h.cells
  have hs := h.small
  have hk2 := h.uk
  induction i with
  | zero => simp [nodeFl]
  | succ i ih =>
    push_cast at hi
    have ih := ih (by linarith)
    have h1 := h.rnd.err (nodeFl fl dx low i + dx)
    have hidx : ((i : ℝ) + 1) * dx ≤ 4 * B := by
      have := mul_le_mul_of_nonneg_right hi hd.le
      rwa [mul_assoc, div_mul_cancel₀ _ hd.ne'] at this
    have hi0 : (0 : ℝ) ≤ i := Nat.cast_nonneg i
    have hsmall : (i : ℝ) * (8 * (u * B)) ≤ B := by
      have e : (i : ℝ) * (8 * (u * B)) ≤ 4 * (B / dx) * (8 * (u * B)) :=
        mul_le_mul_of_nonneg_right (by linarith) (by positivity)
      have e2 : 4 * (B / dx) * (8 * (u * B)) = 32 * (u * (B / dx)) * B := by ring
      rw [e2] at e
      nlinarith
    have h2 : |nodeFl fl dx low i + dx| ≤ 8 * B := by
      have e : nodeFl fl dx low i + dx = (nodeFl fl dx low i - (low + i * dx)) + (low + (i + 1) * dx) := by ring
      rw [e]
      refine (abs_add_le _ _).trans ?_
      have e3 : |low + ((i : ℝ) + 1) * dx| ≤ 2 * B + 4 * B := by
        refine (abs_add_le _ _).trans ?_
        rw [abs_of_nonneg (by positivity : 0 ≤ ((i : ℝ) + 1) * dx)]
        linarith
      linarith
    have h3 : u * |nodeFl fl dx low i + dx| ≤ u * (8 * B) := mul_le_mul_of_nonneg_left h2 hu
    have e4 : nodeFl fl dx low (i + 1) - (low + ((i + 1 : ℕ) : ℝ) * dx) =
        (fl (nodeFl fl dx low i + dx) - (nodeFl fl dx low i + dx)) + (nodeFl fl dx low i - (low + i * dx)) := by
      rw [nodeFl]; push_cast; ring
    rw [e4]
    refine (abs_add_le _ _).trans ?_
    push_cast
    linarith

/-- In cells. -/
lemma node_cells (h : Cells u fl dx B) {low : ℝ} (hlow : |low| ≤ 2 * B) (i : ℕ) (hi : (i : ℝ) ≤ 4 * (B / dx)) :
    |nodeFl fl dx low i - (low + i * dx)| ≤ 32 * (u * (B / dx) ^ 2) * dx := by
  refine (h.node_err hlow i hi).trans ?_
  have h1 : (i : ℝ) * (8 * (u * B)) ≤ 4 * (B / dx) * (8 * (u * B)) :=
    mul_le_mul_of_nonneg_right hi (by have := h.rnd.nonneg; have := h.pos; positivity)
  refine h1.trans (le_of_eq ?_)
  rw [h.uB]; ring

lemma arg_err (h : Cells u fl dx B) (x y : ℝ) : |argFl fl dx x y - (x - y) / dx| ≤ 4 * u * |(x - y) / dx| :=
  argFl_err h.rnd h.hdx x y

end Cells

/-! ### Lipschitz bound of the shape functions -/

lemma abs_dNdu_le (deg : Deg) (hd : deg ≠ .one) (t : ℝ) : |dNdu deg t| ≤ 1 := by
  have hsg : |sgn t| ≤ 1 := by
    rcases lt_trichotomy t 0 with h | h | h
    · rw [sgn_neg h]; norm_num
    · rw [h, sgn_zero]; norm_num
    · rw [sgn_pos h]; norm_num
  cases deg with
  | one => exact absurd rfl hd
  | two =>
    show |dN2 t| ≤ 1
    simp only [dN2]
    split_ifs with h1 h2
    · rw [abs_mul]; norm_num; linarith
    · rw [not_lt] at h1
      rcases lt_trichotomy t 0 with h | h | h
      · rw [sgn_neg h, abs_le]; rw [abs_of_neg h] at h1 h2; constructor <;> linarith
      · rw [h, abs_zero] at h1; norm_num at h1
      · rw [sgn_pos h, abs_le]; rw [abs_of_pos h] at h1 h2; constructor <;> linarith
    · norm_num
  | three =>
    show |dN3 t| ≤ 1
    simp only [dN3]
    split_ifs with h1 h2
    · rw [abs_mul]
      have h0 := abs_nonneg t
      have : |3 / 2 * |t| - 2| = 2 - 3 / 2 * |t| := by rw [abs_of_neg (by linarith)]; ring
      rw [this]; nlinarith [sq_nonneg (|t| - 2 / 3)]
    · rw [not_lt] at h1
      rw [abs_mul, abs_mul, abs_mul, abs_of_pos (by linarith : 0 < 2 - |t|)]
      norm_num
      have : |sgn t| * (2 - |t|) ≤ 1 * 1 := mul_le_mul hsg (by linarith) (by linarith) (by norm_num)
      nlinarith [abs_nonneg (sgn t)]
    · norm_num

lemma N_lipschitz (deg : Deg) (s t : ℝ) : |N deg s - N deg t| ≤ |s - t| := by
  by_cases hd : deg = .one
  · subst hd
    show |max 0 (1 - |s|) - max 0 (1 - |t|)| ≤ |s - t|
    rw [max_comm 0, max_comm 0]
    refine (abs_max_sub_max_le_abs _ _ _).trans ?_
    have e : 1 - |s| - (1 - |t|) = |t| - |s| := by ring
    rw [e, abs_sub_comm s t]
    exact abs_abs_sub_abs_le t s
  have hder : ∀ x : ℝ, HasDerivAt (N deg) (dNdu deg x) x := by
    intro x
    cases deg with
    | one => exact absurd rfl hd
    | two => exact hasDerivAt_N2 x
    | three => exact hasDerivAt_N3 x
  have := Convex.norm_image_sub_le_of_norm_hasDerivWithin_le (f := N deg) (f' := dNdu deg) (s := Set.univ) (C := 1)
    (x := t) (y := s) (fun (x : ℝ) _ => (hder x).hasDerivWithinAt) (fun x _ => by
      rw [Real.norm_eq_abs]; exact abs_dNdu_le deg hd x) convex_univ (Set.mem_univ _) (Set.mem_univ _)
  simpa [Real.norm_eq_abs] using this

end Verif
