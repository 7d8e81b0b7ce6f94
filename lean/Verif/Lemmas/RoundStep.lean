import Verif.Model.RoundStep
import Verif.Lemmas.RoundTransfer
import Verif.Lemmas.RoundGrid
import Verif.Lemmas.Spline

set_option linter.unusedSectionVars false
set_option linter.unusedSimpArgs false
set_option linter.unusedVariables false

/-!
# Rounded derivatives of the splines
-/

namespace Verif
variable {d : ℕ} {u : ℝ} {fl : ℝ → ℝ}

/-- The derivative of a spline is a difference of splines of lower degree. -/
lemma dN2_hats (t : ℝ) : dN2 t = N1 (t + 1 / 2) - N1 (t - 1 / 2) := by
  simp only [dN2, N1]
  rcases lt_trichotomy t 0 with h | h | h
  · rw [sgn_neg h, abs_of_neg h, abs_of_neg (by linarith : t - 1 / 2 < 0)]
    rcases le_total 0 (t + 1 / 2) with h1 | h1
    · rw [abs_of_nonneg h1, max_eq_right (by linarith), max_eq_right (by linarith)]
      split_ifs <;> linarith
    · rw [abs_of_nonpos h1, max_eq_left (by linarith : 1 - -(t - 1 / 2) ≤ 0)]
      split_ifs with h2 h3
      · linarith
      · rw [max_eq_right (by linarith)]; linarith
      · rw [max_eq_left (by linarith)]; linarith
  · subst h
    norm_num [sgn]
  · rw [sgn_pos h, abs_of_pos h, abs_of_pos (by linarith : 0 < t + 1 / 2)]
    rcases le_total 0 (t - 1 / 2) with h1 | h1
    · rw [abs_of_nonneg h1, max_eq_left (by linarith : 1 - (t + 1 / 2) ≤ 0)]
      split_ifs with h2 h3
      · linarith
      · rw [max_eq_right (by linarith)]; linarith
      · rw [max_eq_left (by linarith)]; linarith
    · rw [abs_of_nonpos h1, max_eq_right (by linarith), max_eq_right (by linarith)]
      split_ifs <;> linarith

lemma dN3_quadratics (t : ℝ) : dN3 t = N2 (t + 1 / 2) - N2 (t - 1 / 2) := by
  have key : ∀ t : ℝ, 0 < t → dN3 t = N2 (t + 1 / 2) - N2 (t - 1 / 2) := by
    intro t h
    simp only [dN3, N2]
    rw [sgn_pos h, abs_of_pos h, abs_of_pos (by linarith : 0 < t + 1 / 2), if_neg (by linarith : ¬ t + 1 / 2 < 1 / 2)]
    by_cases h1 : t < 1
    · have h2 : |t - 1 / 2| < 1 / 2 := by rw [abs_lt]; constructor <;> linarith
      rw [if_pos h1, if_pos (by linarith : t + 1 / 2 < 3 / 2), if_pos h2, abs_mul_abs_self]
      ring
    · rw [not_lt] at h1
      rw [abs_of_pos (by linarith : 0 < t - 1 / 2), if_neg (by linarith : ¬ t < 1), if_neg (by linarith : ¬ t + 1 / 2 < 3 / 2),
        if_neg (by linarith : ¬ t - 1 / 2 < 1 / 2)]
      by_cases h2 : t < 2
      · rw [if_pos h2, if_pos (by linarith)]; ring
      · rw [if_neg h2, if_neg (by linarith)]; ring
  have even : ∀ t : ℝ, N2 (-t) = N2 t := fun t => by simp only [N2, abs_neg]
  rcases lt_trichotomy t 0 with h | h | h
  · have h1 := key (-t) (by linarith)
    have h2 : dN3 (-t) = -dN3 t := by
      simp only [dN3, abs_neg]
      rw [sgn_neg h, sgn_pos (by linarith : 0 < -t)]
      split_ifs <;> ring
    rw [h2, show -t + 1 / 2 = -(t - 1 / 2) by ring, show -t - 1 / 2 = -(t + 1 / 2) by ring, even, even] at h1
    linarith
  · subst h
    norm_num [dN3, N2]
  · exact key t h

lemma dNdu_lipschitz {deg : Deg} (hd : deg ≠ .one) (s t : ℝ) : |dNdu deg s - dNdu deg t| ≤ 2 * |s - t| := by
  have key : ∀ {f : ℝ → ℝ}, (∀ s t, |f s - f t| ≤ |s - t|) →
      |f (s + 1 / 2) - f (s - 1 / 2) - (f (t + 1 / 2) - f (t - 1 / 2))| ≤ 2 * |s - t| := by
    intro f hf
    have h1 := hf (s + 1 / 2) (t + 1 / 2)
    have h2 := hf (s - 1 / 2) (t - 1 / 2)
    rw [show s + 1 / 2 - (t + 1 / 2) = s - t by ring] at h1
    rw [show s - 1 / 2 - (t - 1 / 2) = s - t by ring] at h2
    rw [show f (s + 1 / 2) - f (s - 1 / 2) - (f (t + 1 / 2) - f (t - 1 / 2)) =
      (f (s + 1 / 2) - f (t + 1 / 2)) - (f (s - 1 / 2) - f (t - 1 / 2)) by ring]
    exact (abs_sub _ _).trans (by linarith)
  cases deg with
  | one => exact absurd rfl hd
  | two =>
    show |dN2 s - dN2 t| ≤ _
    rw [dN2_hats, dN2_hats]
    exact key (N_lipschitz .one)
  | three =>
    show |dN3 s - dN3 t| ≤ _
    rw [dN3_quadratics, dN3_quadratics]
    exact key (N_lipschitz .two)

lemma abs_sgn_le (t : ℝ) : |sgn t| ≤ 1 := by
  rcases lt_trichotomy t 0 with h | h | h
  · rw [sgn_neg h]; norm_num
  · rw [h, sgn_zero]; norm_num
  · rw [sgn_pos h]; norm_num

/-- In the outer part the derivative of the quadratic spline is the distance to the end. -/
lemma outer_two {x : ℝ} (h1 : 1 / 2 ≤ |x|) (h2 : |x| < 3 / 2) : |x - 3 / 2 * sgn x| = 3 / 2 - |x| := by
  rcases lt_trichotomy x 0 with h | h | h
  · rw [sgn_neg h, abs_of_neg h, abs_of_nonneg]; · ring
    rw [abs_of_neg h] at h2; linarith
  · rw [h, abs_zero] at h1; norm_num at h1
  · rw [sgn_pos h, abs_of_pos h, abs_of_nonpos]; · ring
    rw [abs_of_pos h] at h2; linarith

lemma dNFl_err (hr : Rounding u fl) {deg : Deg} (hd : deg ≠ .one) (x : ℝ) : |dNFl fl deg x - dNdu deg x| ≤ 25 * u := by
  have hu := hr.nonneg
  have hus := hr.small
  have ha := abs_nonneg x
  cases deg with
  | one => exact absurd rfl hd
  | two =>
    show |dN2Fl fl x - dN2 x| ≤ _
    rw [dN2Fl, dN2]
    split_ifs with h1 h2
    · simp; linarith
    · refine (hr.err _).trans ?_
      rw [outer_two (not_lt.mp h1) h2]
      nlinarith [not_lt.mp h1]
    · simp; linarith
  | three =>
    show |dN3Fl fl x - dN3 x| ≤ _
    rw [dN3Fl, dN3]
    split_ifs with h1 h2
    · have e0 : Near u 0 |x| |x| |x| := by have := Near.exact (u := u) |x|; rwa [abs_abs] at this
      have n1 := (Near.exact (u := u) (3 / 2)).mul hr e0
      have n2 := n1.sub hr ((Near.exact (u := u) 2).mono hu (by omega))
      have n3 := ((Near.exact (u := u) x).mul hr n2).simple hu (by push_cast; linarith)
      refine n3.trans ?_
      rw [abs_of_pos (by norm_num : (0 : ℝ) < 3 / 2), abs_of_pos (by norm_num : (0 : ℝ) < 2)]
      push_cast
      have h3 : |x| * (3 / 2 * |x| + 2) ≤ 7 / 2 := by nlinarith
      have := mul_le_mul_of_nonneg_left h3 hu
      linarith
    · rw [not_lt] at h1
      have ht : 0 ≤ 2 - |x| := by linarith
      have n0 : Near u 1 (2 - |x|) (2 - |x|) (fl (2 - |x|)) := by
        have := (Near.exact (u := u) (2 - |x|)).round hr
        rwa [abs_of_nonneg ht] at this
      have n1 := ((Near.exact (u := u) (-1 / 2 * sgn x)).mul hr n0).mul hr n0
      have n2 := n1.simple hu (by push_cast; linarith)
      rw [show -(1 / 2) * sgn x * (2 - |x|) * (2 - |x|) = -1 / 2 * sgn x * (2 - |x|) * (2 - |x|) by ring]
      refine n2.trans ?_
      push_cast
      have hs : |-1 / 2 * sgn x| ≤ 1 / 2 := by
        rw [abs_mul]; norm_num; linarith [abs_sgn_le x]
      have h3 : |-1 / 2 * sgn x| * (2 - |x|) * (2 - |x|) ≤ 1 / 2 := by
        have h4 : (2 - |x|) * (2 - |x|) ≤ 1 := by nlinarith
        have := mul_le_mul hs h4 (by positivity) (by norm_num)
        linarith
      have := mul_le_mul_of_nonneg_left h3 hu
      linarith
    · simp; linarith

lemma dNFl_le (hr : Rounding u fl) {deg : Deg} (hd : deg ≠ .one) (x : ℝ) : |dNFl fl deg x| ≤ 1 + 25 * u := by
  have h1 := dNFl_err hr hd x
  have h2 := abs_dNdu_le deg hd x
  have := abs_add_le (dNFl fl deg x - dNdu deg x) (dNdu deg x)
  rw [sub_add_cancel] at this
  linarith

/-- Where the weight is small, the derivative is small. -/
lemma dNFl_sq (hr : Rounding u fl) {deg : Deg} (hd : deg ≠ .one) (x : ℝ) : dNFl fl deg x ^ 2 ≤ 4 * NFl fl deg x := by
  have hu := hr.nonneg
  have hus := hr.small
  have ha := abs_nonneg x
  cases deg with
  | one => exact absurd rfl hd
  | two =>
    show dN2Fl fl x ^ 2 ≤ 4 * N2Fl fl x
    by_cases h1 : |x| < 1 / 2
    · have h2 := (abs_le.mp (N2Fl_err hr x).1).1
      have h3 : N2 x = 3 / 4 - |x| * |x| := by simp only [N2, if_pos h1]
      have h4 : dN2Fl fl x ^ 2 = 4 * (|x| * |x|) := by rw [dN2Fl, if_pos h1, abs_mul_abs_self]; ring
      rw [h4]
      nlinarith
    · by_cases h2 : |x| < 3 / 2
      · rw [dN2Fl, N2Fl, if_neg h1, if_neg h1, if_pos h2, if_pos h2]
        have ht : 0 < 3 / 2 - |x| := by linarith
        set t := 3 / 2 - |x| with htdef
        have hD : |fl (x - 3 / 2 * sgn x)| ≤ (1 + u) * t := by
          have h3 := hr.err (x - 3 / 2 * sgn x)
          have h4 := outer_two (not_lt.mp h1) h2
          have := abs_add_le (fl (x - 3 / 2 * sgn x) - (x - 3 / 2 * sgn x)) (x - 3 / 2 * sgn x)
          rw [sub_add_cancel] at this
          rw [h4, ← htdef] at h3 this
          linarith
        have hs := hr.ge ht.le
        set s := fl t
        have hs0 : 0 ≤ s := by nlinarith
        have h5 := hr.ge (x := 1 / 2 * s) (by linarith)
        have h6 := hr.ge (x := fl (1 / 2 * s) * s) (mul_nonneg (by nlinarith) hs0)
        set q := fl (1 / 2 * s)
        have h7 : 999 / 1000 * t ≤ s := by nlinarith
        have h8 : 999 / 1000 * (1 / 2 * s) ≤ q := by nlinarith
        have h9 : 999 / 1000 * (q * s) ≤ fl (q * s) := by
          have : 0 ≤ q * s := mul_nonneg (by nlinarith) hs0
          nlinarith
        have h10 : 999 / 1000 * (1 / 2 * (999 / 1000 * t)) * (999 / 1000 * t) ≤ q * s := by
          refine mul_le_mul ?_ h7 (by nlinarith) (by nlinarith)
          nlinarith
        have h11 : |fl (x - 3 / 2 * sgn x)| ≤ 1001 / 1000 * t := hD.trans (by nlinarith)
        have h12 := mul_le_mul h11 h11 (abs_nonneg _) (by nlinarith)
        rw [abs_mul_abs_self] at h12
        nlinarith
      · rw [dN2Fl, N2Fl, if_neg h1, if_neg h1, if_neg h2, if_neg h2]; norm_num
  | three =>
    show dN3Fl fl x ^ 2 ≤ 4 * N3Fl fl x
    by_cases h1 : |x| < 1
    · have h2 := (abs_le.mp (N3Fl_err hr x).1).1
      have h3 : 1 / 6 ≤ N3 x := by
        simp only [N3, if_pos h1]; nlinarith [mul_nonneg ha (sq_nonneg (|x| - 1))]
      have h4 := dNFl_err hr (deg := .three) (by decide) x
      have h5 : |dN3 x| ≤ 2 / 3 := by
        simp only [dN3, if_pos h1]
        rw [abs_mul, abs_of_neg (by linarith : 3 / 2 * |x| - 2 < 0)]
        nlinarith [sq_nonneg (|x| - 2 / 3)]
      change |dN3Fl fl x - dN3 x| ≤ _ at h4
      have h6 := abs_add_le (dN3Fl fl x - dN3 x) (dN3 x)
      rw [sub_add_cancel] at h6
      have h7 : |dN3Fl fl x| ≤ 70 / 100 := by linarith
      rw [← sq_abs]
      nlinarith [abs_nonneg (dN3Fl fl x)]
    · by_cases h2 : |x| < 2
      · rw [dN3Fl, N3Fl, if_neg h1, if_neg h1, if_pos h2, if_pos h2]
        rw [not_lt] at h1
        have ht : 0 < 2 - |x| := by linarith
        have hs1 := hr.le ht.le
        have hs := hr.ge ht.le
        set s := fl (2 - |x|)
        have hs0 : 0 < s := by nlinarith
        have hs2 : s ≤ 1001 / 1000 := by nlinarith
        -- the derivative
        have d1 : |fl (-1 / 2 * sgn x * s)| ≤ 1001 / 1000 * (1 / 2 * s) := by
          have h3 := hr.err (-1 / 2 * sgn x * s)
          have h4 : |-1 / 2 * sgn x * s| ≤ 1 / 2 * s := by
            rw [abs_mul, abs_mul, abs_of_pos hs0]; norm_num; nlinarith [abs_sgn_le x]
          have := abs_add_le (fl (-1 / 2 * sgn x * s) - (-1 / 2 * sgn x * s)) (-1 / 2 * sgn x * s)
          rw [sub_add_cancel] at this
          nlinarith [abs_nonneg (-1 / 2 * sgn x * s)]
        set q := fl (-1 / 2 * sgn x * s)
        have d2 : |fl (q * s)| ≤ 1001 / 1000 * (1001 / 1000 * (1 / 2 * s) * s) := by
          have h3 := hr.err (q * s)
          have h4 : |q * s| ≤ 1001 / 1000 * (1 / 2 * s) * s := by
            rw [abs_mul, abs_of_pos hs0]; exact mul_le_mul_of_nonneg_right d1 hs0.le
          have := abs_add_le (fl (q * s) - q * s) (q * s)
          rw [sub_add_cancel] at this
          nlinarith [abs_nonneg (q * s)]
        -- the weight
        have w : ∀ {y z : ℝ}, 0 ≤ z → z ≤ y → 999 / 1000 * z ≤ fl y := by
          intro y z hz hy
          have := hr.ge (x := y) (hz.trans hy)
          nlinarith
        have w1 := w (z := 1 / 6) (by norm_num) le_rfl
        have w2 := w (z := 999 / 1000 * (1 / 6) * s) (by positivity) (mul_le_mul_of_nonneg_right w1 hs0.le)
        have w3 := w (z := 999 / 1000 * (999 / 1000 * (1 / 6) * s) * s) (by positivity) (mul_le_mul_of_nonneg_right w2 hs0.le)
        have w4 := w (z := 999 / 1000 * (999 / 1000 * (999 / 1000 * (1 / 6) * s) * s) * s) (by positivity)
          (mul_le_mul_of_nonneg_right w3 hs0.le)
        have d3 := mul_le_mul d2 d2 (abs_nonneg _) (by positivity)
        rw [abs_mul_abs_self] at d3
        refine le_trans (le_of_eq (by ring)) (d3.trans (le_trans ?_ (mul_le_mul_of_nonneg_left w4 (by norm_num))))
        have h9 : s * (s * s * s) ≤ 1001 / 1000 * (s * s * s) := mul_le_mul_of_nonneg_right hs2 (by positivity)
        have h10 : 0 ≤ s * s * s := by positivity
        nlinarith
      · rw [dN3Fl, N3Fl, if_neg h1, if_neg h1, if_neg h2, if_neg h2]; norm_num

/-- A product from the left, with factors of any sign. -/
lemma foldl_prod_abs (hr : Rounding u fl) : ∀ (ws : List ℝ) {k : ℕ} {S A x : ℝ}, Near u k S A x →
    Near u (k + ws.length) (S * ws.prod) (A * (ws.map abs).prod) (ws.foldl (fun p w => fl (p * w)) x)
  | [], k, S, A, x, h => by simpa using h
  | w :: ws, k, S, A, x, h => by
    have := foldl_prod_abs hr ws (h.mul hr (Near.exact w))
    rw [List.foldl_cons, List.prod_cons, List.map_cons, List.prod_cons, List.length_cons, ← mul_assoc, ← mul_assoc,
      show k + (ws.length + 1) = k + 0 + 1 + ws.length by ring]
    exact this

lemma prodFl_abs (hr : Rounding u fl) (ws : List ℝ) : Near u ws.length ws.prod (ws.map abs).prod (prodFl fl ws) := by
  cases ws with
  | nil => exact ⟨by simp [prodFl], by simp [prodFl]⟩
  | cons w ws =>
    have := foldl_prod_abs hr ws (Near.exact w)
    rw [List.prod_cons, List.map_cons, List.prod_cons, List.length_cons]
    exact this.mono hr.nonneg (by omega)

end Verif
