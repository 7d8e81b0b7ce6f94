import Verif.Model.Round
import Mathlib.Data.Int.Log

/-!
# Rounded arithmetic

`Rounding u fl`: every rounding has a relative error of at most `u`. `Floats u fl S`: in addition `S` is the set of
representable numbers, results are representable, representable numbers are not changed, and the difference of two
representable numbers within a factor of two of each other is representable. IEEE 754 arithmetic has these properties as
long as nothing overflows or underflows; `trunc_floats` shows that binary numbers with `p + 1` digits, rounded towards
zero, have them.
-/

set_option linter.unusedSectionVars false
set_option linter.unusedVariables false

namespace Verif

/-- The relative error of a rounding is at most `u`. -/
structure Rounding (u : ℝ) (fl : ℝ → ℝ) : Prop where
  nonneg : 0 ≤ u
  small : u ≤ 1 / 1000
  err : ∀ x, |fl x - x| ≤ u * |x|

/-- Rounding to a set of representable numbers. -/
structure Floats (u : ℝ) (fl : ℝ → ℝ) (S : Set ℝ) : Prop extends Rounding u fl where
  mem : ∀ x, fl x ∈ S
  exact : ∀ x ∈ S, fl x = x
  sterbenz : ∀ x ∈ S, ∀ y ∈ S, y / 2 ≤ x → x ≤ 2 * y → x - y ∈ S

namespace Rounding
variable {u : ℝ} {fl : ℝ → ℝ}

lemma ge (h : Rounding u fl) {x : ℝ} (hx : 0 ≤ x) : x - u * x ≤ fl x := by
  have := (abs_le.mp (h.err x)).1; rw [abs_of_nonneg hx] at this; linarith

lemma le (h : Rounding u fl) {x : ℝ} (hx : 0 ≤ x) : fl x ≤ x + u * x := by
  have := (abs_le.mp (h.err x)).2; rw [abs_of_nonneg hx] at this; linarith

lemma nonneg' (h : Rounding u fl) {x : ℝ} (hx : 0 ≤ x) : 0 ≤ fl x := by
  have := h.ge hx; nlinarith [h.small]

lemma zero (h : Rounding u fl) : fl 0 = 0 := by
  have := h.err 0; simpa using this

lemma neg_of (h : Rounding u fl) {x : ℝ} (hx : x < 0) : fl x < 0 := by
  have := (abs_le.mp (h.err x)).2; rw [abs_of_neg hx] at this; nlinarith [h.small]

/-- A rounded number that is positive comes from a positive number. -/
lemma pos_of (h : Rounding u fl) {x : ℝ} (hx : 0 < fl x) : 0 < x := by
  by_contra hc
  rcases eq_or_lt_of_le (not_lt.mp hc) with h0 | h0
  · rw [h0, h.zero] at hx; exact lt_irrefl _ hx
  · exact absurd (h.neg_of h0) (not_lt.mpr hx.le)

lemma id_rounding : Rounding 0 id := ⟨le_rfl, by norm_num, fun x => by simp⟩

end Rounding

/-! ### Binary numbers with `p + 1` digits, rounded towards zero -/

noncomputable section

/-- The spacing exponent of the numbers with `p + 1` binary digits around `x`. -/
def spacing (p : ℕ) (x : ℝ) : ℤ := Int.log 2 |x| - p

/-- Rounding towards zero to `p + 1` binary digits. -/
def trunc (p : ℕ) (x : ℝ) : ℝ :=
  if 0 ≤ x then ⌊|x| / 2 ^ spacing p x⌋ * (2 : ℝ) ^ spacing p x else -(⌊|x| / 2 ^ spacing p x⌋ * (2 : ℝ) ^ spacing p x)

/-- Numbers with at most `p + 1` binary digits. -/
def Digits (p : ℕ) : Set ℝ := {x | ∃ m e : ℤ, |m| < 2 ^ (p + 1) ∧ x = m * (2 : ℝ) ^ e}

lemma trunc_zero (p : ℕ) : trunc p 0 = 0 := by simp [trunc]

lemma trunc_neg (p : ℕ) {x : ℝ} (hx : 0 < x) : trunc p (-x) = -trunc p x := by
  have : spacing p (-x) = spacing p x := by rw [spacing, spacing, abs_neg]
  rw [trunc, trunc, if_pos hx.le, if_neg (by linarith), this, abs_neg]

lemma digits_neg {p : ℕ} {x : ℝ} (h : x ∈ Digits p) : -x ∈ Digits p := by
  obtain ⟨m, e, hm, rfl⟩ := h
  exact ⟨-m, e, by rwa [abs_neg], by push_cast; ring⟩

lemma trunc_pos_bounds (p : ℕ) {x : ℝ} (hx : 0 < x) :
    x - x / 2 ^ p ≤ trunc p x ∧ trunc p x ≤ x ∧ trunc p x ∈ Digits p := by
  have hs : (0 : ℝ) < 2 ^ spacing p x := zpow_pos (by norm_num) _
  have e : trunc p x = ⌊x / 2 ^ spacing p x⌋ * (2 : ℝ) ^ spacing p x := by
    rw [trunc, if_pos hx.le, abs_of_pos hx]
  have h1 := Int.floor_le (x / (2 : ℝ) ^ spacing p x)
  have h2 := Int.lt_floor_add_one (x / (2 : ℝ) ^ spacing p x)
  have hlow : ((2 : ℕ) : ℝ) ^ Int.log 2 x ≤ x := Int.zpow_log_le_self (by norm_num) hx
  have hhigh : x < ((2 : ℕ) : ℝ) ^ (Int.log 2 x + 1) := Int.lt_zpow_succ_log_self (by norm_num) x
  have hsp : spacing p x = Int.log 2 x - p := by rw [spacing, abs_of_pos hx]
  have hsp' : (2 : ℝ) ^ spacing p x = 2 ^ Int.log 2 x / 2 ^ p := by
    rw [hsp, zpow_sub₀ (by norm_num), zpow_natCast]
  push_cast at hlow hhigh
  refine ⟨?_, ?_, ?_⟩
  · rw [e]
    have h3 : x < (⌊x / (2 : ℝ) ^ spacing p x⌋ + 1) * 2 ^ spacing p x := (div_lt_iff₀ hs).mp h2
    have h4 : (2 : ℝ) ^ spacing p x ≤ x / 2 ^ p := by
      rw [hsp']; exact div_le_div_of_nonneg_right hlow (by positivity)
    nlinarith
  · rw [e]; exact (le_div_iff₀ hs).mp h1
  · refine ⟨⌊x / (2 : ℝ) ^ spacing p x⌋, spacing p x, ?_, e⟩
    have h0 : (0 : ℤ) ≤ ⌊x / (2 : ℝ) ^ spacing p x⌋ := Int.floor_nonneg.mpr (by positivity)
    rw [abs_of_nonneg h0, Int.floor_lt]
    push_cast
    rw [div_lt_iff₀ hs, hsp', ← mul_div_assoc, lt_div_iff₀ (by positivity)]
    rw [zpow_add₀ (by norm_num), zpow_one] at hhigh
    have : (0 : ℝ) < 2 ^ p := by positivity
    rw [pow_succ]
    nlinarith

lemma trunc_exact (p : ℕ) {x : ℝ} (hx : 0 < x) (h : x ∈ Digits p) : trunc p x = x := by
  obtain ⟨m, e, hm, hxe⟩ := h
  have h2e : (0 : ℝ) < 2 ^ e := zpow_pos (by norm_num) _
  have hmpos : 0 < m := by
    rw [hxe] at hx
    have := pos_of_mul_pos_left hx h2e.le
    exact_mod_cast this
  rw [abs_of_pos hmpos] at hm
  have hsp : spacing p x ≤ e := by
    have hlt : x < ((2 : ℕ) : ℝ) ^ (e + (p + 1 : ℕ)) := by
      rw [hxe]; push_cast
      rw [zpow_add₀ (by norm_num), mul_comm]
      refine mul_lt_mul_of_pos_left ?_ h2e
      have : (m : ℝ) < ((2 ^ (p + 1) : ℤ) : ℝ) := by exact_mod_cast hm
      push_cast at this
      exact_mod_cast this
    have := (Int.lt_zpow_iff_log_lt (b := 2) (by norm_num) hx).mp hlt
    rw [spacing, abs_of_pos hx]; push_cast at this; omega
  have hs : (0 : ℝ) < 2 ^ spacing p x := zpow_pos (by norm_num) _
  obtain ⟨k, hk⟩ := Int.eq_ofNat_of_zero_le (sub_nonneg.mpr hsp)
  have hdiv : x / (2 : ℝ) ^ spacing p x = ((m * 2 ^ k : ℤ) : ℝ) := by
    have h3 : (2 : ℝ) ^ e = 2 ^ k * 2 ^ spacing p x := by
      rw [← zpow_natCast, ← zpow_add₀ (by norm_num)]; congr 1; omega
    rw [div_eq_iff hs.ne']
    push_cast
    rw [mul_assoc, ← h3, ← hxe]
  rw [trunc, if_pos hx.le, abs_of_pos hx, hdiv, Int.floor_intCast, ← hdiv, div_mul_cancel₀ _ hs.ne']

lemma digits_zero (p : ℕ) : (0 : ℝ) ∈ Digits p := ⟨0, 0, by positivity, by simp⟩

lemma digits_sub {p : ℕ} {x y : ℝ} (hx : x ∈ Digits p) (hy : y ∈ Digits p) (h1 : y / 2 ≤ x) (h2 : x ≤ 2 * y) :
    x - y ∈ Digits p := by
  obtain ⟨a, e, ha, hxe⟩ := hx
  obtain ⟨b, f, hb, hyf⟩ := hy
  have hyn : 0 ≤ y := by linarith
  have hxn : 0 ≤ x := by linarith
  have hax : |x - y| ≤ x := abs_le.mpr ⟨by linarith, by linarith⟩
  have hay : |x - y| ≤ y := abs_le.mpr ⟨by linarith, by linarith⟩
  rcases le_total e f with h | h
  · obtain ⟨k, hk⟩ := Int.eq_ofNat_of_zero_le (sub_nonneg.mpr h)
    have hd : x - y = ((a - b * 2 ^ k : ℤ) : ℝ) * 2 ^ e := by
      have : (2 : ℝ) ^ f = 2 ^ k * 2 ^ e := by
        rw [← zpow_natCast, ← zpow_add₀ (by norm_num)]; congr 1; omega
      rw [hxe, hyf, this]; push_cast; ring
    have hp : (0 : ℝ) < 2 ^ e := zpow_pos (by norm_num) _
    refine ⟨_, e, ?_, hd⟩
    refine lt_of_le_of_lt ?_ ha
    have h3 : |x - y| ≤ |x| := hax.trans (le_abs_self x)
    rw [hd, hxe, abs_mul, abs_mul, abs_of_pos hp] at h3
    have := le_of_mul_le_mul_right h3 hp
    exact_mod_cast this
  · obtain ⟨k, hk⟩ := Int.eq_ofNat_of_zero_le (sub_nonneg.mpr h)
    have hd : x - y = ((a * 2 ^ k - b : ℤ) : ℝ) * 2 ^ f := by
      have : (2 : ℝ) ^ e = 2 ^ k * 2 ^ f := by
        rw [← zpow_natCast, ← zpow_add₀ (by norm_num)]; congr 1; omega
      rw [hxe, hyf, this]; push_cast; ring
    have hp : (0 : ℝ) < 2 ^ f := zpow_pos (by norm_num) _
    refine ⟨_, f, ?_, hd⟩
    refine lt_of_le_of_lt ?_ hb
    have h3 : |x - y| ≤ |y| := hay.trans (le_abs_self y)
    rw [hd, hyf, abs_mul, abs_mul, abs_of_pos hp] at h3
    have := le_of_mul_le_mul_right h3 hp
    exact_mod_cast this

/-- Binary numbers with more than ten digits, rounded towards zero. -/
theorem trunc_floats {p : ℕ} (hp : 10 ≤ p) : Floats (1 / 2 ^ p) (trunc p) (Digits p) where
  nonneg := by positivity
  small := by
    have : (2 : ℝ) ^ 10 ≤ 2 ^ p := pow_le_pow_right₀ (by norm_num) hp
    exact one_div_le_one_div_of_le (by norm_num) (by norm_num at this ⊢; linarith)
  err x := by
    rcases lt_trichotomy x 0 with h | h | h
    · obtain ⟨h1, h2, _⟩ := trunc_pos_bounds p (neg_pos.mpr h)
      have e : trunc p x = -trunc p (-x) := by rw [← trunc_neg p (neg_pos.mpr h), neg_neg]
      rw [e, abs_of_neg h, abs_of_nonneg (by linarith)]
      have : (1 : ℝ) / 2 ^ p * -x = -x / 2 ^ p := by ring
      rw [this]; linarith
    · rw [h, trunc_zero]; simp
    · obtain ⟨h1, h2, _⟩ := trunc_pos_bounds p h
      rw [abs_of_pos h, abs_of_nonpos (by linarith)]
      have : (1 : ℝ) / 2 ^ p * x = x / 2 ^ p := by ring
      rw [this]; linarith
  mem x := by
    rcases lt_trichotomy x 0 with h | h | h
    · have e : trunc p x = -trunc p (-x) := by rw [← trunc_neg p (neg_pos.mpr h), neg_neg]
      rw [e]; exact digits_neg (trunc_pos_bounds p (neg_pos.mpr h)).2.2
    · rw [h, trunc_zero]; exact digits_zero p
    · exact (trunc_pos_bounds p h).2.2
  exact x hx := by
    rcases lt_trichotomy x 0 with h | h | h
    · have e : trunc p x = -trunc p (-x) := by rw [← trunc_neg p (neg_pos.mpr h), neg_neg]
      rw [e, trunc_exact p (neg_pos.mpr h) (digits_neg hx), neg_neg]
    · rw [h, trunc_zero]
    · exact trunc_exact p h hx
  sterbenz x hx y hy := digits_sub hx hy

end
end Verif
