import Verif.Lemmas.Spline
import Mathlib.Analysis.Calculus.Deriv.Pow
import Mathlib.Analysis.Calculus.Deriv.Comp
import Mathlib.Analysis.Calculus.Deriv.Add
import Mathlib.Analysis.Calculus.Deriv.Mul

/-! Derivatives of the splines over ℝ. -/

namespace Verif

lemma derivCast {f : ℝ → ℝ} {a b u : ℝ} (h : HasDerivAt f a u) (e : b = a) : HasDerivAt f b u :=
  e ▸ h

/-- Gluing two pieces at `u`. -/
lemma hasDerivAt_glue {f p q : ℝ → ℝ} {m a u c : ℝ} (h1 : a < u) (h2 : u < c)
    (hp : ∀ x, a ≤ x → x ≤ u → f x = p x) (hq : ∀ x, u ≤ x → x ≤ c → f x = q x)
    (dp : HasDerivAt p m u) (dq : HasDerivAt q m u) : HasDerivAt f m u := by
  have l : HasDerivWithinAt f m (Set.Iic u) u := by
    refine (dp.hasDerivWithinAt (s := Set.Iic u)).congr_of_eventuallyEq ?_ (hp u h1.le le_rfl)
    filter_upwards [self_mem_nhdsWithin, mem_nhdsWithin_of_mem_nhds (Ioi_mem_nhds h1)] with x hx hx'
    exact hp x (le_of_lt hx') hx
  have r : HasDerivWithinAt f m (Set.Ici u) u := by
    refine (dq.hasDerivWithinAt (s := Set.Ici u)).congr_of_eventuallyEq ?_ (hq u le_rfl h2.le)
    filter_upwards [self_mem_nhdsWithin, mem_nhdsWithin_of_mem_nhds (Iio_mem_nhds h2)] with x hx hx'
    exact hq x hx (le_of_lt hx')
  have := l.union r
  rwa [Set.Iic_union_Ici, hasDerivWithinAt_univ] at this

/-- Derivative of an even function from non-negative arguments. -/
lemma hasDerivAt_even {f f' : ℝ → ℝ} (hf : ∀ x, f (-x) = f x) (hf' : ∀ x, f' (-x) = - f' x)
    (h : ∀ x, 0 ≤ x → HasDerivAt f (f' x) x) (x : ℝ) : HasDerivAt f (f' x) x := by
  rcases le_or_gt 0 x with hx | hx
  · exact h x hx
  · have h1 := h (-x) (by linarith)
    have h2 : HasDerivAt (fun y => f (-y)) (f' (-x) * -1) x :=
      HasDerivAt.comp x h1 (hasDerivAt_neg x)
    have e : (fun y => f (-y)) = f := funext hf
    rw [e, hf'] at h2
    simpa using h2

lemma hasDerivAt_odd {f f' : ℝ → ℝ} (hf : ∀ x, f (-x) = - f x) (hf' : ∀ x, f' (-x) = f' x)
    {x : ℝ} (h : HasDerivAt f (f' (-x)) (-x)) : HasDerivAt f (f' x) x := by
  have h2 : HasDerivAt (fun y => f (-y)) (f' (-x) * -1) x :=
    HasDerivAt.comp x h (hasDerivAt_neg x)
  have h3 := h2.neg
  have e : (-fun y => f (-y)) = f := funext fun y => by simp [hf]
  rw [e, hf'] at h3
  simpa using h3

private lemma dquad (a b : ℝ) (u : ℝ) : HasDerivAt (fun x => a * (b - x) ^ 2) (-(2 * a * (b - u))) u := by
  have := (((hasDerivAt_id u).const_sub b).pow 2).const_mul a
  refine derivCast this ?_
  simp; try ring

private lemma dpoly (a b c : ℝ) (u : ℝ) :
    HasDerivAt (fun x : ℝ => a * x ^ 3 + b * x ^ 2 + c) (3 * a * u ^ 2 + 2 * b * u) u := by
  have h1 := ((hasDerivAt_pow 3 u).const_mul a)
  have h2 := ((hasDerivAt_pow 2 u).const_mul b)
  have := (h1.add h2).add_const c
  refine derivCast this ?_
  simp; try ring

private lemma dcub (a b : ℝ) (u : ℝ) : HasDerivAt (fun x => a * (b - x) ^ 3) (-(3 * a * (b - u) ^ 2)) u := by
  have := (((hasDerivAt_id u).const_sub b).pow 3).const_mul a
  refine derivCast this ?_
  simp; try ring

private lemma dlin (a b : ℝ) (u : ℝ) : HasDerivAt (fun x : ℝ => a * x + b) a u := by
  have := ((hasDerivAt_id u).const_mul a).add_const b
  simpa using this

lemma hasDerivAt_N2 (u : ℝ) : HasDerivAt N2 (dN2 u) u := by
  refine hasDerivAt_even N2_neg dN2_neg (fun u hu => ?_) u
  have mid : ∀ x : ℝ, -(1/2) ≤ x → x ≤ 1/2 → N2 x = 0 * x ^ 3 + (-1) * x ^ 2 + 3/4 :=
    fun x h1 h2 => by rw [N2_mid h1 h2]; ring
  have right : ∀ x : ℝ, 1/2 ≤ x → x ≤ 3/2 → N2 x = 1/2 * (3/2 - x) ^ 2 :=
    fun x h1 h2 => N2_right h1 h2
  have out : ∀ x : ℝ, 3/2 ≤ x → x ≤ u + 3 → N2 x = 0 := fun x h1 _ =>
    N2_out (le_trans h1 (le_abs_self x))
  have d1 := dpoly 0 (-1) (3/4) u
  have d2 := dquad (1/2) (3/2) u
  have d3 := hasDerivAt_const u (0 : ℝ)
  rcases lt_trichotomy u (1/2) with h | h | h
  · refine hasDerivAt_glue (a := -(1/2)) (c := 1/2) (by linarith) h
      (fun x a b => mid x a (by linarith)) (fun x a b => mid x (by linarith) b) ?_ ?_ <;>
    · refine derivCast d1 ?_; rw [dN2_mid (by linarith) h.le]; ring
  · refine hasDerivAt_glue (a := -(1/2)) (c := 3/2) (by linarith) (by linarith)
      (fun x a b => mid x a (by linarith)) (fun x a b => right x (by linarith) b) ?_ ?_
    · refine derivCast d1 ?_; rw [dN2_mid (by linarith) h.le]; ring
    · refine derivCast d2 ?_; rw [dN2_right (by linarith) (by linarith)]; ring
  · rcases lt_trichotomy u (3/2) with h' | h' | h'
    · refine hasDerivAt_glue (a := 1/2) (c := 3/2) (by linarith) h'
        (fun x a b => right x a (by linarith)) (fun x a b => right x (by linarith) b) ?_ ?_ <;>
      · refine derivCast d2 ?_; rw [dN2_right (by linarith) (by linarith)]; ring
    · refine hasDerivAt_glue (a := 1/2) (c := 3) (by linarith) (by linarith)
        (fun x a b => right x a (by linarith)) (fun x a b => out x (by linarith) (by linarith)) ?_ ?_
      · refine derivCast d2 ?_; rw [dN2_right (by linarith) (by linarith)]; ring
      · refine derivCast d3 ?_; rw [dN2_right (by linarith) (by linarith)]; linarith
    · refine hasDerivAt_glue (a := 3/2) (c := u + 1) (by linarith) (by linarith)
        (fun x a b => out x a (by linarith)) (fun x a b => out x (by linarith) (by linarith)) ?_ ?_ <;>
      · refine derivCast d3 ?_; exact dN2_out (le_trans h'.le (le_abs_self _))

lemma hasDerivAt_N3 (u : ℝ) : HasDerivAt N3 (dN3 u) u := by
  refine hasDerivAt_even N3_neg dN3_neg (fun u hu => ?_) u
  have mid : ∀ x : ℝ, 0 ≤ x → x ≤ 1 → N3 x = 1/2 * x ^ 3 + (-1) * x ^ 2 + 2/3 :=
    fun x h1 h2 => by rw [N3_in h1 h2]; ring
  have midl : ∀ x : ℝ, -1 ≤ x → x ≤ 0 → N3 x = -(1/2) * x ^ 3 + (-1) * x ^ 2 + 2/3 :=
    fun x h1 h2 => by rw [N3_inl h1 h2]; ring
  have right : ∀ x : ℝ, 1 ≤ x → x ≤ 2 → N3 x = 1/6 * (2 - x) ^ 3 :=
    fun x h1 h2 => N3_out1 h1 h2
  have out : ∀ x : ℝ, 2 ≤ x → N3 x = 0 := fun x h1 =>
    N3_out (le_trans h1 (le_abs_self x))
  have d0 := dpoly (-(1/2)) (-1) (2/3) u
  have d1 := dpoly (1/2) (-1) (2/3) u
  have d2 := dcub (1/6) 2 u
  have d3 := hasDerivAt_const u (0 : ℝ)
  rcases hu.lt_or_eq with h0 | h0
  swap
  · refine hasDerivAt_glue (a := -1) (c := 1) (by linarith) (by linarith)
      (fun x a b => midl x a (by linarith)) (fun x a b => mid x (by linarith) b) ?_ ?_
    · refine derivCast d0 ?_; rw [dN3_in (by linarith) (by linarith), ← h0]; ring
    · refine derivCast d1 ?_; rw [dN3_in (by linarith) (by linarith), ← h0]; ring
  rcases lt_trichotomy u 1 with h | h | h
  · refine hasDerivAt_glue (a := 0) (c := 1) h0 h
      (fun x a b => mid x a (by linarith)) (fun x a b => mid x (by linarith) b) ?_ ?_ <;>
    · refine derivCast d1 ?_; rw [dN3_in (by linarith) h.le]; ring
  · refine hasDerivAt_glue (a := 0) (c := 2) (by linarith) (by linarith)
      (fun x a b => mid x a (by linarith)) (fun x a b => right x (by linarith) b) ?_ ?_
    · refine derivCast d1 ?_; rw [dN3_in (by linarith) h.le]; ring
    · refine derivCast d2 ?_; rw [dN3_out1 (by linarith) (by linarith)]; ring
  · rcases lt_trichotomy u 2 with h' | h' | h'
    · refine hasDerivAt_glue (a := 1) (c := 2) (by linarith) h'
        (fun x a b => right x a (by linarith)) (fun x a b => right x (by linarith) b) ?_ ?_ <;>
      · refine derivCast d2 ?_; rw [dN3_out1 (by linarith) (by linarith)]; ring
    · refine hasDerivAt_glue (a := 1) (c := 3) (by linarith) (by linarith)
        (fun x a b => right x a (by linarith)) (fun x a b => out x (by linarith)) ?_ ?_
      · refine derivCast d2 ?_; rw [dN3_out1 (by linarith) (by linarith)]; ring
      · refine derivCast d3 ?_; rw [dN3_out1 (by linarith) (by linarith), h']; ring
    · refine hasDerivAt_glue (a := 2) (c := u + 1) (by linarith) (by linarith)
        (fun x a b => out x a) (fun x a b => out x (by linarith)) ?_ ?_ <;>
      · refine derivCast d3 ?_; exact dN3_out (le_trans h'.le (le_abs_self _))

lemma ddN2_neg (u : ℝ) : ddN2 (-u) = ddN2 u := by simp [ddN2]
lemma ddN3_neg (u : ℝ) : ddN3 (-u) = ddN3 u := by simp [ddN3]

private lemma odd_of_nonneg {f f' : ℝ → ℝ} (hf : ∀ x, f (-x) = - f x) (hf' : ∀ x, f' (-x) = f' x)
    (S : ℝ → Prop) (hS : ∀ x, S x → S (-x))
    (h : ∀ x, 0 ≤ x → S x → HasDerivAt f (f' x) x) (x : ℝ) (hx : S x) : HasDerivAt f (f' x) x := by
  rcases le_or_gt 0 x with h0 | h0
  · exact h x h0 hx
  · exact hasDerivAt_odd hf hf' (h (-x) (by linarith) (hS x hx))

lemma hasDerivAt_dN2 (u : ℝ) (h1 : |u| ≠ 1/2) (h2 : |u| ≠ 3/2) : HasDerivAt dN2 (ddN2 u) u := by
  refine odd_of_nonneg dN2_neg ddN2_neg (fun u => |u| ≠ 1/2 ∧ |u| ≠ 3/2) (fun x hx => by simpa using hx)
    (fun u hu hS => ?_) u ⟨h1, h2⟩
  have ab := abs_of_nonneg hu
  rw [ab] at hS
  have mid : ∀ x : ℝ, -(1/2) ≤ x → x ≤ 1/2 → dN2 x = -2 * x + 0 :=
    fun x h1 h2 => by rw [dN2_mid h1 h2]; ring
  have right : ∀ x : ℝ, 1/2 ≤ x → x ≤ 3/2 → dN2 x = 1 * x + -(3/2) :=
    fun x h1 h2 => by rw [dN2_right h1 h2]; ring
  have out : ∀ x : ℝ, 3/2 ≤ x → dN2 x = 0 * x + 0 := fun x h1 => by
    rw [dN2_out (le_trans h1 (le_abs_self x))]; ring
  rcases lt_or_gt_of_ne hS.1 with h | h
  · have e : ddN2 u = -2 := by simp only [ddN2, ab, h, if_true]
    rw [e]
    exact hasDerivAt_glue (a := -(1/2)) (c := 1/2) (by linarith) h
      (fun x a b => mid x a (by linarith)) (fun x a b => mid x (by linarith) b) (dlin _ _ _) (dlin _ _ _)
  · rcases lt_or_gt_of_ne hS.2 with h' | h'
    · have e : ddN2 u = 1 := by simp only [ddN2, ab, not_lt.mpr h.le, if_false, h', if_true]
      rw [e]
      exact hasDerivAt_glue (a := 1/2) (c := 3/2) (by linarith) h'
        (fun x a b => right x a (by linarith)) (fun x a b => right x (by linarith) b) (dlin _ _ _) (dlin _ _ _)
    · have e : ddN2 u = 0 := by
        simp only [ddN2, ab, not_lt.mpr h.le, if_false, not_lt.mpr h'.le]
      rw [e]
      exact hasDerivAt_glue (a := 3/2) (c := u + 1) (by linarith) (by linarith)
        (fun x a b => out x a) (fun x a b => out x (by linarith)) (dlin _ _ _) (dlin _ _ _)

lemma hasDerivAt_dN3 (u : ℝ) : HasDerivAt dN3 (ddN3 u) u := by
  refine odd_of_nonneg dN3_neg ddN3_neg (fun _ => True) (fun x _ => trivial) (fun u hu _ => ?_) u trivial
  have ab := abs_of_nonneg hu
  have mid : ∀ x : ℝ, 0 ≤ x → x ≤ 1 → dN3 x = 3/2 * (2/3 - x) ^ 2 + (-(2/3)) :=
    fun x h1 h2 => by rw [dN3_in h1 h2]; ring
  have midl : ∀ x : ℝ, -1 ≤ x → x ≤ 0 → dN3 x = -(3/2) * (-(2/3) - x) ^ 2 + 2/3 :=
    fun x h1 h2 => by rw [dN3_inl h1 h2]; ring
  have right : ∀ x : ℝ, 1 ≤ x → x ≤ 2 → dN3 x = -(1/2) * (2 - x) ^ 2 :=
    fun x h1 h2 => by rw [dN3_out1 h1 h2]
  have out : ∀ x : ℝ, 2 ≤ x → dN3 x = 0 := fun x h1 =>
    dN3_out (le_trans h1 (le_abs_self x))
  have d0 := (dquad (-(3/2)) (-(2/3)) u).add_const (2/3)
  have d1 := (dquad (3/2) (2/3) u).add_const (-(2/3))
  have d2 := dquad (-(1/2)) 2 u
  have d3 := hasDerivAt_const u (0 : ℝ)
  have e1 : u ≤ 1 → ddN3 u = 3 * u - 2 := by
    intro h
    simp only [ddN3, ab]
    split_ifs <;> linarith
  have e2 : 1 ≤ u → u ≤ 2 → ddN3 u = 2 - u := by
    intro h h'
    simp only [ddN3, ab, not_lt.mpr h, if_false]
    split_ifs <;> linarith
  rcases hu.lt_or_eq with h0 | h0
  swap
  · refine hasDerivAt_glue (a := -1) (c := 1) (by linarith) (by linarith)
      (fun x a b => midl x a (by linarith)) (fun x a b => mid x (by linarith) b) ?_ ?_
    · refine derivCast d0 ?_; rw [e1 (by linarith), ← h0]; ring
    · refine derivCast d1 ?_; rw [e1 (by linarith), ← h0]; ring
  rcases lt_trichotomy u 1 with h | h | h
  · refine hasDerivAt_glue (a := 0) (c := 1) h0 h
      (fun x a b => mid x a (by linarith)) (fun x a b => mid x (by linarith) b) ?_ ?_ <;>
    · refine derivCast d1 ?_; rw [e1 h.le]; ring
  · refine hasDerivAt_glue (a := 0) (c := 2) (by linarith) (by linarith)
      (fun x a b => mid x a (by linarith)) (fun x a b => right x (by linarith) b) ?_ ?_
    · refine derivCast d1 ?_; rw [e1 h.le]; ring
    · refine derivCast d2 ?_; rw [e2 (by linarith) (by linarith)]; ring
  · rcases lt_trichotomy u 2 with h' | h' | h'
    · refine hasDerivAt_glue (a := 1) (c := 2) (by linarith) h'
        (fun x a b => right x a (by linarith)) (fun x a b => right x (by linarith) b) ?_ ?_ <;>
      · refine derivCast d2 ?_; rw [e2 (by linarith) (by linarith)]; ring
    · refine hasDerivAt_glue (a := 1) (c := 3) (by linarith) (by linarith)
        (fun x a b => right x a (by linarith)) (fun x a b => out x (by linarith)) ?_ ?_
      · refine derivCast d2 ?_; rw [e2 (by linarith) (by linarith)]; ring
      · refine derivCast d3 ?_; rw [e2 (by linarith) (by linarith), h']; ring
    · have e3 : ddN3 u = 0 := by
        simp only [ddN3, ab, not_lt.mpr h.le, if_false, not_lt.mpr h'.le]
      refine hasDerivAt_glue (a := 2) (c := u + 1) (by linarith) (by linarith)
        (fun x a b => out x a) (fun x a b => out x (by linarith)) ?_ ?_ <;>
      · rw [e3]; exact d3

end Verif
