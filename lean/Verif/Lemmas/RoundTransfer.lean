import Verif.Model.RoundTransfer
import Verif.Lemmas.RoundGrid
import Verif.Lemmas.Accumulate
import Mathlib.Algebra.Order.BigOperators.Group.List

/-!
# Sums and products under rounding
-/

set_option linter.unusedSectionVars false
set_option linter.unusedVariables false

namespace Verif
variable {u : ℝ} {fl : ℝ → ℝ} {d : ℕ}

/-- `x` is a computed value of `S` after at most `k` roundings, `A` is the same expression with absolute values. -/
structure Near (u : ℝ) (k : ℕ) (S A x : ℝ) : Prop where
  bound : |S| ≤ A
  err : |x - S| ≤ ((1 + u) ^ k - 1) * A

lemma pow_sub_one_le (hu : 0 ≤ u) : ∀ k : ℕ, k * u ≤ 1 / 2 → (1 + u) ^ k - 1 ≤ 2 * (k * u)
  | 0, _ => by simp
  | k + 1, h => by
    push_cast at h ⊢
    have h0 : 0 ≤ k * u := by positivity
    have ih := pow_sub_one_le hu k (by linarith)
    rw [pow_succ]
    nlinarith [mul_le_mul_of_nonneg_right (show (k : ℝ) * u ≤ 1 / 2 by linarith) hu]

namespace Near

lemma nonneg {k : ℕ} {S A x : ℝ} (h : Near u k S A x) : 0 ≤ A := (abs_nonneg _).trans h.bound

lemma exact (x : ℝ) : Near u 0 x |x| x := ⟨le_rfl, by simp⟩

lemma mono {k k' : ℕ} {S A x : ℝ} (hu : 0 ≤ u) (h : Near u k S A x) (hk : k ≤ k') : Near u k' S A x :=
  ⟨h.bound, h.err.trans (mul_le_mul_of_nonneg_right (by
    have := pow_le_pow_right₀ (by linarith : 1 ≤ 1 + u) hk; linarith) h.nonneg)⟩

lemma le {k : ℕ} {S A x : ℝ} (hu : 0 ≤ u) (h : Near u k S A x) : |x| ≤ (1 + u) ^ k * A := by
  have h1 := h.bound
  have h2 := h.err
  have : |x| ≤ |x - S| + |S| := by simpa using abs_add_le (x - S) S
  linarith

lemma round {k : ℕ} {S A x : ℝ} (hr : Rounding u fl) (h : Near u k S A x) : Near u (k + 1) S A (fl x) := by
  refine ⟨h.bound, ?_⟩
  have h1 := h.err
  have h2 := mul_le_mul_of_nonneg_left (h.le hr.nonneg) hr.nonneg
  have h3 := hr.err x
  have : |fl x - S| ≤ |fl x - x| + |x - S| := by
    have e : fl x - S = (fl x - x) + (x - S) := by ring
    rw [e]; exact abs_add_le _ _
  rw [pow_succ]
  linarith

lemma add' {k : ℕ} {S A x S' A' y : ℝ} (h : Near u k S A x) (h' : Near u k S' A' y) :
    Near u k (S + S') (A + A') (x + y) := by
  refine ⟨(abs_add_le _ _).trans (add_le_add h.bound h'.bound), ?_⟩
  have e : x + y - (S + S') = (x - S) + (y - S') := by ring
  rw [e, mul_add]
  exact (abs_add_le _ _).trans (add_le_add h.err h'.err)

lemma add {k : ℕ} {S A x S' A' y : ℝ} (hr : Rounding u fl) (h : Near u k S A x) (h' : Near u k S' A' y) :
    Near u (k + 1) (S + S') (A + A') (fl (x + y)) := (h.add' h').round hr

lemma neg {k : ℕ} {S A x : ℝ} (h : Near u k S A x) : Near u k (-S) A (-x) := by
  refine ⟨by rw [abs_neg]; exact h.bound, ?_⟩
  rw [show -x - -S = -(x - S) by ring, abs_neg]
  exact h.err

lemma sub {k : ℕ} {S A x S' A' y : ℝ} (hr : Rounding u fl) (h : Near u k S A x) (h' : Near u k S' A' y) :
    Near u (k + 1) (S - S') (A + A') (fl (x - y)) := by
  rw [sub_eq_add_neg, sub_eq_add_neg]
  exact h.add hr h'.neg

lemma mul {k j : ℕ} {S A x S' A' y : ℝ} (hr : Rounding u fl) (h : Near u k S A x) (h' : Near u j S' A' y) :
    Near u (k + j + 1) (S * S') (A * A') (fl (x * y)) := by
  refine Near.round hr ⟨by rw [abs_mul]; exact mul_le_mul h.bound h'.bound (abs_nonneg _) h.nonneg, ?_⟩
  have e : x * y - S * S' = (x - S) * y + S * (y - S') := by ring
  rw [e]
  refine (abs_add_le _ _).trans ?_
  rw [abs_mul, abs_mul, pow_add]
  have hk : 0 ≤ (1 + u) ^ k - 1 := by
    have := one_le_pow₀ (by linarith [hr.nonneg] : 1 ≤ 1 + u) (n := k); linarith
  have h1 : |x - S| * |y| ≤ ((1 + u) ^ k - 1) * A * ((1 + u) ^ j * A') :=
    mul_le_mul h.err (h'.le hr.nonneg) (abs_nonneg _) (mul_nonneg hk h.nonneg)
  have h2 : |S| * |y - S'| ≤ A * (((1 + u) ^ j - 1) * A') := mul_le_mul h.bound h'.err (abs_nonneg _) h.nonneg
  linarith

/-- The error with a simple bound. -/
lemma simple {k : ℕ} {S A x : ℝ} (hu : 0 ≤ u) (h : Near u k S A x) (hk : k * u ≤ 1 / 2) : |x - S| ≤ 2 * (k * u) * A :=
  h.err.trans (mul_le_mul_of_nonneg_right (pow_sub_one_le hu k hk) h.nonneg)

lemma weaken {k : ℕ} {S A A' x : ℝ} (hu : 0 ≤ u) (h : Near u k S A x) (hA : A ≤ A') : Near u k S A' x :=
  ⟨h.bound.trans hA, h.err.trans (mul_le_mul_of_nonneg_left hA (by
    have := one_le_pow₀ (by linarith : 1 ≤ 1 + u) (n := k); linarith))⟩

end Near

/-- A loop of additions. -/
lemma foldl_near {β α : Type*} (step : β → α → β) (proj : β → ℝ) (S A : α → ℝ) (j : ℕ) (H : List α) {k0 : ℕ}
    (hstep : ∀ h ∈ H, ∀ k g s a, k0 ≤ k → Near u k s a (proj g) → Near u (k + j) (s + S h) (a + A h) (proj (step g h)))
    {g : β} {k : ℕ} {s a : ℝ} (hk : k0 ≤ k) (h : Near u k s a (proj g)) :
    Near u (k + j * H.length) (s + (H.map S).sum) (a + (H.map A).sum) (proj (H.foldl step g)) := by
  induction H generalizing g k s a with
  | nil => simpa using h
  | cons x H ih =>
    have := ih (fun h hh => hstep h (List.mem_cons_of_mem _ hh)) (by omega : k0 ≤ k + j)
      (hstep x List.mem_cons_self k g s a hk h)
    simp only [List.map_cons, List.sum_cons, List.length_cons, List.foldl_cons]
    rw [← add_assoc, ← add_assoc, show k + j * (H.length + 1) = k + j + j * H.length by ring]
    exact this

/-! ### The weights -/

/-- `a + b + c`. -/
lemma sumFl_near (hr : Rounding u fl) {α : Type*} {k : ℕ} (S A f : α → ℝ) : ∀ L : List α, (∀ x ∈ L, Near u k (S x) (A x) (f x)) →
    Near u (k + L.length) (L.map S).sum (L.map A).sum (sumFl fl (L.map f))
  | [], _ => by
    simp only [List.map_nil, List.sum_nil, sumFl, List.length_nil, add_zero]
    exact ⟨by simp, by simp⟩
  | x :: L, h => by
    have := foldl_near (u := u) (fun p y => fl (p + f y)) id S A 1 L (k0 := k)
      (fun y hy k' g s a hk hn => hn.add hr ((h y (List.mem_cons_of_mem _ hy)).mono hr.nonneg hk)) (g := f x) le_rfl
      (h x List.mem_cons_self)
    rw [List.map_cons, List.map_cons, List.map_cons, List.sum_cons, List.sum_cons, sumFl, List.foldl_map]
    exact this.mono hr.nonneg (by rw [List.length_cons]; omega)

/-- The affine part of APIC. -/
lemma apicFl_near {d : ℕ} (hr : Rounding u fl) (dinv : ℝ) (p : Particle d ℝ) (X : Fin d → ℝ) (a : Fin d) :
    Near u (d + 3) ((∑ b, p.Bmat a b * (X b - p.x b)) * dinv) ((∑ b, |p.Bmat a b * (X b - p.x b)|) * |dinv|)
      (apicFl fl dinv p X a) := by
  have h1 := sumFl_near hr (k := 2) (fun b => p.Bmat a b * (X b - p.x b)) (fun b => |p.Bmat a b * (X b - p.x b)|)
    (fun b => fl (p.Bmat a b * fl (X b - p.x b))) (List.finRange d) (fun b _ => by
      rw [abs_mul]
      have := (Near.exact (u := u) (p.Bmat a b)).mul hr ((Near.exact (u := u) (X b - p.x b)).round hr)
      simpa using this)
  rw [List.length_finRange, ← List.ofFn_eq_map, ← List.ofFn_eq_map, ← List.ofFn_eq_map, List.sum_ofFn, List.sum_ofFn] at h1
  have := h1.mul hr (Near.exact dinv)
  rw [apicFl]
  exact this.mono hr.nonneg (by omega)


lemma N2Fl_err (hr : Rounding u fl) (x : ℝ) : |N2Fl fl x - N2 x| ≤ 11 * u ∧ 0 ≤ N2Fl fl x := by
  have hu := hr.nonneg
  have hus := hr.small
  have ha := abs_nonneg x
  rw [N2Fl, N2]
  split_ifs with h1 h2
  · have n0 : Near u 1 (|x| * |x|) (|x| * |x|) (fl (|x| * |x|)) := by
      have := ((Near.exact (u := u) |x|).mul hr (Near.exact |x|))
      rwa [abs_abs] at this
    have n1 : Near u 2 (3 / 4 - |x| * |x|) (|3 / 4| + |x| * |x|) _ := ((Near.exact (3 / 4)).mono hu (by omega)).sub hr n0
    have n2 := n1.simple hu (by push_cast; linarith)
    have hx : |x| * |x| ≤ 1 / 4 := by nlinarith
    rw [abs_of_pos (by norm_num : (0 : ℝ) < 3 / 4)] at n2
    push_cast at n2
    refine ⟨n2.trans ?_, ?_⟩
    · nlinarith
    · refine hr.nonneg' ?_
      have := hr.le (x := |x| * |x|) (by positivity)
      nlinarith
  · rw [not_lt] at h1
    have ht : 0 ≤ 3 / 2 - |x| := by linarith
    have n0 : Near u 1 (3 / 2 - |x|) (3 / 2 - |x|) (fl (3 / 2 - |x|)) := by
      have := (Near.exact (u := u) (3 / 2 - |x|)).round hr
      rwa [abs_of_nonneg ht] at this
    have n1 := ((Near.exact (u := u) (1 / 2)).mul hr n0).mul hr n0
    have n2 := n1.simple hu (by push_cast; linarith)
    rw [abs_of_pos (by norm_num : (0 : ℝ) < 1 / 2)] at n2
    push_cast at n2
    have h3 : 1 / 2 * (3 / 2 - |x|) * (3 / 2 - |x|) ≤ 1 / 2 := by nlinarith
    refine ⟨n2.trans ?_, ?_⟩
    · nlinarith
    · have ht' := hr.nonneg' ht
      exact hr.nonneg' (mul_nonneg (hr.nonneg' (by linarith)) ht')
  · simp; linarith

lemma N3Fl_err (hr : Rounding u fl) (x : ℝ) : |N3Fl fl x - N3 x| ≤ 25 * u ∧ 0 ≤ N3Fl fl x := by
  have hu := hr.nonneg
  have hus := hr.small
  have ha := abs_nonneg x
  rw [N3Fl, N3]
  split_ifs with h1 h2
  · have e0 : Near u 0 |x| |x| |x| := by have := Near.exact (u := u) |x|; rwa [abs_abs] at this
    have n1 := (((Near.exact (u := u) (1 / 2)).mul hr e0).mul hr e0).mul hr e0
    have n2 := (e0.mul hr e0)
    have n3 := ((Near.exact (u := u) (2 / 3)).round hr)
    have n4 := ((n1.sub hr (n2.mono hu (by omega))).add hr (n3.mono hu (by omega))).simple hu (by push_cast; linarith)
    rw [abs_of_pos (by norm_num : (0 : ℝ) < 1 / 2), abs_of_pos (by norm_num : (0 : ℝ) < 2 / 3)] at n4
    push_cast at n4
    have hx2 : |x| * |x| ≤ 1 := by nlinarith
    have hx3 : 1 / 2 * |x| * |x| * |x| ≤ 1 / 2 := by nlinarith
    have hA : 1 / 2 * |x| * |x| * |x| + |x| * |x| + 2 / 3 ≤ 13 / 6 := by linarith
    have hB := mul_le_mul_of_nonneg_left hA (by positivity : 0 ≤ 2 * (5 * u))
    have n5 := n4.trans hB
    have hpos : 1 / 6 ≤ 1 / 2 * |x| * |x| * |x| - |x| * |x| + 2 / 3 := by nlinarith [mul_nonneg ha (sq_nonneg (|x| - 1))]
    refine ⟨by linarith, ?_⟩
    have := (abs_le.mp n5).1
    linarith
  · rw [not_lt] at h1
    have ht : 0 ≤ 2 - |x| := by linarith
    have n0 : Near u 1 (2 - |x|) (2 - |x|) (fl (2 - |x|)) := by
      have := (Near.exact (u := u) (2 - |x|)).round hr
      rwa [abs_of_nonneg ht] at this
    have n1 := ((((Near.exact (u := u) (1 / 6)).round hr).mul hr n0).mul hr n0).mul hr n0
    have n2 := n1.simple hu (by push_cast; linarith)
    rw [abs_of_pos (by norm_num : (0 : ℝ) < 1 / 6)] at n2
    push_cast at n2
    have h4 : (2 - |x|) * (2 - |x|) ≤ 1 := by nlinarith
    have h3 : 1 / 6 * (2 - |x|) * (2 - |x|) * (2 - |x|) ≤ 1 / 6 := by nlinarith
    refine ⟨n2.trans ?_, ?_⟩
    · nlinarith
    · have ht' := hr.nonneg' ht
      exact hr.nonneg' (mul_nonneg (hr.nonneg' (mul_nonneg (hr.nonneg' (mul_nonneg (hr.nonneg' (by norm_num)) ht')) ht')) ht')
  · simp; linarith

lemma N1Fl_err (hr : Rounding u fl) (x : ℝ) : |N1Fl fl x - N1 x| ≤ u := by
  have h := hr.err (1 - |x|)
  have hu := hr.nonneg
  have hus := hr.small
  have hx := abs_nonneg x
  simp only [N1Fl, N1]
  rcases le_total 0 (1 - |x|) with h0 | h0
  · rw [max_comm 0, max_comm 0]
    refine (abs_max_sub_max_le_abs _ _ _).trans (h.trans ?_)
    rw [abs_of_nonneg h0]; nlinarith
  · have h1 : fl (1 - |x|) ≤ 0 := by
      rw [abs_of_nonpos h0] at h
      have := (abs_le.mp h).2
      nlinarith
    rw [max_eq_left h0, max_eq_left h1]; simpa using hu

lemma NFl_err (hr : Rounding u fl) {deg : Deg} (x : ℝ) : |NFl fl deg x - N deg x| ≤ 25 * u := by
  cases deg with
  | one => exact (N1Fl_err hr x).trans (by linarith [hr.nonneg])
  | two => exact (N2Fl_err hr x).1.trans (by linarith [hr.nonneg])
  | three => exact (N3Fl_err hr x).1

lemma NFl_nonneg (hr : Rounding u fl) (deg : Deg) (x : ℝ) : 0 ≤ NFl fl deg x := by
  cases deg with
  | one => exact le_max_left _ _
  | two => exact (N2Fl_err hr x).2
  | three => exact (N3Fl_err hr x).2

lemma N_le (deg : Deg) (hd : deg ≠ .one) (x : ℝ) : N deg x ≤ 3 / 4 := by
  have ha := abs_nonneg x
  cases deg with
  | one => exact absurd rfl hd
  | two =>
    simp only [N, N2]
    split_ifs with h1 h2
    · nlinarith
    · rw [not_lt] at h1; nlinarith
    · norm_num
  | three =>
    simp only [N, N3]
    split_ifs with h1 h2
    · nlinarith [mul_nonneg ha ha]
    · rw [not_lt] at h1
      have h4 : (2 - |x|) * (2 - |x|) ≤ 1 := by nlinarith
      nlinarith
    · norm_num

lemma N_le_one (deg : Deg) (x : ℝ) : N deg x ≤ 1 := by
  by_cases hd : deg = .one
  · subst hd
    exact max_le zero_le_one (by linarith [abs_nonneg x])
  · exact (N_le deg hd x).trans (by norm_num)

lemma NFl_le (hr : Rounding u fl) (deg : Deg) (x : ℝ) : NFl fl deg x ≤ 1 + u := by
  have hu := hr.nonneg
  have hus := hr.small
  by_cases hd : deg = .one
  · subst hd
    have h1 := (abs_le.mp (N1Fl_err hr x)).2
    have h2 := N_le_one .one x
    simp only [N] at h2
    simp only [NFl]
    linarith
  · have h1 := (abs_le.mp (NFl_err hr (deg := deg) x)).2
    have h2 := N_le deg hd x
    linarith

lemma foldl_prod_near (hr : Rounding u fl) : ∀ (ws : List ℝ) {k : ℕ} {S x : ℝ}, (∀ w ∈ ws, 0 ≤ w) → Near u k S S x →
    0 ≤ x → Near u (k + ws.length) (S * ws.prod) (S * ws.prod) (ws.foldl (fun p w => fl (p * w)) x) ∧
      0 ≤ ws.foldl (fun p w => fl (p * w)) x
  | [], k, S, x, _, h, hx => by simpa using ⟨h, hx⟩
  | w :: ws, k, S, x, hw, h, hx => by
    have hw0 := hw w List.mem_cons_self
    have e : Near u 0 w w w := by have := Near.exact (u := u) w; rwa [abs_of_nonneg hw0] at this
    have := foldl_prod_near hr ws (fun v hv => hw v (List.mem_cons_of_mem _ hv)) (h.mul hr e) (hr.nonneg' (mul_nonneg hx hw0))
    rw [List.foldl_cons, List.prod_cons, List.length_cons, ← mul_assoc, show k + (ws.length + 1) = k + 0 + 1 + ws.length by ring]
    exact this

/-- The weight of a node. -/
lemma weightFl_near (hr : Rounding u fl) {s : StFl d} (c : Fin d → Fin 4) (hW : ∀ a k, 0 ≤ s.W a k) :
    Near u d (∏ a, s.W a (c a)) (∏ a, s.W a (c a)) (s.weight fl c) ∧ 0 ≤ s.weight fl c := by
  rw [StFl.weight]
  have hl : (List.ofFn fun a => s.W a (c a)).prod = ∏ a, s.W a (c a) := List.prod_ofFn
  have hlen : (List.ofFn fun a => s.W a (c a)).length = d := List.length_ofFn
  have hn : ∀ w ∈ (List.ofFn fun a => s.W a (c a)), 0 ≤ w := by
    intro w hw; rw [List.mem_ofFn] at hw; obtain ⟨a, rfl⟩ := hw; exact hW _ _
  rw [← hl]
  conv in Near u d => rw [← hlen]
  generalize (List.ofFn fun a => s.W a (c a)) = L at hn
  cases L with
  | nil => exact ⟨⟨by simp, by simp [prodFl]⟩, by simp [prodFl]⟩
  | cons w ws =>
    have hw0 := hn w List.mem_cons_self
    have e : Near u 0 w w w := by have := Near.exact (u := u) w; rwa [abs_of_nonneg hw0] at this
    have := foldl_prod_near hr ws (fun v hv => hn v (List.mem_cons_of_mem _ hv)) e hw0
    rw [List.prod_cons, List.length_cons, prodFl]
    exact ⟨this.1.mono hr.nonneg (by omega), this.2⟩

lemma abs_prod_sub_prod_le {ι : Type*} (t : Finset ι) {f g : ι → ℝ} {e c : ℝ} (hc : 1 ≤ c) (hf0 : ∀ a, 0 ≤ f a) (hf1 : ∀ a, f a ≤ c)
    (hg0 : ∀ a, 0 ≤ g a) (hg1 : ∀ a, g a ≤ 1) (h : ∀ a, |f a - g a| ≤ e) :
    |∏ a ∈ t, f a - ∏ a ∈ t, g a| ≤ t.card * (c ^ t.card * e) := by
  classical
  induction t using Finset.induction_on with
  | empty => simp
  | insert a t ha ih =>
    rw [Finset.prod_insert ha, Finset.prod_insert ha, Finset.card_insert_of_notMem ha]
    have he : 0 ≤ e := (abs_nonneg _).trans (h a)
    have e1 : f a * ∏ x ∈ t, f x - g a * ∏ x ∈ t, g x =
        f a * (∏ x ∈ t, f x - ∏ x ∈ t, g x) + (f a - g a) * ∏ x ∈ t, g x := by ring
    rw [e1]
    refine (abs_add_le _ _).trans ?_
    rw [abs_mul, abs_mul, abs_of_nonneg (hf0 a), abs_of_nonneg (Finset.prod_nonneg fun x _ => hg0 x)]
    have h1 : f a * |∏ x ∈ t, f x - ∏ x ∈ t, g x| ≤ c * (t.card * (c ^ t.card * e)) :=
      mul_le_mul (hf1 a) ih (abs_nonneg _) (by linarith)
    have h2 : |f a - g a| * ∏ x ∈ t, g x ≤ e * 1 :=
      mul_le_mul (h a) (Finset.prod_le_one (fun x _ => hg0 x) fun x _ => hg1 x) (Finset.prod_nonneg fun x _ => hg0 x)
        ((abs_nonneg _).trans (h a))
    have h3 : e ≤ c ^ (t.card + 1) * e := le_mul_of_one_le_left he (one_le_pow₀ hc)
    push_cast
    rw [pow_succ] at h3 ⊢
    nlinarith

/-! ### What reaches a node -/

/-- A contribution to a node: the particle, its weight and the position of the node. -/
structure Hit (d : ℕ) where
  p : Particle d ℝ
  w : ℝ
  X : Fin d → ℝ

open Classical in
/-- The contributions of a particle to the node with flat index `l`, in loop order. -/
noncomputable def hits (fl : ℝ → ℝ) (n : Fin d → ℕ) (l : ℕ) (ps : Particle d ℝ × StFl d) : List (Hit d) :=
  ((allIdx d).filter fun c => fl (1 / 10 ^ 25) < ps.2.weight fl c ∧ flatIndex n (ps.2.node c) = l).map
    fun c => ⟨ps.1, ps.2.weight fl c, ps.2.pos c⟩

/-- One contribution. -/
noncomputable def hitStep (fl : ℝ → ℝ) (P : TransferParams ℝ) (g : CellFl d) (h : Hit d) : CellFl d := g.hit fl P h.p h.w h.X

lemma depositParticleFl_at (P : TransferParams ℝ) (n : Fin d → ℕ) (g : ℕ → CellFl d) (ps : Particle d ℝ × StFl d) (l : ℕ) :
    depositParticleFl fl P n g ps l = (hits fl n l ps).foldl (hitStep fl P) (g l) := by
  classical
  rw [depositParticleFl, hits]
  generalize allIdx d = L
  induction L generalizing g with
  | nil => rfl
  | cons c L ih =>
    rw [List.foldl_cons, ih, List.filter_cons]
    by_cases h1 : fl (1 / 10 ^ 25) < ps.2.weight fl c
    · by_cases h2 : flatIndex n (ps.2.node c) = l
      · rw [if_pos (by simpa using ⟨by simpa using h1, h2⟩), List.map_cons, List.foldl_cons]
        congr 1
        rw [depositAtFl, if_pos h1, h2, Function.update_self]
        rfl
      · rw [if_neg (by simp [h2])]
        congr 1
        rw [depositAtFl, if_pos h1, Function.update_of_ne (Ne.symm h2)]
    · rw [if_neg (by simp only [h1, false_and]; simp)]
      congr 1
      rw [depositAtFl, if_neg h1]

lemma threadLocalFl_at (P : TransferParams ℝ) (n : Fin d → ℕ) (ts : List (Particle d ℝ × StFl d)) (l : ℕ) :
    threadLocalFl fl P n ts l = (ts.flatMap (hits fl n l)).foldl (hitStep fl P) CellFl.zero := by
  have gen : ∀ g : ℕ → CellFl d, ts.foldl (depositParticleFl fl P n) g l =
      (ts.flatMap (hits fl n l)).foldl (hitStep fl P) (g l) := by
    induction ts with
    | nil => intro g; rfl
    | cons q qs ih =>
      intro g
      rw [List.foldl_cons, ih, depositParticleFl_at, List.flatMap_cons, List.foldl_append]
  rw [threadLocalFl, gen]

/-- The velocity that a contribution carries. -/
noncomputable def Hit.vel (fl : ℝ → ℝ) (P : TransferParams ℝ) (h : Hit d) (a : Fin d) : ℝ :=
  h.p.v a + if P.flipRatio < 0 then apicFl fl P.apicDinverse h.p h.X a else 0

/-- The same with absolute values. -/
noncomputable def Hit.speed (fl : ℝ → ℝ) (P : TransferParams ℝ) (h : Hit d) (a : Fin d) : ℝ :=
  |h.p.v a| + if P.flipRatio < 0 then |apicFl fl P.apicDinverse h.p h.X a| else 0

lemma Near.term (hr : Rounding u fl) (v w : ℝ) : Near u 1 (v * w) (|v| * |w|) (fl (v * w)) := by
  have := (Near.exact (u := u) v).mul hr (Near.exact w)
  simpa using this

lemma zero_near (k : ℕ) : Near u k 0 0 0 := ⟨by simp, by simp⟩

section node
variable (hr : Rounding u fl) (P : TransferParams ℝ) (H : List (Hit d))
include hr

lemma fold_mass : Near u (1 + H.length) (H.map fun h => h.w).sum (H.map fun h => |h.w|).sum
    (H.foldl (hitStep fl P) CellFl.zero).mass := by
  have := foldl_near (u := u) (hitStep fl P) CellFl.mass (fun h => h.w) (fun h => |h.w|) 1 H
    (fun h _ k g s a hk hn => hn.add hr ((Near.exact h.w).mono hr.nonneg (by omega))) (g := CellFl.zero) (k0 := 1) (k := 1) le_rfl
    (zero_near 1)
  simpa using this

lemma fold_v (a : Fin d) : Near u (1 + 2 * H.length) (H.map fun h => h.vel fl P a * h.w).sum
    (H.map fun h => h.speed fl P a * |h.w|).sum ((H.foldl (hitStep fl P) CellFl.zero).v a) := by
  have := foldl_near (u := u) (hitStep fl P) (fun g => g.v a) (fun h => h.vel fl P a * h.w)
    (fun h => h.speed fl P a * |h.w|) 2 H (fun h _ k g s A hk hn => by
      have h1 := hn.add hr ((Near.term hr (h.p.v a) h.w).mono hr.nonneg hk)
      show Near u (k + 2) _ _ (if P.flipRatio < 0 then _ else _)
      rw [Hit.vel, Hit.speed]
      split_ifs with hc
      · have h2 := h1.add hr ((Near.term hr (apicFl fl P.apicDinverse h.p h.X a) h.w).mono hr.nonneg (by omega : 1 ≤ k + 1))
        rw [add_mul, add_mul, ← add_assoc, ← add_assoc]
        exact h2
      · rw [add_zero, add_zero]
        exact h1.mono hr.nonneg (by omega)) (g := CellFl.zero) (k0 := 1) (k := 1) le_rfl (zero_near 1)
  simpa using this

lemma fold_friction (hm : P.useMibf = true) : Near u (1 + H.length) (H.map fun h => h.p.muI * h.w).sum
    (H.map fun h => |h.p.muI| * |h.w|).sum (H.foldl (hitStep fl P) CellFl.zero).friction := by
  have := foldl_near (u := u) (hitStep fl P) CellFl.friction (fun h => h.p.muI * h.w)
    (fun h => |h.p.muI| * |h.w|) 1 H (fun h _ k g s A hk hn => by
      show Near u (k + 1) _ _ (if P.useMibf then _ else _)
      rw [if_pos hm]
      exact hn.add hr ((Near.term hr h.p.muI h.w).mono hr.nonneg hk)) (g := CellFl.zero) (k0 := 1) (k := 1) le_rfl (zero_near 1)
  simpa using this

end node

lemma sum_flatMap_flatten {α β : Type*} (f : β → ℝ) (hs : α → List β) (ts : List (List α)) :
    (ts.map fun t => ((t.flatMap hs).map f).sum).sum = ((ts.flatten.flatMap hs).map f).sum := by
  induction ts with
  | nil => rfl
  | cons t ts ih => rw [List.map_cons, List.sum_cons, ih, List.flatten_cons, List.flatMap_append, List.map_append, List.sum_append]

/-- Merging the threads. -/
lemma merge_near (hr : Rounding u fl) (P : TransferParams ℝ) (n : Fin d → ℕ) (ts : List (List (Particle d ℝ × StFl d))) (l : ℕ)
    (proj : CellFl d → ℝ) (h0 : proj CellFl.zero = 0) (f A : Hit d → ℝ)
    (hproj : ∀ g loc : ℕ → CellFl d, proj (mergeThreadFl fl P g loc l) = fl (proj (g l) + proj (loc l)))
    {k : ℕ} (hfold : ∀ t ∈ ts, Near u k ((t.flatMap (hits fl n l)).map f).sum
      ((t.flatMap (hits fl n l)).map A).sum (proj (threadLocalFl fl P n t l))) :
    Near u (k + ts.length) ((ts.flatten.flatMap (hits fl n l)).map f).sum
      ((ts.flatten.flatMap (hits fl n l)).map A).sum (proj (p2gAccumulateFl fl P n ts l)) := by
  have := foldl_near (u := u) (fun g t => mergeThreadFl fl P g (threadLocalFl fl P n t)) (fun g => proj (g l))
    (fun t => ((t.flatMap (hits fl n l)).map f).sum) (fun t => ((t.flatMap (hits fl n l)).map A).sum) 1 ts
    (fun t ht j g s a hj hn => by
      rw [hproj]
      exact hn.add hr ((hfold t ht).mono hr.nonneg hj)) (g := fun _ => CellFl.zero) (k0 := k) (k := k) le_rfl
    (by rw [h0]; exact zero_near k)
  rw [sum_flatMap_flatten, sum_flatMap_flatten, zero_add, zero_add, one_mul] at this
  exact this

end Verif
