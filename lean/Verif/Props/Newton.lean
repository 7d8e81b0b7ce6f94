import Verif.Props.CamClayVisc
import Mathlib.LinearAlgebra.Matrix.Notation
import Mathlib.LinearAlgebra.Matrix.Determinant.Basic
import Mathlib.Analysis.Calculus.Deriv.Pow
import Mathlib.Analysis.Calculus.Deriv.Mul
import Mathlib.Analysis.Calculus.Deriv.Add

set_option linter.unusedSectionVars false
set_option linter.unusedSimpArgs false
set_option linter.unusedVariables false

/-!
# C79: the Cam-Clay correction with explicit hardening solves the equations of associated flow by Newton's method

`flowEqs` states the equations with derivatives of the yield function, `IsJacobian` what the Jacobian matrix of a
system is, `CamStep` what one Newton step is. None of them mentions how the code computes these.
-/

namespace Verif.Props
open Verif Matrix

variable {d : ℕ}

/-- The matrix of the partial derivatives of `R` at `x`. -/
def IsJacobian {n : ℕ} (R : (Fin n → ℝ) → Fin n → ℝ) (x : Fin n → ℝ) (J : Matrix (Fin n) (Fin n) ℝ) : Prop :=
  ∀ i j, HasDerivAt (fun t => R (Function.update x j t) i) (J i j) (x j)

/-- The yield function of the Cam-Clay model: negative inside of the ellipse. -/
def camYield (M pc beta p q : ℝ) : ℝ := M ^ 2 * (p - pc) * (p + beta * pc) + q ^ 2

/-- The equations of the stress correction for the unknowns pressure, shear stress and plastic multiplier: both
components of the plastic strain increment are the multiplier times the derivative of the yield function, and the new
stress is on the ellipse. `K` and `f` are the stiffnesses against volume change and shear. -/
noncomputable def flowEqs (M pc beta K f pT qT : ℝ) (x : Fin 3 → ℝ) : Fin 3 → ℝ :=
  ![pT - x 0 - K * (x 2 * deriv (fun p => camYield M pc beta p (x 1)) (x 0)),
    qT - x 1 - f * (x 2 * deriv (fun q => camYield M pc beta (x 0) q) (x 1)),
    camYield M pc beta (x 0) (x 1)]

/-- One pass of the solver: a Newton step, or a fixed small step if the determinant of the Jacobian matrix is small;
the shear stress is kept above `1e-15`. -/
def CamStep (cabs : ℝ → ℝ) (pc : ℝ) (R : (Fin 3 → ℝ) → Fin 3 → ℝ) (x x' : Fin 3 → ℝ) : Prop :=
  ∃ J y, IsJacobian R x J ∧
    (¬ cabs J.det < 1e-6 ∧ J *ᵥ (x - y) = R x ∨
      cabs J.det < 1e-6 ∧ y = x - ![0.001 * R x 0, 0.001 * R x 1, 0.001 * R x 2 / pc ^ 2]) ∧
    x' = ![y 0, max (y 1) 1e-15, y 2]

/-- The convergence test of pass `i`. -/
def CamDone (R : (Fin 3 → ℝ) → Fin 3 → ℝ) (i : ℕ) (x : Fin 3 → ℝ) : Prop := 4 < i ∧ ∀ j, |R x j| < 1e-3

/-- A solver started at `x0` is at `x` in pass `n`, and has not met the convergence test before. -/
def Reached {X : Type*} (Step : X → X → Prop) (Done : ℕ → X → Prop) (x0 : X) (n : ℕ) (x : X) : Prop :=
  ∃ xs : ℕ → X, xs 0 = x0 ∧ xs n = x ∧ ∀ i < n, ¬ Done i (xs i) ∧ Step (xs i) (xs (i + 1))

lemma Reached.refl {X : Type*} (Step : X → X → Prop) (Done : ℕ → X → Prop) (x0 : X) :
    Reached Step Done x0 0 x0 :=
  ⟨fun _ => x0, rfl, rfl, fun i hi => absurd hi (by omega)⟩

lemma Reached.cons {X : Type*} {Step : X → X → Prop} {Done : ℕ → X → Prop} {x0 x1 x : X} {n : ℕ}
    (h0 : ¬ Done 0 x0) (h1 : Step x0 x1) (h : Reached Step (fun i => Done (i + 1)) x1 n x) :
    Reached Step Done x0 (n + 1) x := by
  obtain ⟨xs, a, b, c⟩ := h
  refine ⟨fun i => match i with | 0 => x0 | i + 1 => xs i, rfl, b, fun i hi => ?_⟩
  match i with
  | 0 => exact ⟨h0, by simpa only [a] using h1⟩
  | i + 1 => exact c i (by omega)

/-- Nearest pressure on the ellipse. -/
noncomputable def clipP (pc beta p : ℝ) : ℝ := min (max p (-beta * pc)) pc

/-! ### Closed forms -/

lemma camYield_dp (M pc beta p q : ℝ) :
    HasDerivAt (fun p => camYield M pc beta p q) (M * M * (beta * pc + 2 * p - pc)) p := by
  unfold camYield
  have h1 : HasDerivAt (fun p : ℝ => M ^ 2 * (p - pc)) (M ^ 2 * 1) p := ((hasDerivAt_id p).sub_const pc).const_mul _
  have h2 : HasDerivAt (fun p : ℝ => p + beta * pc) 1 p := (hasDerivAt_id p).add_const _
  exact ((h1.mul h2).add_const _).congr_deriv (by ring)

lemma camYield_dq (M pc beta p q : ℝ) : HasDerivAt (fun q => camYield M pc beta p q) (2 * q) q := by
  unfold camYield
  have h1 : HasDerivAt (fun q : ℝ => q ^ 2) (2 * q) q := by simpa using hasDerivAt_pow 2 q
  simpa using h1.const_add (M ^ 2 * (p - pc) * (p + beta * pc))

lemma flowEqs_eq (M pc beta K f pT qT : ℝ) (x : Fin 3 → ℝ) :
    flowEqs M pc beta K f pT qT x =
      ![pT - x 0 - K * x 2 * (M * M * (beta * pc + 2 * x 0 - pc)), qT - x 1 - f * x 2 * (2 * x 1),
        M * M * (x 0 - pc) * (x 0 + beta * pc) + x 1 * x 1] := by
  unfold flowEqs
  rw [(camYield_dp M pc beta (x 0) (x 1)).deriv, (camYield_dq M pc beta (x 0) (x 1)).deriv, camYield]
  congr 1
  · ring
  · congr 1
    · ring
    · congr 1; ring

/-- The Jacobian matrix of the flow equations. -/
noncomputable def camJacobian (M pc beta K f : ℝ) (x : Fin 3 → ℝ) : Matrix (Fin 3) (Fin 3) ℝ :=
  !![-1 - K * x 2 * (2 * M * M), 0, -K * (M * M * (beta * pc + 2 * x 0 - pc));
     0, -1 - f * x 2 * 2, -f * (2 * x 1);
     M * M * (beta * pc + 2 * x 0 - pc), 2 * x 1, 0]

lemma hasDerivAt_lin (a b t : ℝ) : HasDerivAt (fun t : ℝ => a + b * t) b t := by
  simpa using ((hasDerivAt_id t).const_mul b).const_add a

lemma hasDerivAt_quad (a b c t : ℝ) : HasDerivAt (fun t : ℝ => a + b * t + c * t ^ 2) (b + 2 * c * t) t := by
  have h2 : HasDerivAt (fun t : ℝ => t ^ 2) (2 * t) t := by simpa using hasDerivAt_pow 2 t
  exact ((hasDerivAt_lin a b t).add (h2.const_mul c)).congr_deriv (by ring)

lemma camJacobian_spec (M pc beta K f pT qT : ℝ) (x : Fin 3 → ℝ) :
    IsJacobian (flowEqs M pc beta K f pT qT) x (camJacobian M pc beta K f x) := by
  intro i j
  simp only [flowEqs_eq]
  fin_cases j <;> fin_cases i <;>
    simp [camJacobian, Function.update, Fin.ext_iff]
  · exact (hasDerivAt_quad (pT - K * x 2 * (M * M * (beta * pc - pc))) (-1 - K * x 2 * (2 * M * M)) 0 (x 0)).congr_deriv
      (by ring) |>.congr_of_eventuallyEq (Filter.Eventually.of_forall fun t => by ring)
  · exact hasDerivAt_const _ _
  · exact (hasDerivAt_quad (-(M * M * pc * (beta * pc))) (M * M * (beta * pc - pc)) (M * M) (x 0)).congr_deriv
      (by ring) |>.congr_of_eventuallyEq (Filter.Eventually.of_forall fun t => by ring)
  · exact hasDerivAt_const _ _
  · exact (hasDerivAt_quad qT (-1 - f * x 2 * 2) 0 (x 1)).congr_deriv
      (by ring) |>.congr_of_eventuallyEq (Filter.Eventually.of_forall fun t => by ring)
  · exact (hasDerivAt_quad 0 0 1 (x 1)).congr_deriv
      (by ring) |>.congr_of_eventuallyEq (Filter.Eventually.of_forall fun t => by ring)
  · exact (hasDerivAt_quad (pT - x 0) (-(K * (M * M * (beta * pc + 2 * x 0 - pc)))) 0 (x 2)).congr_deriv
      (by ring) |>.congr_of_eventuallyEq (Filter.Eventually.of_forall fun t => by ring)
  · exact (hasDerivAt_quad (qT - x 1) (-(f * (2 * x 1))) 0 (x 2)).congr_deriv
      (by ring) |>.congr_of_eventuallyEq (Filter.Eventually.of_forall fun t => by ring)
  · exact hasDerivAt_const _ _

lemma newtonStep3_cases {cabs : ℝ → ℝ} {J11 J13 J22 J23 J31 J32 r1 r2 y pref p q g : ℝ} {r : ℝ × ℝ × ℝ}
    (h : newtonStep3 cabs J11 J13 J22 J23 J31 J32 r1 r2 y pref p q g = some r) :
    ∃ a b c, r = (p - a, max (q - b) 1e-15, g - c) ∧
      (cabs (J11 * (-J32 * J23) + J13 * (-J31 * J22)) < 1e-6 ∧ a = 0.001 * r1 ∧ b = 0.001 * r2 ∧
          c = 0.001 * y / (pref * pref) ∨
        ¬ cabs (J11 * (-J32 * J23) + J13 * (-J31 * J22)) < 1e-6 ∧ J11 * a + J13 * c = r1 ∧ J22 * b + J23 * c = r2 ∧
          J31 * a + J32 * b = y) := by
  have hmax : ∀ z : ℝ, (if z < 1e-15 then 1e-15 else z) = max z 1e-15 := by
    intro z
    split_ifs with hz
    · rw [max_eq_right hz.le]
    · rw [max_eq_left (not_lt.mp hz)]
  unfold newtonStep3 at h
  by_cases hc : cabs (J11 * (-J32 * J23) + J13 * (-J31 * J22)) < 1e-6
  · simp only [if_pos hc, Option.bind_eq_bind, Option.bind_assoc, Option.bind_some] at h
    obtain ⟨s, hs, h⟩ := Option.bind_eq_some_iff.mp h
    obtain ⟨-, rfl⟩ := fdiv_eq_some hs
    exact ⟨_, _, _, by rw [← Option.some.inj h, hmax], Or.inl ⟨hc, rfl, rfl, rfl⟩⟩
  · simp only [if_neg hc, Option.bind_eq_bind, Option.bind_assoc, Option.bind_some] at h
    obtain ⟨s1, hs1, h⟩ := Option.bind_eq_some_iff.mp h
    obtain ⟨s2, hs2, h⟩ := Option.bind_eq_some_iff.mp h
    obtain ⟨s3, hs3, h⟩ := Option.bind_eq_some_iff.mp h
    obtain ⟨h0, rfl⟩ := fdiv_eq_some hs1
    obtain ⟨-, rfl⟩ := fdiv_eq_some hs2
    obtain ⟨-, rfl⟩ := fdiv_eq_some hs3
    refine ⟨_, _, _, by rw [← Option.some.inj h, hmax], Or.inr ⟨hc, ?_, ?_, ?_⟩⟩
    · rw [← mul_div_assoc, ← mul_div_assoc, ← add_div, div_eq_iff h0]; ring
    · rw [← mul_div_assoc, ← mul_div_assoc, ← add_div, div_eq_iff h0]; ring
    · rw [← mul_div_assoc, ← mul_div_assoc, ← add_div, div_eq_iff h0]; ring

lemma newtonStep3_spec {cabs : ℝ → ℝ} {M pc beta K f pT qT : ℝ} {p q g : ℝ} {r : ℝ × ℝ × ℝ}
    (h : newtonStep3 cabs (-1 - K * g * (2 * M * M)) (-K * (M * M * (beta * pc + 2 * p - pc))) (-1 - f * g * 2)
      (-f * (2 * q)) (M * M * (beta * pc + 2 * p - pc)) (2 * q)
      (pT - p - K * g * (M * M * (beta * pc + 2 * p - pc))) (qT - q - f * g * (2 * q))
      (M * M * (p - pc) * (p + beta * pc) + q * q) pc p q g = some r) :
    CamStep cabs pc (flowEqs M pc beta K f pT qT) ![p, q, g] ![r.1, r.2.1, r.2.2] := by
  have hdet : (camJacobian M pc beta K f ![p, q, g]).det =
      (-1 - K * g * (2 * M * M)) * (-(2 * q) * (-f * (2 * q))) +
        -K * (M * M * (beta * pc + 2 * p - pc)) * (-(M * M * (beta * pc + 2 * p - pc)) * (-1 - f * g * 2)) := by
    rw [Matrix.det_fin_three]
    simp [camJacobian]
    ring
  obtain ⟨a, b, c, rfl, hcase⟩ := newtonStep3_cases h
  refine ⟨_, ![p - a, q - b, g - c], camJacobian_spec M pc beta K f pT qT _, ?_, by simp⟩
  rw [hdet]
  rcases hcase with ⟨hc, rfl, rfl, rfl⟩ | ⟨hc, h1, h2, h3⟩
  · refine Or.inr ⟨hc, ?_⟩
    rw [flowEqs_eq]
    ext i
    fin_cases i <;> simp [pow_two]
  · refine Or.inl ⟨hc, ?_⟩
    rw [flowEqs_eq]
    ext i
    fin_cases i <;> simp [camJacobian, Matrix.mulVec, dotProduct, Fin.sum_univ_three]
    · linarith
    · linarith
    · linarith

lemma camDone_iff (M pc beta K f pT qT p q g : ℝ) (i : ℕ) :
    CamDone (flowEqs M pc beta K f pT qT) i ![p, q, g] ↔
      4 < i ∧ |M * M * (p - pc) * (p + beta * pc) + q * q| < 1e-3 ∧
        |pT - p - K * g * (M * M * (beta * pc + 2 * p - pc))| < 1e-3 ∧ |qT - q - f * g * (2 * q)| < 1e-3 := by
  unfold CamDone
  rw [flowEqs_eq]
  constructor
  · rintro ⟨h, h'⟩
    exact ⟨h, by simpa using h' 2, by simpa using h' 0, by simpa using h' 1⟩
  · rintro ⟨h, h2, h0, h1⟩
    refine ⟨h, fun j => ?_⟩
    fin_cases j
    · simpa using h0
    · simpa using h1
    · simpa using h2

lemma explicitLoop_spec {cabs : ℝ → ℝ} {M pc beta K f pT qT : ℝ} :
    ∀ (n it : ℕ) (p q g : ℝ) (r : ℝ × ℝ), explicitLoop cabs M pc beta K f pT qT (n + 1) it p q g = some r →
      ∃ m ≤ n, ∃ x, Reached (CamStep cabs pc (flowEqs M pc beta K f pT qT))
        (fun i => CamDone (flowEqs M pc beta K f pT qT) (it + i)) ![p, q, g] m x ∧
        (CamDone (flowEqs M pc beta K f pT qT) (it + m) x ∧ r.1 = x 0 ∨
          ¬ CamDone (flowEqs M pc beta K f pT qT) (it + m) x ∧ m = n ∧ r.1 = if pc > 0.1 then x 0 else 1e-15) := by
  intro n
  induction n with
  | zero =>
    intro it p q g r h
    unfold explicitLoop at h
    refine ⟨0, le_rfl, ![p, q, g], Reached.refl _ _ _, ?_⟩
    dsimp only at h
    have hi := camDone_iff M pc beta K f pT qT p q g it
    by_cases hd : CamDone (flowEqs M pc beta K f pT qT) it ![p, q, g]
    · rw [if_pos (hi.mp hd)] at h
      exact Or.inl ⟨hd, by rw [← Option.some.inj h]; rfl⟩
    · rw [if_neg (mt hi.mpr hd)] at h
      refine Or.inr ⟨hd, rfl, ?_⟩
      simp only [if_true] at h
      split_ifs at h ⊢ with hp
      · rw [← Option.some.inj h]; rfl
      · rw [← Option.some.inj h]
  | succ n ih =>
    intro it p q g r h
    rw [explicitLoop] at h
    have hi := camDone_iff M pc beta K f pT qT p q g it
    by_cases hd : CamDone (flowEqs M pc beta K f pT qT) it ![p, q, g]
    · rw [if_pos (hi.mp hd)] at h
      exact ⟨0, Nat.zero_le _, ![p, q, g], Reached.refl _ _ _, Or.inl ⟨hd, by rw [← Option.some.inj h]; rfl⟩⟩
    · rw [if_neg (mt hi.mpr hd), if_neg (Nat.succ_ne_zero n)] at h
      obtain ⟨s, hs, h⟩ := Option.bind_eq_some_iff.mp h
      obtain ⟨m, hm, x, hx, hend⟩ := ih (it + 1) s.1 s.2.1 s.2.2 r h
      have e : ∀ i, it + 1 + i = it + (i + 1) := fun i => by omega
      refine ⟨m + 1, by omega, x, Reached.cons (by simpa using hd) (newtonStep3_spec hs) ?_, ?_⟩
      · simpa only [e] using hx
      · rw [e] at hend
        rcases hend with h1 | ⟨h1, h2, h3⟩
        · exact Or.inl h1
        · exact Or.inr ⟨h1, by omega, h3⟩

lemma rmaFinish_clip {M pc beta p : ℝ} {r : ℝ × ℝ} (h : rmaFinish M pc beta p = some r) :
    r.1 = clipP pc beta p := by
  unfold rmaFinish at h
  obtain ⟨s, -, h⟩ := Option.bind_eq_some_iff.mp h
  rw [← Option.some.inj h]; rfl

/-! ### The theorems -/

/-- What the solver delivers for the pressure: the clipped solution, or the value after the 40th pass. -/
def CamSolved (cabs : ℝ → ℝ) (M pc beta K f pT qT p : ℝ) : Prop :=
  ∃ n ≤ 39, ∃ x, Reached (CamStep cabs pc (flowEqs M pc beta K f pT qT)) (CamDone (flowEqs M pc beta K f pT qT))
      ![pT, qT, 0] n x ∧
    (CamDone (flowEqs M pc beta K f pT qT) n x ∧ p = clipP pc beta (x 0) ∨
      ¬ CamDone (flowEqs M pc beta K f pT qT) n x ∧ n = 39 ∧ p = clipP pc beta (if pc > 0.1 then x 0 else 1e-15))

/-- **C79**, explicit mapping. -/
theorem C79_explicit {cabs : ℝ → ℝ} {p q M pc beta K f : ℝ} {exit : Bool} {r : Rma}
    (h : mccRmaExplicit cabs p q exit M pc beta K f = some r) (hout : OutsideEllipse M pc beta p q) :
    CamSolved cabs M pc beta K f p q r.p ∧ r.exit = exit := by
  unfold mccRmaExplicit at h
  simp only at h
  have hout' : M * M * (p - pc) * (p + beta * pc) + q * q > 0 := hout
  rw [if_pos hout'] at h
  simp only [Option.bind_eq_bind, Option.bind_eq_some_iff] at h
  obtain ⟨a, ha, s, hs, h⟩ := h
  rw [← Option.some.inj h]
  refine ⟨?_, rfl⟩
  obtain ⟨n, hn, x, hx, hend⟩ := explicitLoop_spec 39 0 p q 0 a ha
  simp only [Nat.zero_add] at hx hend
  refine ⟨n, hn, x, hx, ?_⟩
  simp only [rmaFinish_clip hs]
  rcases hend with ⟨h1, h2⟩ | ⟨h1, h2, h3⟩
  · exact Or.inl ⟨h1, by rw [h2]⟩
  · exact Or.inr ⟨h1, h2, by rw [h3]⟩

/-- Yield function of the stress reached from the trial stress `(pT, qT)` with plastic multiplier `g`, for an ellipse of
unit size; the pressure reached. -/
noncomputable def pressureOf (M beta K pT g : ℝ) : ℝ := (pT - M ^ 2 * K * g * (beta - 1)) / (1 + 2 * M ^ 2 * K * g)

@[inherit_doc pressureOf]
noncomputable def yieldOf (M beta K mu pT qT g : ℝ) : ℝ :=
  camYield M 1 beta (pressureOf M beta K pT g) (qT / (1 + 2 * mu * g))

/-- Newton's step for the plastic multiplier. -/
def MultStep (Y : ℝ → ℝ) (g g' : ℝ) : Prop := ∃ S, HasDerivAt Y S g ∧ S ≠ 0 ∧ g' = g - Y g / S

/-- Convergence test of the mapping with the multiplier as its only unknown. -/
def MultDone (Y : ℝ → ℝ) (i : ℕ) (g : ℝ) : Prop := 4 ≤ i ∧ Y g < 1e-6

lemma explicitOnevarLoop_spec {M beta K mu pT qT : ℝ} :
    ∀ (n it : ℕ) (g : ℝ) (exit : Bool) (r : ℝ × Bool), explicitOnevarLoop M beta K mu pT qT (n + 1) it g exit = some r →
      ∃ m ≤ n, ∃ x, Reached (MultStep (yieldOf M beta K mu pT qT))
        (fun i => MultDone (yieldOf M beta K mu pT qT) (it + i)) g m x ∧ r.1 = pressureOf M beta K pT x ∧
        (MultDone (yieldOf M beta K mu pT qT) (it + m) x ∧ r.2 = exit ∨
          ¬ MultDone (yieldOf M beta K mu pT qT) (it + m) x ∧ m = n ∧ r.2 = true) := by
  intro n
  induction n with
  | zero =>
    intro it g exit r h
    rw [explicitOnevarLoop] at h
    simp only [Option.bind_eq_bind, Option.bind_eq_some_iff] at h
    obtain ⟨p, hp, q, hq, h⟩ := h
    obtain ⟨hp0, rfl⟩ := fdiv_eq_some hp
    obtain ⟨hq0, rfl⟩ := fdiv_eq_some hq
    refine ⟨0, le_rfl, g, Reached.refl _ _ _, ?_⟩
    have e1 : (pT - M * M * K * g * (beta - 1) * 1) / (1 + 2 * (M * M) * K * g) = pressureOf M beta K pT g := by
      unfold pressureOf; congr 1 <;> ring
    rw [e1] at h
    have e2 : M * M * (pressureOf M beta K pT g - 1) * (pressureOf M beta K pT g + beta * 1) +
        1 * (qT / (1 + 2 * 1 * mu * g) * (qT / (1 + 2 * 1 * mu * g))) = yieldOf M beta K mu pT qT g := by
      unfold yieldOf camYield; rw [mul_one 2]; ring
    rw [e2] at h
    by_cases hd : MultDone (yieldOf M beta K mu pT qT) it g
    · rw [if_pos (by exact ⟨hd.1, hd.2⟩)] at h
      rw [← Option.some.inj h]
      exact ⟨rfl, Or.inl ⟨hd, rfl⟩⟩
    · rw [if_neg (fun hc => hd ⟨hc.1, hc.2⟩), if_pos trivial] at h
      rw [← Option.some.inj h]
      exact ⟨rfl, Or.inr ⟨hd, rfl, rfl⟩⟩
  | succ n ih =>
    intro it g exit r h
    rw [explicitOnevarLoop] at h
    simp only [Option.bind_eq_bind, Option.bind_eq_some_iff] at h
    obtain ⟨p, hp, q, hq, h⟩ := h
    obtain ⟨hp0, rfl⟩ := fdiv_eq_some hp
    obtain ⟨hq0, rfl⟩ := fdiv_eq_some hq
    have hp0' : 1 + 2 * M ^ 2 * K * g ≠ 0 := by
      intro hc; apply hp0; rw [← hc]; ring
    have hq0' : 1 + 2 * mu * g ≠ 0 := by
      intro hc; apply hq0; rw [← hc]; ring
    have e1 : (pT - M * M * K * g * (beta - 1) * 1) / (1 + 2 * (M * M) * K * g) = pressureOf M beta K pT g := by
      unfold pressureOf; congr 1 <;> ring
    rw [e1] at h
    have e2 : M * M * (pressureOf M beta K pT g - 1) * (pressureOf M beta K pT g + beta * 1) +
        1 * (qT / (1 + 2 * 1 * mu * g) * (qT / (1 + 2 * 1 * mu * g))) = yieldOf M beta K mu pT qT g := by
      unfold yieldOf camYield; rw [mul_one 2]; ring
    rw [e2] at h
    by_cases hd : MultDone (yieldOf M beta K mu pT qT) it g
    · rw [if_pos (by exact ⟨hd.1, hd.2⟩)] at h
      refine ⟨0, Nat.zero_le _, g, Reached.refl _ _ _, ?_⟩
      rw [← Option.some.inj h]
      exact ⟨rfl, Or.inl ⟨hd, rfl⟩⟩
    · rw [if_neg (fun hc => hd ⟨hc.1, hc.2⟩), if_neg (Nat.succ_ne_zero n)] at h
      simp only [Option.bind_eq_some_iff] at h
      obtain ⟨dp, hdp, dq, hdq, s, hs, h⟩ := h
      obtain ⟨-, rfl⟩ := fdiv_eq_some hdp
      obtain ⟨-, rfl⟩ := fdiv_eq_some hdq
      obtain ⟨hs0, rfl⟩ := fdiv_eq_some hs
      obtain ⟨m, hm, x, hx, hr, hend⟩ := ih (it + 1) _ exit r h
      have e : ∀ i, it + 1 + i = it + (i + 1) := fun i => by omega
      refine ⟨m + 1, by omega, x, Reached.cons (by simpa using hd) ⟨_, ?_, hs0, rfl⟩ ?_, hr, ?_⟩
      · have hP : HasDerivAt (pressureOf M beta K pT)
            ((-2 * (M * M) * K * pT - M * M * K * (beta - 1) * 1) /
              ((1 + 2 * (M * M) * K * g) * (1 + 2 * (M * M) * K * g))) g := by
          have h1 : HasDerivAt (fun g => pT - M ^ 2 * K * g * (beta - 1)) (-(M ^ 2 * K * (beta - 1))) g := by
            have := (((hasDerivAt_id g).const_mul (M ^ 2 * K)).mul_const (beta - 1)).const_sub pT
            exact this.congr_deriv (by ring)
          have h2 : HasDerivAt (fun g => 1 + 2 * M ^ 2 * K * g) (2 * M ^ 2 * K) g := by
            have := ((hasDerivAt_id g).const_mul (2 * M ^ 2 * K)).const_add 1
            exact this.congr_deriv (by ring)
          refine (h1.div h2 hp0').congr_deriv ?_
          rw [div_eq_div_iff (by positivity) (mul_ne_zero hp0 hp0)]
          ring
        have hQ : HasDerivAt (fun g => qT / (1 + 2 * mu * g))
            (-2 * 1 * mu * qT / ((1 + 2 * 1 * mu * g) * (1 + 2 * 1 * mu * g))) g := by
          have h2 : HasDerivAt (fun g => 1 + 2 * mu * g) (2 * mu) g := by
            have := ((hasDerivAt_id g).const_mul (2 * mu)).const_add 1
            exact this.congr_deriv (by ring)
          refine ((hasDerivAt_const g qT).div h2 hq0').congr_deriv ?_
          rw [div_eq_div_iff (by positivity) (mul_ne_zero hq0 hq0)]
          ring
        have := (((hP.sub_const 1).const_mul (M ^ 2)).mul (hP.add_const (beta * 1))).add (hQ.pow 2)
        refine (this.congr_deriv ?_)
        simp only [Nat.cast_ofNat, mul_one]
        ring
      · simpa only [e] using hx
      · rw [e] at hend
        rcases hend with h1 | ⟨h1, h2, h3⟩
        · exact Or.inl h1
        · exact Or.inr ⟨h1, by omega, h3⟩

/-- **C79**, explicit mapping with the plastic multiplier as its only unknown: Newton's method for the yield function
as a function of the multiplier, started at zero; an error is reported exactly if the last of the hundred passes does
not converge. All stresses are divided by the preconsolidation pressure `pc`. -/
theorem C79_explicitOnevar {p q M pc beta mu K : ℝ} {exit : Bool} (hpc : 0 < pc) {r : Rma}
    (h : mccRmaExplicitOnevar p q exit M pc beta mu K = some r) (hout : OutsideEllipse M pc beta p q) :
    ∃ Y, (∀ g, Y g = yieldOf M beta (K / pc) (mu / pc) (p / pc) (q / pc) g) ∧ ∃ n ≤ 99, ∃ g,
      Reached (MultStep Y) (MultDone Y) 0 n g ∧ r.p = pc * clipP 1 beta (pressureOf M beta (K / pc) (p / pc) g) ∧
      (MultDone Y n g ∧ r.exit = exit ∨ ¬ MultDone Y n g ∧ n = 99 ∧ r.exit = true) := by
  unfold mccRmaExplicitOnevar at h
  simp only at h
  have hy : ¬ M * M * (p - pc) * (p + beta * pc) + 1 * (q * q) ≤ 0 := by
    unfold OutsideEllipse at hout
    rw [not_le]; linarith
  rw [if_neg hy, fdiv_of_ne hpc.ne'] at h
  simp only [Option.bind_eq_bind, Option.bind_some, Option.bind_eq_some_iff] at h
  obtain ⟨a, ha, s, hs, h⟩ := h
  rw [← Option.some.inj h]
  simp only [mul_one_div] at ha
  obtain ⟨n, hn, x, hx, h1, hend⟩ := explicitOnevarLoop_spec 99 0 0 exit a ha
  simp only [Nat.zero_add] at hx hend
  refine ⟨_, fun g => rfl, n, hn, x, hx, ?_, hend⟩
  simp only [rmaFinish_clip hs, h1]
  ring

lemma onevar_defined : ∀ (n it : ℕ) (g : ℝ) (exit : Bool), 0 ≤ g → g ≤ 1 →
    ∃ r, explicitOnevarLoop 1 0 0 (1 / 2) (1 / 2) 1 n it g exit = some r ∧ r.1 = 1 / 2 := by
  intro n
  induction n with
  | zero => intro it g exit _ _; exact ⟨_, rfl, rfl⟩
  | succ n ih =>
    intro it g exit h0 h1
    rw [explicitOnevarLoop]
    have hu : (1 : ℝ) + 2 * 1 * (1 / 2) * g = 1 + g := by ring
    have hz : (1 : ℝ) + 2 * (1 * 1) * 0 * g = 1 := by ring
    have hp : (1 : ℝ) / 2 - 1 * 1 * 0 * g * (0 - 1) * 1 = 1 / 2 := by ring
    have hg : (1 : ℝ) + g ≠ 0 := by positivity
    simp only [hu, hz, hp, fdiv_of_ne one_ne_zero, fdiv_of_ne hg, Option.bind_eq_bind, Option.bind_some, div_one]
    split_ifs
    · exact ⟨_, rfl, rfl⟩
    · exact ⟨_, rfl, rfl⟩
    · simp only [mul_one, fdiv_of_ne one_ne_zero, fdiv_of_ne (mul_ne_zero hg hg), Option.bind_some]
      have hs : (1 : ℝ) * (2 * (1 / 2) * ((-2 * 0 * (1 / 2) - 1 * 0 * (0 - 1)) / 1) +
          (0 - 1) * ((-2 * 0 * (1 / 2) - 1 * 0 * (0 - 1)) / 1)) +
          2 * (1 / (1 + g)) * (-2 * (1 / 2) / ((1 + g) * (1 + g))) = -(2 / (1 + g) ^ 3) := by
        field_simp; ring
      rw [hs, fdiv_of_ne (neg_ne_zero.mpr (by positivity)), Option.bind_some]
      have hn : g - (1 * (1 / 2 - 1) * (1 / 2 + 0) + 1 * (1 / (1 + g) * (1 / (1 + g)))) / -(2 / (1 + g) ^ 3) =
          g + ((1 + g) - (1 + g) ^ 3 / 4) / 2 := by
        field_simp; ring
      rw [hn]
      refine ih _ _ _ ?_ ?_
      · nlinarith [mul_nonneg h0 h0, mul_nonneg h0 (sub_nonneg.mpr h1)]
      · nlinarith [mul_nonneg (mul_nonneg (sub_nonneg.mpr h1) (sub_nonneg.mpr h1)) h0, mul_nonneg (sub_nonneg.mpr h1) (sub_nonneg.mpr h1)]

/-- A trial stress at the critical pressure, twice the critical shear stress: the mapping keeps the pressure. -/
example : ∃ r, mccRmaExplicitOnevar (1 / 2) 1 false 1 1 0 (1 / 2) 0 = some r ∧ OutsideEllipse 1 1 0 (1 / 2) 1 ∧
    r.p = 1 / 2 ∧ r.q = 1 / 2 := by
  have ho : OutsideEllipse 1 1 0 (1 / 2) 1 := by norm_num [OutsideEllipse]
  obtain ⟨a, ha, hp⟩ := onevar_defined 100 0 0 false le_rfl zero_le_one
  have hq : (√(1 / 4) : ℝ) = 1 / 2 := by
    rw [show (1 / 4 : ℝ) = 1 / 2 * (1 / 2) by norm_num, Real.sqrt_mul_self (by norm_num)]
  have hr : rmaFinish 1 1 0 (1 / 2) = some (1 / 2, 1 / 2) := by
    norm_num [rmaFinish, fsqrt, hq]
  refine ⟨⟨1 / 2 * 1, 1 / 2 * 1, a.2, true⟩, ?_, ho, by norm_num, by norm_num⟩
  unfold mccRmaExplicitOnevar
  simp only
  rw [if_neg (by norm_num), fdiv_of_ne one_ne_zero]
  simp only [Option.bind_eq_bind, Option.bind_some, div_one, mul_one]
  rw [ha, Option.bind_some, hp, hr, Option.bind_some]

/-- **C79** Modified Cam-Clay with explicit hardening: the pressure in the particle files is what Newton's method
for the equations of associated flow yields, started at the trial stress. -/
theorem C79_camClay {cabs} {svd : Matrix (Fin d) (Fin d) ℝ → Svd d} {m : Material} (ok : MatOk m d)
    (cam : CamOk m) (hm : m.plastic = .mcc) (hh : isImplicit m.hardening = false) (hM : 0 ≤ m.M) (dt : ℝ)
    (q : Particle d ℝ) (exit : Bool) (hs : IsSvd q.F (svd q.F)) {out : PState d}
    (h : plasticity cabs svd m dt q exit = some out)
    (hout : OutsideEllipse m.M (hardeningPc m d q.epsPlVol) m.beta (trialP m (svd q.F)) (trialQ m (svd q.F))) :
    CamSolved cabs m.M (hardeningPc m d q.epsPlVol) m.beta (m.lam + 2 * m.mu / d) (2 * m.qPrefac ^ 2 * m.mu)
      (trialP m (svd q.F)) (trialQ m (svd q.F)) (newP out) ∧ out.exit = exit := by
  have hf : 2 * m.qPrefac ^ 2 * m.mu = m.fMu := by unfold Material.fMu; ring
  rw [hf]
  change CamSolved cabs m.M _ m.beta (m.K d) _ _ _ _ ∧ _
  obtain ⟨hP, hQ⟩ := trial_eq ok hs
  obtain ⟨st, h1, rfl⟩ := plasticity_some.mp h
  simp only [plastModel, hm] at h1
  obtain ⟨pc?, r, hr, h1⟩ := plastMCC_shape h1
  rw [← hP, ← hQ] at hr
  simp only [newP, newTau_hencky ok.hel]
  rcases mccReturn_spec cam ok.hK hM hr with ⟨-, d2, -⟩ | ⟨d1, d2⟩
  · exact absurd hout d2
  rcases h1 with ⟨h1, -⟩ | ⟨-, b, qs, e, muI, hv, rfl⟩
  · rw [d1] at h1; simp at h1
  simp only [hm, reduceCtorEq, if_false, Option.some.injEq, Prod.mk.injEq] at hv
  obtain ⟨rfl, rfl, rfl⟩ := hv
  have hq0 : 0 ≤ r.q := by obtain ⟨-, pc, -, ⟨a, -⟩, -⟩ := d2; exact a
  simp only [mccDone]
  rw [(saved_mcc ok hs.orthU (svd q.F).hencky hq0 (p := r.p)).1]
  unfold mccReturn at hr
  unfold hardeningPc at hout ⊢
  cases hc : m.hardening <;> simp only [hc, Option.bind_eq_bind, isImplicit, reduceCtorEq, Bool.true_eq_false] at hr hout hh ⊢
  · simp only [if_true, Option.bind_eq_some_iff, Option.some.injEq, Prod.mk.injEq] at hr
    obtain ⟨w, hw, -, rfl⟩ := hr
    exact C79_explicit hw hout
  · simp only [Option.bind_eq_some_iff, Option.some.injEq, Prod.mk.injEq] at hr
    obtain ⟨w, hw, -, rfl⟩ := hr
    exact C79_explicit hw hout
  · simp only [Option.bind_eq_some_iff, Option.some.injEq, Prod.mk.injEq] at hr
    obtain ⟨w, hw, -, rfl⟩ := hr
    exact C79_explicit hw hout

/-- The yield function as a function of the principal stresses. -/
noncomputable def princYield (M pc beta qPre : ℝ) (τ : Fin d → ℝ) : ℝ :=
  camYield M pc beta (-(∑ j, τ j) / d) (qPre * Real.sqrt (∑ j, (τ j - (∑ k, τ k) / d) ^ 2))

lemma princYield_eq (M pc beta qPre : ℝ) (τ : Fin d → ℝ) : princYield M pc beta qPre τ =
    M ^ 2 * (-(∑ j, τ j) / d - pc) * (-(∑ j, τ j) / d + beta * pc) +
      qPre ^ 2 * ∑ j, (τ j - (∑ k, τ k) / d) ^ 2 := by
  unfold princYield camYield
  rw [mul_pow, Real.sq_sqrt (Finset.sum_nonneg fun _ _ => sq_nonneg _)]

lemma princYield_deriv (hd : 0 < d) (M pc beta qPre : ℝ) (τ : Fin d → ℝ) (i : Fin d) :
    HasDerivAt (fun t => princYield M pc beta qPre (Function.update τ i t))
      (M ^ 2 * (2 * (-(∑ j, τ j) / d) + (beta - 1) * pc) * (-1 / d) +
        qPre ^ 2 * (2 * (τ i - (∑ k, τ k) / d))) (τ i) := by
  have hd0 : (d : ℝ) ≠ 0 := by positivity
  set S := ∑ j, τ j with hS
  have hsum : ∀ t, ∑ j, Function.update τ i t j = S + (t - τ i) := by
    intro t
    rw [Finset.sum_update_of_mem (Finset.mem_univ i), hS, ← Finset.add_sum_erase _ _ (Finset.mem_univ i),
      Finset.sdiff_singleton_eq_erase]
    ring
  have hsq : ∀ t, ∑ j, (Function.update τ i t j - (S + (t - τ i)) / d) ^ 2 =
      ∑ j, (τ j - S / d) ^ 2 + 2 * (τ i - S / d) * (t - τ i) + (1 - 1 / d) * (t - τ i) ^ 2 := by
    intro t
    have e : ∀ j, Function.update τ i t j - (S + (t - τ i)) / d =
        (τ j - S / d) + (t - τ i) * ((if j = i then 1 else 0) - 1 / (d : ℝ)) := by
      intro j
      by_cases hj : j = i
      · subst hj; rw [Function.update_self, if_pos rfl]; ring
      · rw [Function.update_of_ne hj, if_neg hj]; ring
    simp only [e]
    have e2 : ∀ j, ((τ j - S / d) + (t - τ i) * ((if j = i then 1 else 0) - 1 / (d : ℝ))) ^ 2 =
        (τ j - S / d) ^ 2 + (2 * (t - τ i)) * (if j = i then τ j - S / d else 0) -
          (2 * (t - τ i) / d) * (τ j - S / d) +
          (t - τ i) ^ 2 * (if j = i then 1 - 2 / (d : ℝ) else 0) + (t - τ i) ^ 2 * (1 / d ^ 2) := by
      intro j
      split_ifs with hj
      · subst hj; ring
      · ring
    have e3 : ∑ j, (τ j - S / d) = 0 := by
      rw [Finset.sum_sub_distrib, Finset.sum_const, Finset.card_univ, Fintype.card_fin, nsmul_eq_mul, ← hS]
      field_simp; ring
    generalize hA : ∑ j, (τ j - S / d) ^ 2 = A
    simp only [e2, Finset.sum_add_distrib, Finset.sum_sub_distrib (f := fun j => (τ j - S / d) ^ 2 + _), ← Finset.mul_sum, Finset.sum_ite_eq',
      Finset.mem_univ, if_true, Finset.sum_const, Finset.card_univ, Fintype.card_fin, nsmul_eq_mul]
    rw [hA, e3]
    field_simp
    ring
  have h1 : (fun t => princYield M pc beta qPre (Function.update τ i t)) = fun t =>
      M ^ 2 * (-(S + (t - τ i)) / d - pc) * (-(S + (t - τ i)) / d + beta * pc) +
        qPre ^ 2 * (∑ j, (τ j - S / d) ^ 2 + 2 * (τ i - S / d) * (t - τ i) + (1 - 1 / d) * (t - τ i) ^ 2) := by
    funext t
    rw [princYield_eq, hsum, hsq]
  rw [h1]
  have hl : HasDerivAt (fun t : ℝ => t - τ i) 1 (τ i) := (hasDerivAt_id _).sub_const _
  have hp : HasDerivAt (fun t : ℝ => -(S + (t - τ i)) / d) (-1 / d) (τ i) :=
    ((hl.const_add S).neg.div_const _)
  have h2 := (((hp.sub_const pc).const_mul (M ^ 2)).mul (hp.add_const (beta * pc))).add
    ((((hl.const_mul (2 * (τ i - S / d))).const_add (∑ j, (τ j - S / d) ^ 2)).add
      ((hl.pow 2).const_mul (1 - 1 / (d : ℝ)))).const_mul (qPre ^ 2))
  refine h2.congr_deriv ?_
  simp only [sub_self, add_zero]
  ring

/-- `C79_normal` in terms of the trial state of the model. -/
lemma flow_normal {m : Material} (ok : MatOk m d) (M pc beta : ℝ) {h h' τ : Fin d → ℝ} {p q g : ℝ}
    (hn : 0 < (mkTrial h).norm) (hq : 0 ≤ q)
    (hh : ∀ i, h' i = q / m.eMu * (mkTrial h).dir i - p / (m.K d * d))
    (hτ : ∀ i, τ i = m.lam * (∑ j, h' j) + 2 * m.mu * h' i)
    (hz : flowEqs M pc beta (m.lam + 2 * m.mu / d) (2 * m.qPrefac ^ 2 * m.mu) (-m.K d * (mkTrial h).trace)
      (m.eMu * (mkTrial h).norm) ![p, q, g] = 0) :
    princYield M pc beta m.qPrefac τ = 0 ∧
    ∀ i, ∃ D, HasDerivAt (fun t => princYield M pc beta m.qPrefac (Function.update τ i t)) D (τ i) ∧
      h i - h' i = g * D := by
  have hd0 := ok.dne
  have hK := ok.hK
  have hmu := ok.hmu
  have hqp := ok.hq
  have heMu : m.eMu = 2 * m.qPrefac * m.mu := rfl
  have hKd : m.lam = m.K d - 2 * m.mu / d := by unfold Material.K; ring
  have hKe : m.lam + 2 * m.mu / d = m.K d := rfl
  have hu := sum_dir ok.hd h
  have hu2 : ∑ i, (mkTrial h).dir i ^ 2 = 1 := by
    have h1 := mkTrial_dir_norm hn
    unfold vnorm at h1
    have h2 := Real.sqrt_eq_one.mp h1
    simpa only [pow_two, dotProduct] using h2
  have hdev : ∀ i, h i = (mkTrial h).norm * (mkTrial h).dir i + (mkTrial h).trace / d := by
    intro i
    have h1 := congrFun (mkTrial_dir h) i
    simp only [Pi.smul_apply, smul_eq_mul] at h1
    rw [← h1, mkTrial_trace]; simp [devOf]
  set u := (mkTrial h).dir
  set n := (mkTrial h).norm
  set tr := (mkTrial h).trace
  have hsum : ∑ j, h' j = -p / m.K d := by
    simp only [hh, Finset.sum_sub_distrib, ← Finset.mul_sum, hu, Finset.sum_const, Finset.card_univ, Fintype.card_fin,
      nsmul_eq_mul]
    field_simp; ring
  have hti : ∀ i, τ i = -p + q / m.qPrefac * u i := by
    intro i
    rw [hτ, hsum, hh, hKd, heMu]
    field_simp; ring
  have htS : (∑ j, τ j) / d = -p := by
    simp only [hti, Finset.sum_add_distrib, ← Finset.mul_sum, hu, Finset.sum_const, Finset.card_univ, Fintype.card_fin,
      nsmul_eq_mul]
    field_simp; ring
  have htS' : -(∑ j, τ j) / d = p := by rw [neg_div, htS, neg_neg]
  rw [flowEqs_eq, hKe] at hz
  have z0 := congrFun hz 0
  have z1 := congrFun hz 1
  have z2 := congrFun hz 2
  simp at z0 z1 z2
  refine ⟨?_, fun i => ⟨_, princYield_deriv ok.hd M pc beta m.qPrefac τ i, ?_⟩⟩
  · rw [princYield_eq, htS', htS]
    have : ∀ j, (τ j - -p) ^ 2 = (q / m.qPrefac) ^ 2 * u j ^ 2 := by intro j; rw [hti]; ring
    simp only [this, ← Finset.mul_sum, hu2]
    have e : m.qPrefac ^ 2 * ((q / m.qPrefac) ^ 2 * 1) = q * q := by field_simp
    rw [e, ← z2]; ring
  · rw [htS', htS, hti, hdev, hh, heMu]
    rw [heMu] at z1
    have e1 : n = q / (2 * m.qPrefac * m.mu) + 2 * m.qPrefac * q * g := by
      field_simp; linarith
    have e2 : tr = -p / m.K d - g * (M * M * (beta * pc + 2 * p - pc)) := by
      field_simp; linarith
    rw [e1, e2]
    field_simp
    ring

/-- **C79** Why these are the right equations: if they hold, the plastic strain removed from each principal strain is
the multiplier times the derivative of the yield function with respect to that principal stress, and the new stress is
on the yield surface. `h` and `h'` are the principal strains before and after the correction to pressure `p` and shear
stress `q`; `e` is the mean strain and `n` the norm of the deviatoric strain. -/
theorem C79_normal {m : Material} (ok : MatOk m d) (M pc beta : ℝ) {h h' τ : Fin d → ℝ} {p q g e n : ℝ}
    (he : e = (∑ j, h j) / d) (hn : n = Real.sqrt (∑ j, (h j - e) ^ 2)) (hn0 : 0 < n) (hq : 0 ≤ q)
    (hh : ∀ i, h' i = q / (2 * m.qPrefac * m.mu) * ((h i - e) / n) - p / ((m.lam + 2 * m.mu / d) * d))
    (hτ : ∀ i, τ i = m.lam * (∑ j, h' j) + 2 * m.mu * h' i)
    (hz : flowEqs M pc beta (m.lam + 2 * m.mu / d) (2 * m.qPrefac ^ 2 * m.mu) (-(m.lam + 2 * m.mu / d) * ∑ j, h j)
      (2 * m.qPrefac * m.mu * n) ![p, q, g] = 0) :
    princYield M pc beta m.qPrefac τ = 0 ∧
    ∀ i, ∃ D, HasDerivAt (fun t => princYield M pc beta m.qPrefac (Function.update τ i t)) D (τ i) ∧
      h i - h' i = g * D := by
  have e1 : (mkTrial h).norm = n := by
    rw [hn, he, mkTrial_norm, vnorm]
    simp only [dotProduct, devOf, pow_two]
  refine flow_normal (p := p) ok M pc beta (by rw [e1]; exact hn0) hq (fun i => ?_) hτ ?_
  · have h1 := congrFun (mkTrial_dir h) i
    simp only [Pi.smul_apply, smul_eq_mul, devOf, e1, ← he] at h1
    rw [hh i, h1, mul_div_cancel_left₀ _ hn0.ne']
    rfl
  · rw [e1, mkTrial_trace]
    exact hz

/-- **C79** When the iteration has converged to a pressure between the ends of the ellipse, the stress in the particle
files satisfies the flow equations up to `1e-3` for some plastic multiplier, apart from the final correction of the
shear stress onto the ellipse, which changes its square by less than `1e-3`. -/
theorem C79_accuracy {M pc beta K f pT qT p q : ℝ} {x : Fin 3 → ℝ} {n : ℕ}
    (hx : CamDone (flowEqs M pc beta K f pT qT) n x) (hp : p = clipP pc beta (x 0))
    (hc : -beta * pc ≤ x 0 ∧ x 0 ≤ pc) (hq : OnEllipse M pc beta p q) :
    |pT - p - K * (x 2 * deriv (fun p => camYield M pc beta p q) p)| < 1e-3 ∧
      |qT - x 1 - f * (x 2 * (2 * x 1))| < 1e-3 ∧ |q ^ 2 - x 1 ^ 2| < 1e-3 := by
  have hpx : p = x 0 := by rw [hp, clipP, max_eq_left hc.1, min_eq_left hc.2]
  have h0 := hx.2 0
  have h1 := hx.2 1
  have h2 := hx.2 2
  rw [flowEqs_eq] at h0 h1 h2
  simp at h0 h1 h2
  refine ⟨?_, ?_, ?_⟩
  · rw [(camYield_dp M pc beta p q).deriv, hpx]
    convert h0 using 2
    ring
  · convert h1 using 2
    ring
  · have e : q ^ 2 - x 1 ^ 2 = -(M * M * (x 0 - pc) * (x 0 + beta * pc) + x 1 * x 1) := by
      have := hq.2.2.2
      rw [hpx] at this
      rw [pow_two, this]; ring
    rw [e, abs_neg]
    exact h2

/-- An exact solution exists: in two dimensions with unit pressure, slope and stiffnesses. -/
example : flowEqs 1 1 1 1 1 0 2 ![0, 1, 1 / 2] = 0 := by
  rw [flowEqs_eq]
  ext i; fin_cases i <;> (simp; try norm_num)

/-- The hypotheses of `C79_explicit` are met outside of the ellipse, whatever the Newton iterates. -/
example : ∃ r, mccRmaExplicit abs 0 2 false 1 1 (1 / 2) 1 1 = some r ∧ CamSolved abs 1 1 (1 / 2) 1 1 0 2 r.p := by
  obtain ⟨r, hr⟩ := C40_explicit_defined (cabs := abs) abs_zero (M := 1) (pc := 1) (beta := 1 / 2) zero_le_one
    (by norm_num) one_pos 0 2 1 1 false
  exact ⟨r, hr, (C79_explicit hr (by norm_num [OutsideEllipse])).1⟩

end Verif.Props
