import Verif.Lemmas.Plastic

set_option linter.unusedSectionVars false
set_option linter.unusedSimpArgs false

/-! # Lemmas on the viscoplastic increments -/

namespace Verif

/-- The flow equations of the two viscoplastic formulations for exponent one, in terms of the new shear
stress `qn`, the yield stress `y` and the plastic shear rate `rate`. -/
def FlowEq (m : Material) (y qn rate : ℝ) : Prop :=
  if m.useDuvautLions then qn = y + m.fMu * m.viscTime * rate else qn = y * (1 + m.viscTime * rate)

/-- The flow equation determines the stress. -/
lemma FlowEq.unique {m : Material} (hf : 0 < m.fMu) (hτ : 0 ≤ m.viscTime) {dt : ℝ} (hdt : 0 < dt) {qt y a b : ℝ}
    (hy : 0 ≤ y) (ha : FlowEq m y (qt - m.fMu * (a * dt)) a) (hb : FlowEq m y (qt - m.fMu * (b * dt)) b) :
    a = b := by
  unfold FlowEq at ha hb
  have hfd : 0 < m.fMu * dt := by positivity
  split_ifs at ha hb
  · have : (a - b) * (m.fMu * dt + m.fMu * m.viscTime) = 0 := by linarith
    have h2 : 0 < m.fMu * dt + m.fMu * m.viscTime := by positivity
    rcases mul_eq_zero.mp this with h | h <;> linarith
  · have : (a - b) * (m.fMu * dt + y * m.viscTime) = 0 := by linarith
    have h2 : 0 < m.fMu * dt + y * m.viscTime := by positivity
    rcases mul_eq_zero.mp this with h | h <;> linarith

lemma closedForm_spec {m : Material} (hf : 0 < m.fMu) (hτ : 0 ≤ m.viscTime) {dt : ℝ} (hdt : 0 < dt) {qt y : ℝ}
    (hy : 0 ≤ y) (hqt : y < qt) :
    0 < (closedForm m dt qt y).1 ∧ (closedForm m dt qt y).2 = false ∧
    y ≤ qt - m.fMu * (closedForm m dt qt y).1 ∧
    FlowEq m y (qt - m.fMu * (closedForm m dt qt y).1) ((closedForm m dt qt y).1 / dt) := by
  have h0 : 0 < qt - y := by linarith
  have hq : 0 ≤ m.viscTime / dt := by positivity
  unfold FlowEq closedForm
  cases m.useDuvautLions
  · simp only [Bool.false_eq_true, if_false]
    have hD : 0 < m.fMu + y * m.viscTime / dt := by positivity
    set D := m.fMu + y * m.viscTime / dt with hDd
    have hp : 0 < (qt - y) / D := by positivity
    refine ⟨hp, decide_eq_false (not_lt.mpr hp.le), ?_, ?_⟩
    · have : m.fMu * ((qt - y) / D) ≤ qt - y := by
        rw [← mul_div_assoc, div_le_iff₀ hD]
        have : 0 ≤ y * m.viscTime / dt := by positivity
        nlinarith
      linarith
    · set g := (qt - y) / D
      have hg : g * D = qt - y := by simp only [g]; field_simp
      rw [hDd] at hg
      have e : y * (m.viscTime * (g / dt)) = g * (y * m.viscTime / dt) := by ring
      rw [mul_add, mul_one, e]
      linarith
  · simp only [if_true]
    have hD : 0 < m.fMu * (1 + m.viscTime / dt) := by positivity
    set D := m.fMu * (1 + m.viscTime / dt) with hDd
    have hp : 0 < (qt - y) / D := by positivity
    refine ⟨hp, decide_eq_false (not_lt.mpr hp.le), ?_, ?_⟩
    · have : m.fMu * ((qt - y) / D) ≤ qt - y := by
        rw [← mul_div_assoc, div_le_iff₀ hD]
        have : 0 ≤ m.fMu * (m.viscTime / dt) := by positivity
        nlinarith
      linarith
    · set g := (qt - y) / D
      have hg : g * D = qt - y := by simp only [g]; field_simp
      rw [hDd] at hg
      have e : m.fMu * m.viscTime * (g / dt) = g * (m.fMu * (m.viscTime / dt)) := by ring
      rw [e]
      linarith

lemma clamp_nonneg (x : ℝ) : 0 ≤ if x < 0 then (1e-10 : ℝ) else x := by
  split_ifs with h
  · norm_num
  · exact not_lt.mp h

/-- A Newton loop that does not set the error flag has found a point of small residual. -/
lemma newtonLoop_spec {resid diff : ℝ → Option ℝ} {n : ℕ} {dg : ℝ} {exit : Bool} {r : ℝ × Bool}
    (h : newtonLoop resid diff n dg exit = some r) (hr : r.2 = false) :
    exit = false ∧ (0 < n → ∃ v, resid r.1 = some v ∧ |v| < 1e-2) ∧ (0 ≤ dg → 0 ≤ r.1) ∧
      (r.1 = dg ∨ 0 ≤ r.1) := by
  induction n generalizing dg exit with
  | zero =>
    simp only [newtonLoop, Option.some.injEq] at h
    subst h
    exact ⟨hr, fun h => absurd h (lt_irrefl _), fun h => h, Or.inl rfl⟩
  | succ n ih =>
    simp only [newtonLoop, Option.bind_eq_bind, Option.bind_eq_some_iff] at h
    obtain ⟨v, hv, h⟩ := h
    by_cases hs : |v| < 1e-2
    · rw [if_pos hs, Option.some.injEq] at h
      subst h
      exact ⟨(Bool.or_eq_false_iff.mp hr).1, fun _ => ⟨v, hv, hs⟩, fun h => h, Or.inl rfl⟩
    · rw [if_neg hs, Option.bind_eq_some_iff] at h
      obtain ⟨w, -, h⟩ := h
      obtain ⟨h1, h2, h3, -⟩ := ih h
      have hb := Bool.or_eq_false_iff.mp h1
      have hn : 0 < n := by
        rcases Nat.eq_zero_or_pos n with h0 | h0
        · rw [h0] at hb; exact absurd hb.2 (by decide)
        · exact h0
      have hnn : 0 ≤ r.1 := h3 (clamp_nonneg _)
      exact ⟨hb.1, fun _ => h2 hn, fun _ => hnn, Or.inr hnn⟩

/-- If residual and derivative are defined at all non-negative increments, the loop has a result. -/
lemma newtonLoop_total {resid diff : ℝ → Option ℝ} (h1 : ∀ x, 0 ≤ x → ∃ v, resid x = some v)
    (h2 : ∀ x, 0 ≤ x → ∃ v, diff x = some v) (n : ℕ) {dg : ℝ} (h0 : 0 ≤ dg) (exit : Bool) :
    ∃ r, newtonLoop resid diff n dg exit = some r := by
  induction n generalizing dg exit with
  | zero => exact ⟨_, rfl⟩
  | succ n ih =>
    obtain ⟨v, hv⟩ := h1 dg h0
    obtain ⟨w, hw⟩ := h2 dg h0
    simp only [newtonLoop, hv, hw, Option.bind_eq_bind, Option.bind_some]
    by_cases h3 : |v| < 1e-2
    · rw [if_pos h3]; exact ⟨_, rfl⟩
    · rw [if_neg h3]; exact ih (clamp_nonneg _) _

lemma fpow_eq_some {x y v : ℝ} (h : fpow x y = some v) : v = x ^ y := by
  unfold fpow at h
  split_ifs at h
  exact (Option.some.inj h).symm

lemma fpow_of_pos {x : ℝ} (h : 0 < x) (y : ℝ) : fpow x y = some (x ^ y) := by
  unfold fpow
  rw [if_neg]
  rintro (h1 | h1) <;> linarith [h1]

lemma fpow_of_nonneg {x y : ℝ} (h : 0 ≤ x) (hy : 0 ≤ y) : fpow x y = some (x ^ y) := by
  unfold fpow
  rw [if_neg]
  rintro (h1 | h1) <;> linarith [h1]

lemma fdiv_of_pos {x y : ℝ} (h : 0 < y) : fdiv x y = some (x / y) := by
  unfold fdiv; rw [if_neg h.ne']

lemma fdiv_of_ne {x y : ℝ} (h : y ≠ 0) : fdiv x y = some (x / y) := by
  unfold fdiv; rw [if_neg h]

lemma fdiv_eq_some {x y v : ℝ} (h : fdiv x y = some v) : y ≠ 0 ∧ v = x / y := by
  unfold fdiv at h
  split_ifs at h with h0
  exact ⟨h0, (Option.some.inj h).symm⟩

lemma residDL_eq {m : Material} {dt qt : ℝ} {qy : ℝ → ℝ} {g : ℝ} (h : 0 ≤ m.viscTime / dt * g)
    (hn : 0 ≤ m.viscExponent) :
    residDL m dt qt qy g = some (qt - qy g - m.fMu * ((m.viscTime / dt * g) ^ m.viscExponent + g)) := by
  rw [residDL, fpow_of_nonneg h hn]; rfl

lemma residPerzyna_eq {m : Material} {dt qt : ℝ} {qy : ℝ → ℝ} {g : ℝ} (hdt : 0 < dt)
    (h : 0 < m.viscTime * g + dt) :
    residPerzyna m dt qt qy g =
      some ((qt - m.fMu * g) * (dt / (m.viscTime * g + dt)) ^ m.viscExponent - qy g) := by
  simp only [residPerzyna, fdiv_of_pos h, Option.bind_eq_bind, Option.bind_some,
    fpow_of_pos (show 0 < dt / (m.viscTime * g + dt) by positivity)]

/-- The viscous increment is defined for an exponent of at least one. -/
lemma viscIncrement_total {m : Material} (hf : 0 < m.fMu) (hτ : 0 ≤ m.viscTime) (hn : 1 ≤ m.viscExponent)
    {dt : ℝ} (hdt : 0 < dt) (closed : Bool) {qt y : ℝ} (hqt : y ≤ qt) (qy qyd : ℝ → ℝ) (exit : Bool) :
    ∃ r, viscIncrement m dt closed qt y qy qyd exit = some r := by
  unfold viscIncrement
  have h0 : 0 ≤ 0.01 * (qt - y) / m.fMu := by
    have : 0 ≤ qt - y := by linarith
    positivity
  have ht : 0 ≤ m.viscTime / dt := by positivity
  split_ifs
  · exact ⟨_, rfl⟩
  · apply newtonLoop_total _ _ _ h0
    · intro x hx
      exact ⟨_, residDL_eq (by positivity) (by linarith)⟩
    · intro x hx
      simp only [residDiffDL, fpow_of_nonneg ht (by linarith : 0 ≤ m.viscExponent),
        fpow_of_nonneg hx (by linarith : 0 ≤ m.viscExponent - 1), Option.bind_eq_bind, Option.bind_some]
      exact ⟨_, rfl⟩
  · apply newtonLoop_total _ _ _ h0
    · intro x hx
      exact ⟨_, residPerzyna_eq hdt (by positivity)⟩
    · intro x hx
      have hp : 0 < m.viscTime * x + dt := by positivity
      have hq : 0 < dt / (m.viscTime * x + dt) := by positivity
      simp only [residDiffPerzyna, fdiv_of_pos hp, fpow_of_pos hq, Option.bind_eq_bind, Option.bind_some,
        fdiv_of_pos (mul_pos hp hp)]
      exact ⟨_, rfl⟩

/-- The two flow equations for an arbitrary exponent: by how much they are violated. -/
noncomputable def flowResidual (m : Material) (y qn rate : ℝ) : ℝ :=
  if m.useDuvautLions then qn - y - m.fMu * (m.viscTime * rate) ^ m.viscExponent
  else qn * (1 / (1 + m.viscTime * rate)) ^ m.viscExponent - y

/-- Without error flag the increment is non-negative and solves the flow equation within the tolerance. -/
lemma viscIncrement_newton {m : Material} (hf : 0 < m.fMu) (hτ : 0 ≤ m.viscTime) (hn : 0 ≤ m.viscExponent)
    {dt : ℝ} (hdt : 0 < dt) {qt y : ℝ} (hqt : y ≤ qt) (qy qyd : ℝ → ℝ) {exit : Bool} {r : ℝ × Bool}
    (h : viscIncrement m dt false qt y qy qyd exit = some r) (hr : r.2 = false) :
    exit = false ∧ 0 ≤ r.1 ∧ |flowResidual m (qy r.1) (qt - m.fMu * r.1) (r.1 / dt)| < 1e-2 := by
  unfold viscIncrement at h
  have h0 : 0 ≤ 0.01 * (qt - y) / m.fMu := by
    have : 0 ≤ qt - y := by linarith
    positivity
  simp only [Bool.false_eq_true, if_false] at h
  unfold flowResidual
  split_ifs at h ⊢ with hd
  · obtain ⟨h1, h2, h3, -⟩ := newtonLoop_spec h hr
    obtain ⟨v, hv, hb⟩ := h2 (by norm_num)
    have h3 := h3 h0
    have : 0 ≤ m.viscTime / dt * r.1 := by positivity
    rw [residDL_eq this hn, Option.some.injEq] at hv
    refine ⟨h1, h3, ?_⟩
    rw [← hv] at hb
    convert hb using 2
    rw [show m.viscTime / dt * r.1 = m.viscTime * (r.1 / dt) by ring]
    ring
  · obtain ⟨h1, h2, h3, -⟩ := newtonLoop_spec h hr
    obtain ⟨v, hv, hb⟩ := h2 (by norm_num)
    have h3 := h3 h0
    rw [residPerzyna_eq hdt (by positivity), Option.some.injEq] at hv
    refine ⟨h1, h3, ?_⟩
    rw [← hv] at hb
    convert hb using 4
    field_simp
    ring_nf

end Verif
