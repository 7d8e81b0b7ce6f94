import Verif.Lemmas.Visc

set_option linter.unusedSectionVars false
set_option linter.unusedSimpArgs false

/-! # Lemmas on the Cam-Clay return mappings -/

namespace Verif

/-- `(p, q)` lies on the Cam-Clay ellipse with preconsolidation pressure `pc`. -/
def OnEllipse (M pc beta p q : ℝ) : Prop :=
  0 ≤ q ∧ -beta * pc ≤ p ∧ p ≤ pc ∧ q * q = M * M * (pc - p) * (p + beta * pc)

/-- `(p, q)` lies outside the Cam-Clay ellipse. -/
def OutsideEllipse (M pc beta p q : ℝ) : Prop := 0 < M * M * (p - pc) * (p + beta * pc) + q * q

/-- An end point of the ellipse on the pressure axis. -/
def AtEnd (pc beta p q : ℝ) : Prop := q = 0 ∧ (p = pc ∨ p = -beta * pc)

lemma OnEllipse.scale {M pc beta p q s : ℝ} (hs : 0 ≤ s) (h : OnEllipse M pc beta p q) :
    OnEllipse M (pc * s) beta (p * s) (q * s) := by
  obtain ⟨h1, h2, h3, h4⟩ := h
  refine ⟨mul_nonneg h1 hs, ?_, mul_le_mul_of_nonneg_right h3 hs, ?_⟩
  · have := mul_le_mul_of_nonneg_right h2 hs; linarith
  · calc q * s * (q * s) = q * q * (s * s) := by ring
      _ = _ := by rw [h4]; ring

lemma AtEnd.scale {pc beta p q : ℝ} (s : ℝ) (h : AtEnd pc beta p q) : AtEnd (pc * s) beta (p * s) (q * s) := by
  obtain ⟨rfl, rfl | rfl⟩ := h
  · exact ⟨by ring, Or.inl rfl⟩
  · exact ⟨by ring, Or.inr (by ring)⟩

lemma ellipse_of_sqrt {M pc beta p : ℝ} (hM : 0 ≤ M) (hr : 0 ≤ (pc - p) * (beta * pc + p))
    (h1 : -beta * pc ≤ p) (h2 : p ≤ pc) : OnEllipse M pc beta p (M * Real.sqrt ((pc - p) * (beta * pc + p))) := by
  refine ⟨by positivity, h1, h2, ?_⟩
  have := Real.mul_self_sqrt hr
  calc M * Real.sqrt ((pc - p) * (beta * pc + p)) * (M * Real.sqrt ((pc - p) * (beta * pc + p)))
      = M * M * (Real.sqrt ((pc - p) * (beta * pc + p)) * Real.sqrt ((pc - p) * (beta * pc + p))) := by ring
    _ = _ := by rw [this]; ring

lemma rmaFinish_spec {M pc beta : ℝ} (hM : 0 ≤ M) (hb : -beta * pc ≤ pc) (p : ℝ) :
    ∃ r, rmaFinish M pc beta p = some r ∧ OnEllipse M pc beta r.1 r.2 ∧
      (r.1 = p ∨ AtEnd pc beta r.1 r.2) := by
  have h1 : -beta * pc ≤ min (max p (-beta * pc)) pc := le_min (le_max_right _ _) hb
  have h2 : min (max p (-beta * pc)) pc ≤ pc := min_le_right _ _
  set p2 := min (max p (-beta * pc)) pc with hp2
  have hr : 0 ≤ (pc - p2) * (beta * pc + p2) := mul_nonneg (by linarith) (by linarith)
  refine ⟨(p2, M * Real.sqrt ((pc - p2) * (beta * pc + p2))), ?_, ellipse_of_sqrt hM hr h1 h2, ?_⟩
  · simp only [rmaFinish, fsqrt, ← hp2, if_neg (not_lt.mpr hr), Option.bind_eq_bind, Option.bind_some]
  · rcases le_total p (-beta * pc) with h | h
    · right
      have : p2 = -beta * pc := by rw [hp2, max_eq_right h, min_eq_left hb]
      refine ⟨?_, Or.inr this⟩
      simp only [this]
      rw [show beta * pc + -beta * pc = 0 by ring]; simp
    · rcases le_total p pc with h' | h'
      · left
        show p2 = p
        rw [hp2, max_eq_left h, min_eq_left h']
      · right
        have : p2 = pc := by rw [hp2, max_eq_left h, min_eq_right h']
        refine ⟨?_, Or.inl this⟩
        simp only [this]
        rw [sub_self]; simp

lemma newtonStep3_total {cabs : ℝ → ℝ} (hc : cabs 0 = 0) {pref : ℝ} (hp : pref ≠ 0)
    (J11 J13 J22 J23 J31 J32 r1 r2 y p q dg : ℝ) :
    ∃ r, newtonStep3 cabs J11 J13 J22 J23 J31 J32 r1 r2 y pref p q dg = some r := by
  simp only [newtonStep3]
  split_ifs with h
  · rw [fdiv_of_ne (mul_ne_zero hp hp)]
    exact ⟨_, rfl⟩
  · have : J11 * (-J32 * J23) + J13 * (-J31 * J22) ≠ 0 := by
      intro h0; rw [h0, hc] at h; norm_num at h
    rw [fdiv_of_ne this, fdiv_of_ne this, fdiv_of_ne this]
    exact ⟨_, rfl⟩

lemma explicitLoop_total {cabs : ℝ → ℝ} (hc : cabs 0 = 0) {p0 : ℝ} (hp : p0 ≠ 0) (M beta K f pt qt : ℝ)
    (n iter : ℕ) (p q dg : ℝ) : ∃ r, explicitLoop cabs M p0 beta K f pt qt n iter p q dg = some r := by
  induction n generalizing iter p q dg with
  | zero => exact ⟨_, rfl⟩
  | succ n ih =>
    rw [explicitLoop]
    split_ifs
    · exact ⟨_, rfl⟩
    · exact ⟨_, rfl⟩
    · exact ⟨_, rfl⟩
    · obtain ⟨r, hr⟩ := newtonStep3_total hc hp (-1 - K * dg * (2 * M * M))
        (-K * (M * M * (beta * p0 + 2 * p - p0))) (-1 - f * dg * 2) (-f * (2 * q))
        (M * M * (beta * p0 + 2 * p - p0)) (2 * q)
        (pt - p - K * dg * (M * M * (beta * p0 + 2 * p - p0))) (qt - q - f * dg * (2 * q))
        (M * M * (p - p0) * (p + beta * p0) + q * q) p q dg
      rw [hr]
      exact ih _ _ _ _

/-- The implicit loop keeps pressure and preconsolidation pressure consistent with the hardening law. -/
lemma implicitLoop_inv {cabs law dlaw : ℝ → ℝ} {le : ℝ → Bool} {M beta mu K pT qT epvT : ℝ} (hK : K ≠ 0)
    {n iter : ℕ} {p p0 epv : ℝ} {right : ℤ} {exit : Bool} {r : Bool × ℝ × ℝ × Bool}
    (h : implicitLoop cabs law dlaw le M beta mu K pT qT epvT n iter p p0 epv right exit = some r)
    (hp : p0 = law (epvT + (p - pT) / K)) : r.2.2.1 = law (epvT + (r.2.1 - pT) / K) := by
  induction n generalizing iter p p0 epv right exit with
  | zero =>
    simp only [implicitLoop, Option.some.injEq] at h
    subst h; exact hp
  | succ n ih =>
    rw [implicitLoop] at h
    simp only at h
    split_ifs at h with h1
    · simp only [Option.some.injEq] at h
      subst h; exact hp
    · have hcons : law epv = law (epvT + ((epv - epvT) * K + pT - pT) / K) := by
        congr 1; field_simp; ring
      simp only [Option.bind_eq_bind, Option.bind_eq_some_iff] at h
      obtain ⟨dg, -, q, -, h⟩ := h
      split_ifs at h with h2
      · simp only [Option.some.injEq] at h
        subst h; exact hcons
      · simp only [Option.bind_eq_some_iff] at h
        obtain ⟨a, -, b, -, dq, -, step, -, s, -, h⟩ := h
        cases s with
        | failed =>
          simp only [Option.some.injEq] at h
          subst h; exact hcons
        | found e rr => exact ih h hcons

lemma implicitExpLoop_pos {cabs : ℝ → ℝ} {M p00 beta K xi f epv pt qt : ℝ} (h00 : 0 < p00) {n iter : ℕ}
    {p q dg p0 : ℝ} {r : ℝ × ℝ}
    (h : implicitExpLoop cabs M p00 beta K xi f epv pt qt n iter p q dg p0 = some r) (hp : 0 < p0) :
    0 < r.2 := by
  induction n generalizing iter p q dg p0 with
  | zero =>
    simp only [implicitExpLoop, Option.some.injEq] at h
    subst h; exact hp
  | succ n ih =>
    rw [implicitExpLoop] at h
    simp only [Option.bind_eq_bind, Option.bind_eq_some_iff] at h
    obtain ⟨e, -, a, -, b, -, h⟩ := h
    have hpos : 0 < p00 * Real.exp (-xi * (epv + e)) := by positivity
    split_ifs at h
    · simp only [Option.some.injEq] at h
      subst h; exact hpos
    · simp only [Option.some.injEq] at h
      subst h; exact hpos
    · obtain ⟨w, -, h⟩ := Option.bind_eq_some_iff.mp h
      exact ih h hpos

lemma implicitLoop_exit {cabs law dlaw : ℝ → ℝ} {le : ℝ → Bool} {M beta mu K pT qT epvT : ℝ}
    {n iter : ℕ} {p p0 epv : ℝ} {right : ℤ} {exit : Bool} {r : Bool × ℝ × ℝ × Bool}
    (h : implicitLoop cabs law dlaw le M beta mu K pT qT epvT n iter p p0 epv right exit = some r)
    (hr : r.2.2.2 = false) : exit = false := by
  induction n generalizing iter p p0 epv right exit with
  | zero =>
    simp only [implicitLoop, Option.some.injEq] at h
    subst h; exact hr
  | succ n ih =>
    rw [implicitLoop] at h
    simp only at h
    split_ifs at h with h1
    · simp only [Option.some.injEq] at h
      subst h; exact hr
    · simp only [Option.bind_eq_bind, Option.bind_eq_some_iff] at h
      obtain ⟨dg, -, q, -, h⟩ := h
      split_ifs at h with h2
      · simp only [Option.some.injEq] at h
        subst h; exact hr
      · simp only [Option.bind_eq_some_iff] at h
        obtain ⟨a, -, b, -, dq, -, step, -, s, -, h⟩ := h
        cases s with
        | failed =>
          simp only [Option.some.injEq] at h
          subst h; exact absurd hr (by simp)
        | found e rr => exact (Bool.or_eq_false_iff.mp (ih h)).1

lemma implicitFinish_spec {M beta p0T : ℝ} (hM : 0 ≤ M) (hb : 0 ≤ beta) (hT : 0 < p0T)
    {r : Bool × ℝ × ℝ × Bool} (hp0 : 0 < r.2.2.1) {s : Rma} (h : implicitFinish M beta p0T r = some s) :
    s.did = true ∧ s.exit = r.2.2.2 ∧ OnEllipse M (r.2.2.1 * p0T) beta s.p s.q ∧
      (s.p = r.2.1 * p0T ∨ AtEnd (r.2.2.1 * p0T) beta s.p s.q) := by
  unfold implicitFinish at h
  have hbp : 0 ≤ beta * r.2.2.1 := by positivity
  split_ifs at h
  · simp only [div_one, fsqrt] at h
    split_ifs at h with h1
    · simp at h
    · simp only [Option.bind_eq_bind, Option.bind_some, Option.some.injEq] at h
      subst h
      have hr := not_lt.mp h1
      have h2 : -beta * r.2.2.1 ≤ r.2.1 ∧ r.2.1 ≤ r.2.2.1 := by
        rcases mul_nonneg_iff.mp hr with ⟨a, b⟩ | ⟨a, b⟩
        · exact ⟨by linarith, by linarith⟩
        · exact ⟨by linarith, by linarith⟩
      exact ⟨rfl, rfl, (ellipse_of_sqrt hM hr h2.1 h2.2).scale hT.le, Or.inl rfl⟩
  · obtain ⟨w, hw, h1, h2⟩ := rmaFinish_spec hM (pc := r.2.2.1) (beta := beta) (by linarith) r.2.1
    rw [hw] at h
    simp only [Option.bind_eq_bind, Option.bind_some, Option.some.injEq] at h
    subst h
    refine ⟨rfl, rfl, h1.scale hT.le, ?_⟩
    rcases h2 with h2 | h2
    · left; show w.1 * p0T = _; rw [h2]
    · right; exact h2.scale _

end Verif
