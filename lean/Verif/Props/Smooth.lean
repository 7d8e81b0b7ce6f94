import Verif.Props.Bookkeeping
import Verif.Props.Stress
import Mathlib.Analysis.Matrix.Normed

set_option linter.unusedSectionVars false
set_option linter.unusedSimpArgs false
set_option linter.unusedVariables false

/-!
# C123: plastic flow does not amplify differences of stress
-/

namespace Verif.Props
open Verif Matrix

noncomputable section

variable {d : ℕ}

/-! ### Specifications -/

/-- Magnitude of a stress. -/
def magnitude (A : Matrix (Fin d) (Fin d) ℝ) : ℝ := Real.sqrt (∑ i, ∑ j, A i j ^ 2)

/-- The part of a stress that is not pressure. -/
def deviator (A : Matrix (Fin d) (Fin d) ℝ) : Matrix (Fin d) (Fin d) ℝ := A - (A.trace / d) • 1

/-! ### Lemmas -/

lemma magnitude_norm (A : Matrix (Fin d) (Fin d) ℝ) :
    magnitude A = @norm _ Matrix.frobeniusNormedAddCommGroup.toNorm A := by
  rw [Matrix.frobenius_norm_def, magnitude, Real.sqrt_eq_rpow]
  congr 1
  refine Finset.sum_congr rfl fun i _ => Finset.sum_congr rfl fun j _ => ?_
  rw [Real.norm_eq_abs]
  norm_num

lemma magnitude_nonneg (A : Matrix (Fin d) (Fin d) ℝ) : 0 ≤ magnitude A := Real.sqrt_nonneg _

lemma magnitude_add (A B : Matrix (Fin d) (Fin d) ℝ) : magnitude (A + B) ≤ magnitude A + magnitude B := by
  rw [magnitude_norm, magnitude_norm, magnitude_norm]
  exact @norm_add_le _ Matrix.frobeniusSeminormedAddCommGroup.toSeminormedAddGroup A B

lemma magnitude_sq (A : Matrix (Fin d) (Fin d) ℝ) : magnitude A ^ 2 = ∑ i, ∑ j, A i j ^ 2 :=
  Real.sq_sqrt (Finset.sum_nonneg fun _ _ => Finset.sum_nonneg fun _ _ => sq_nonneg _)

lemma magnitude_smul (c : ℝ) (A : Matrix (Fin d) (Fin d) ℝ) : magnitude (c • A) = |c| * magnitude A := by
  unfold magnitude
  have : ∑ i, ∑ j, (c • A) i j ^ 2 = c ^ 2 * ∑ i, ∑ j, A i j ^ 2 := by
    simp only [Matrix.smul_apply, smul_eq_mul, mul_pow, Finset.mul_sum]
  rw [this, Real.sqrt_mul (sq_nonneg c), Real.sqrt_sq_eq_abs]

lemma magnitude_zero {A : Matrix (Fin d) (Fin d) ℝ} (h : magnitude A = 0) : A = 0 := by
  have h0 : ∑ i, ∑ j, A i j ^ 2 = 0 := by rw [← magnitude_sq, h]; norm_num
  ext i j
  have h1 := (Finset.sum_eq_zero_iff_of_nonneg (fun i _ => Finset.sum_nonneg fun j _ => sq_nonneg (A i j))).mp h0 i
    (Finset.mem_univ i)
  have h2 := (Finset.sum_eq_zero_iff_of_nonneg (fun j _ => sq_nonneg (A i j))).mp h1 j (Finset.mem_univ j)
  simpa using h2

lemma abs_min_sub_min_le_left (a b c : ℝ) : |min a c - min b c| ≤ |a - b| := by
  have := abs_min_sub_min_le_max a c b c
  rwa [sub_self, abs_zero, max_eq_left (abs_nonneg _)] at this

lemma abs_min_sub_min_le_right (c a b : ℝ) : |min c a - min c b| ≤ |a - b| := by
  rw [min_comm c, min_comm c]; exact abs_min_sub_min_le_left a b c

/-- A stress shortened without changing its direction, by a rule which does not spread the lengths. -/
lemma radial {A B : Matrix (Fin d) (Fin d) ℝ} {c e : ℝ} (hc0 : 0 ≤ c) (hc1 : c ≤ 1) (he0 : 0 ≤ e) (he1 : e ≤ 1)
    (h : |c * magnitude A - e * magnitude B| ≤ |magnitude A - magnitude B|) :
    magnitude (c • A - e • B) ≤ magnitude (A - B) := by
  have hexp : ∀ x y : ℝ, magnitude (x • A - y • B) ^ 2 =
      x ^ 2 * magnitude A ^ 2 + y ^ 2 * magnitude B ^ 2 - 2 * (x * y) * ∑ i, ∑ j, A i j * B i j := by
    intro x y
    rw [magnitude_sq, magnitude_sq, magnitude_sq]
    simp only [Finset.mul_sum, ← Finset.sum_add_distrib, ← Finset.sum_sub_distrib, Matrix.sub_apply, Matrix.smul_apply, smul_eq_mul]
    refine Finset.sum_congr rfl fun i _ => Finset.sum_congr rfl fun j _ => ?_
    ring
  have hcs : ∑ i, ∑ j, A i j * B i j ≤ magnitude A * magnitude B := by
    refine abs_le_of_sq_le_sq' ?_ (mul_nonneg (magnitude_nonneg A) (magnitude_nonneg B)) |>.2
    rw [mul_pow, magnitude_sq, magnitude_sq]
    have := Finset.sum_mul_sq_le_sq_mul_sq (Finset.univ : Finset (Fin d × Fin d)) (fun ij => A ij.1 ij.2) fun ij => B ij.1 ij.2
    simpa only [Fintype.sum_prod_type] using this
  have h1 := hexp 1 1
  rw [one_smul, one_smul] at h1
  refine abs_le_of_sq_le_sq' ?_ (magnitude_nonneg _) |>.2
  rw [hexp c e, h1]
  have h2 := sq_le_sq.mpr h
  have h3 : c * e ≤ 1 := mul_le_one₀ hc1 he0 he1
  nlinarith [mul_le_mul_of_nonneg_left hcs (sub_nonneg.mpr h3)]

lemma savedQ_magnitude (qp : ℝ) (tau : Matrix (Fin d) (Fin d) ℝ) : savedQ qp tau = qp * magnitude (deviator tau) := by
  unfold savedQ magnitude
  congr 2
  have : tau + savedP tau • (1 : Matrix (Fin d) (Fin d) ℝ) = deviator tau := by
    rw [deviator, savedP, neg_div, neg_smul, sub_eq_add_neg]
  rw [this]
  simp only [selfDoubleDot, Fin.sum_univ_def, sq]

lemma deviator_hencky (hd : 0 < d) {lam mu : ℝ} {U : Matrix (Fin d) (Fin d) ℝ} (hU : U * Uᵀ = 1) (h : Fin d → ℝ) :
    deviator (henckyTau lam mu U h) = (2 * mu) • (U * diagonal (devOf h) * Uᵀ) := by
  have h0 : (d : ℝ) ≠ 0 := by positivity
  have hone : (1 : Matrix (Fin d) (Fin d) ℝ) = U * 1 * Uᵀ := by rw [Matrix.mul_one, hU]
  have ht : (henckyTau lam mu U h).trace = (lam * d + 2 * mu) * ∑ i, h i := by
    rw [henckyTau, trace_conj hU, Matrix.trace_diagonal, Finset.sum_add_distrib, ← Finset.mul_sum Finset.univ h (2 * mu)]
    simp only [Finset.sum_const, Finset.card_univ, Fintype.card_fin, nsmul_eq_mul, mul_one]
    ring
  rw [deviator, ht]
  conv_lhs => rw [hone]
  rw [henckyTau, ← Matrix.smul_mul, ← Matrix.mul_smul, ← Matrix.sub_mul, ← Matrix.mul_sub, ← Matrix.smul_mul, ← Matrix.mul_smul,
    ← Matrix.diagonal_one, ← Matrix.diagonal_smul, ← Matrix.diagonal_smul, Matrix.diagonal_sub]
  congr 2
  congr 1
  funext i
  simp only [devOf, Pi.smul_apply, smul_eq_mul, Pi.one_apply]
  field_simp
  ring

section
variable {cabs : ℝ → ℝ} {svd : Matrix (Fin d) (Fin d) ℝ → Svd d} {m : Material} {dt : ℝ} {q : Particle d ℝ}
  {exit : Bool} {out : PState d}

lemma expF_inj {s : Svd d} (hU : s.U * s.Uᵀ = 1) (hV : s.V * s.Vᵀ = 1) {h h' : Fin d → ℝ} (e : s.expF h = s.expF h') : h = h' := by
  have e1 : s.Uᵀ * s.expF h * s.V = s.Uᵀ * s.expF h' * s.V := by rw [e]
  have key : ∀ k : Fin d → ℝ, s.Uᵀ * s.expF k * s.V = diagonal fun i => Real.exp (k i) := by
    intro k
    unfold Svd.expF
    calc s.Uᵀ * (s.U * diagonal (fun i => Real.exp (k i)) * s.Vᵀ) * s.V
        = (s.Uᵀ * s.U) * diagonal (fun i => Real.exp (k i)) * (s.Vᵀ * s.V) := by simp only [Matrix.mul_assoc]
      _ = _ := by rw [orth_comm hU, orth_comm hV, Matrix.one_mul, Matrix.mul_one]
  rw [key, key] at e1
  funext i
  exact Real.exp_injective (congrFun (Matrix.diagonal_injective e1) i)

/-- The deviator of the new stress has the direction of that of the elastic stress. -/
lemma coaxial (ok : MatOk m d) (htol : 0 ≤ m.stressTol) (hdt : dt ≠ 0) (hs : IsSvd q.F (svd q.F))
    (hb : ∀ i, 1e-4 ≤ (svd q.F).sig i) (hne : m.plastic ≠ .mccMui)
    (hc : m.plastic = .vmVisc → m.pMin * Real.exp (-m.xi * q.epsPlVol) ≤ trialP m (svd q.F))
    (h : plasticity cabs svd m dt q exit = some out)
    (heps : out.q.epsPlDev = q.epsPlDev + (trialQ m (svd q.F) - newQ m out) / m.eMu) (hle : newQ m out ≤ trialQ m (svd q.F)) :
    ∃ c, 0 ≤ c ∧ c ≤ 1 ∧ deviator out.q.tau = c • deviator (elasticTau m (svd q.F)) ∧
      newQ m out = c * trialQ m (svd q.F) := by
  have he := ok.eMu_pos
  obtain ⟨δ, a, b, hB, hδ, -⟩ := plasticity_book ok htol hdt h
  have hδ0 := hδ hne
  subst hδ0
  obtain ⟨st, h1, rfl⟩ := plasticity_some.mp h
  have hcons : Cons (svd q.F) ⟨q, (svd q.F).hencky, 0, exit⟩ st := by
    refine cons_plastModel ?_ h1
    intro hp
    have := hc hp
    rw [(trial_eq ok hs).1] at this
    exact not_lt.mpr this
  set s := svd q.F with hsd
  set t := mkTrial s.hencky with ht
  have eF : st.q.F = s.expF st.hencky := by
    rcases hcons with e | ⟨e, e'⟩
    · exact e
    · rw [e, e']; exact (expF_hencky hs hb).symm
  have eF' : st.q.F = s.expF fun i => a * t.dir i + b := by
    rcases hB.F with e | ⟨e, e'⟩
    · exact e
    · have : s.hencky = fun i => a * t.dir i + b := funext e'
      rw [← this]; exact e.trans (expF_hencky hs hb).symm
  have hh := expF_inj hs.orthU hs.orthV (eF.symm.trans eF')
  have hQ := (trial_eq ok hs).2
  have hdev := hB.dev
  simp only at hdev heps
  have ha : m.eMu * a = newQ m { st with q := { st.q with tau := newTau m s st.hencky st.q.F } } := by
    have : a = t.norm - (trialQ m s - newQ m { st with q := { st.q with tau := newTau m s st.hencky st.q.F } }) / m.eMu := by
      rw [heps] at hdev; linarith
    rw [this, hQ]; field_simp; ring
  have hT : deviator (elasticTau m s) = (2 * m.mu) • (s.U * diagonal (t.norm • t.dir) * s.Uᵀ) := by
    rw [elasticTau_eq hs, deviator_hencky ok.hd hs.orthU, mkTrial_dir]
  have hN : deviator (newTau m s st.hencky st.q.F) = (2 * m.mu) • (s.U * diagonal (a • t.dir) * s.Uᵀ) := by
    rw [newTau_hencky ok.hel, deviator_hencky ok.hd hs.orthU, hh, devOf_ab ok.hd]
  have hq0 : 0 ≤ newQ m { st with q := { st.q with tau := newTau m s st.hencky st.q.F } } := by
    rw [newQ, savedQ_magnitude]; exact mul_nonneg ok.hq.le (magnitude_nonneg _)
  rcases (mkTrial_norm_nonneg s.hencky).lt_or_eq with hp | hp
  · have ha0 : 0 ≤ a := by
      rw [← ha] at hq0
      exact nonneg_of_mul_nonneg_right hq0 he
    have ha1 : a ≤ t.norm := by
      rw [← ha, hQ] at hle
      exact le_of_mul_le_mul_left hle he
    refine ⟨a / t.norm, div_nonneg ha0 hp.le, (div_le_one hp).mpr ha1, ?_, ?_⟩
    · show deviator (newTau m s st.hencky st.q.F) = _
      have e : a • t.dir = (a / t.norm) • (t.norm • t.dir) := by rw [smul_smul, div_mul_cancel₀ _ hp.ne']
      rw [hN, hT, e, Matrix.diagonal_smul, Matrix.mul_smul, Matrix.smul_mul, smul_comm]
    · rw [← ha, hQ]
      show m.eMu * a = a / t.norm * (m.eMu * t.norm)
      have : t.norm ≠ 0 := hp.ne'
      field_simp
  · have hd0 : t.dir = 0 := mkTrial_dir_zero hp.symm
    refine ⟨1, zero_le_one, le_rfl, ?_, ?_⟩
    · show deviator (newTau m s st.hencky st.q.F) = _
      rw [hN, hT, hd0]; simp
    · have : trialQ m s = 0 := by rw [hQ, ← hp, mul_zero]
      rw [this] at hle ⊢
      rw [mul_zero]
      exact le_antisymm hle hq0

end

/-! ### C123 -/

section
variable {cabs : ℝ → ℝ} {svd : Matrix (Fin d) (Fin d) ℝ → Svd d} {m : Material} {dt : ℝ} {q₁ q₂ : Particle d ℝ}
  {x₁ x₂ : Bool} {o₁ o₂ : PState d}

/-- From the new shear stresses to the new stresses. -/
lemma no_spread (ok : MatOk m d) {T₁ T₂ t₁ t₂ : Matrix (Fin d) (Fin d) ℝ} {c₁ c₂ : ℝ}
    (h₁ : 0 ≤ c₁) (h₁' : c₁ ≤ 1) (h₂ : 0 ≤ c₂) (h₂' : c₂ ≤ 1) (e₁ : deviator t₁ = c₁ • deviator T₁) (e₂ : deviator t₂ = c₂ • deviator T₂)
    (h : |c₁ * savedQ m.qPrefac T₁ - c₂ * savedQ m.qPrefac T₂| ≤ |savedQ m.qPrefac T₁ - savedQ m.qPrefac T₂|) :
    magnitude (deviator t₁ - deviator t₂) ≤ magnitude (deviator T₁ - deviator T₂) := by
  have hq := ok.hq
  rw [e₁, e₂]
  refine radial h₁ h₁' h₂ h₂' ?_
  rw [savedQ_magnitude, savedQ_magnitude, ← mul_sub, abs_mul, mul_left_comm c₁, mul_left_comm c₂, ← mul_sub, abs_mul] at h
  exact le_of_mul_le_mul_left h (abs_pos.mpr hq.ne')

/-- **C123** Von Mises: the stresses of two particles differ after the plastic update at most as much as the elastic stresses
before it; in particular the stress does not jump when yielding begins. -/
theorem C123_vonMises (ok : MatOk m d) (hm : m.plastic = .vm) (hq : 0 ≤ m.qMax) (htol : 0 ≤ m.stressTol) (hdt : dt ≠ 0)
    (hs₁ : IsSvd q₁.F (svd q₁.F)) (hs₂ : IsSvd q₂.F (svd q₂.F)) (hb₁ : ∀ i, 1e-4 ≤ (svd q₁.F).sig i)
    (hb₂ : ∀ i, 1e-4 ≤ (svd q₂.F).sig i) (h₁ : plasticity cabs svd m dt q₁ x₁ = some o₁)
    (h₂ : plasticity cabs svd m dt q₂ x₂ = some o₂) :
    newP o₁ - newP o₂ = trialP m (svd q₁.F) - trialP m (svd q₂.F) ∧
    magnitude (deviator o₁.q.tau - deviator o₂.q.tau) ≤
      magnitude (deviator (elasticTau m (svd q₁.F)) - deviator (elasticTau m (svd q₂.F))) := by
  have key : ∀ {q : Particle d ℝ} {x : Bool} {o : PState d}, IsSvd q.F (svd q.F) → (∀ i, 1e-4 ≤ (svd q.F).sig i) →
      plasticity cabs svd m dt q x = some o → newP o = trialP m (svd q.F) ∧ newQ m o = min (trialQ m (svd q.F)) m.qMax ∧
      ∃ c, 0 ≤ c ∧ c ≤ 1 ∧ deviator o.q.tau = c • deviator (elasticTau m (svd q.F)) ∧ newQ m o = c * trialQ m (svd q.F) := by
    intro q x o hs hb h
    obtain ⟨o', h', a1, a2, -, -, a3, -⟩ := C34_vonMises (cabs := cabs) ok hm hq dt q x hs
    obtain rfl := Option.some.inj (h.symm.trans h')
    exact ⟨a2, a1, coaxial ok htol hdt hs hb (by rw [hm]; decide) (fun hp => by rw [hm] at hp; cases hp) h a3
      (by rw [a1]; exact min_le_left _ _)⟩
  obtain ⟨p1, k1, c1, i1, j1, d1, g1⟩ := key hs₁ hb₁ h₁
  obtain ⟨p2, k2, c2, i2, j2, d2, g2⟩ := key hs₂ hb₂ h₂
  refine ⟨by rw [p1, p2], no_spread ok i1 j1 i2 j2 d1 d2 ?_⟩
  show |c1 * trialQ m (svd q₁.F) - c2 * trialQ m (svd q₂.F)| ≤ |trialQ m (svd q₁.F) - trialQ m (svd q₂.F)|
  rw [← g1, ← g2, k1, k2]
  exact abs_min_sub_min_le_left _ _ _

/-- **C123** Viscous von Mises (exponent one, no softening, pressures above `p_min`): the same. -/
theorem C123_viscousVonMises (ok : MatOk m d) (hm : m.plastic = .vmVisc) (hn : m.viscExponent = 1) (hxi : m.xi = 0) (hq : 0 ≤ m.qMax)
    (hτ : 0 ≤ m.viscTime) (htol : 0 ≤ m.stressTol) (hdt : 0 < dt)
    (hs₁ : IsSvd q₁.F (svd q₁.F)) (hs₂ : IsSvd q₂.F (svd q₂.F)) (hb₁ : ∀ i, 1e-4 ≤ (svd q₁.F).sig i)
    (hb₂ : ∀ i, 1e-4 ≤ (svd q₂.F).sig i) (hc₁ : m.pMin ≤ trialP m (svd q₁.F)) (hc₂ : m.pMin ≤ trialP m (svd q₂.F))
    (h₁ : plasticity cabs svd m dt q₁ x₁ = some o₁) (h₂ : plasticity cabs svd m dt q₂ x₂ = some o₂) :
    newP o₁ - newP o₂ = trialP m (svd q₁.F) - trialP m (svd q₂.F) ∧
    magnitude (deviator o₁.q.tau - deviator o₂.q.tau) ≤
      magnitude (deviator (elasticTau m (svd q₁.F)) - deviator (elasticTau m (svd q₂.F))) := by
  have hf := ok.fMu_pos
  -- the share of the excess over the yield stress that is kept
  obtain ⟨θ, hθ0, hθ1, hθ⟩ : ∃ θ : ℝ, 0 ≤ θ ∧ θ ≤ 1 ∧ ∀ Q qn rate, m.fMu * (rate * dt) = Q - qn → FlowEq m m.qMax qn rate →
      qn = m.qMax + θ * (Q - m.qMax) := by
    cases hdl : m.useDuvautLions with
    | true =>
      have hD : 0 < dt + m.viscTime := by linarith
      refine ⟨m.viscTime / (dt + m.viscTime), by positivity, (div_le_one hD).mpr (by linarith), fun Q qn rate e1 e2 => ?_⟩
      simp only [FlowEq, hdl, if_true] at e2
      rw [div_mul_eq_mul_div, ← sub_eq_iff_eq_add', eq_div_iff hD.ne']
      have e3 : (qn - m.qMax) * dt = m.viscTime * (Q - qn) := by rw [← e1, e2]; ring
      linarith
    | false =>
      have hD : 0 < m.fMu * dt + m.qMax * m.viscTime := by positivity
      refine ⟨m.qMax * m.viscTime / (m.fMu * dt + m.qMax * m.viscTime), by positivity, (div_le_one hD).mpr (by nlinarith [mul_pos hf hdt]),
        fun Q qn rate e1 e2 => ?_⟩
      simp only [FlowEq, hdl, Bool.false_eq_true, if_false] at e2
      rw [div_mul_eq_mul_div, ← sub_eq_iff_eq_add', eq_div_iff hD.ne']
      have e3 : (qn - m.qMax) * (m.fMu * dt) = m.qMax * m.viscTime * (Q - qn) := by rw [← e1, e2]; ring
      linarith
  have key : ∀ {q : Particle d ℝ} {x : Bool} {o : PState d}, IsSvd q.F (svd q.F) → (∀ i, 1e-4 ≤ (svd q.F).sig i) →
      m.pMin ≤ trialP m (svd q.F) → plasticity cabs svd m dt q x = some o → newP o = trialP m (svd q.F) ∧
      newQ m o = min (trialQ m (svd q.F)) m.qMax + θ * max (trialQ m (svd q.F) - m.qMax) 0 ∧
      ∃ c, 0 ≤ c ∧ c ≤ 1 ∧ deviator o.q.tau = c • deviator (elasticTau m (svd q.F)) ∧ newQ m o = c * trialQ m (svd q.F) := by
    intro q x o hs hb hc h
    obtain ⟨o', h', a1, a2, a3, a4, -⟩ := C37_viscousVonMises (cabs := cabs) ok hm hn hxi hq hτ hdt q x hs hc
    obtain rfl := Option.some.inj (h.symm.trans h')
    have hnew : newQ m o = min (trialQ m (svd q.F)) m.qMax + θ * max (trialQ m (svd q.F) - m.qMax) 0 := by
      rcases le_or_gt (trialQ m (svd q.F)) m.qMax with hle | hlt
      · rw [min_eq_left hle, max_eq_right (by linarith), mul_zero, add_zero, newQ, a2 hle]; rfl
      · obtain ⟨-, -, b3, b4, -⟩ := a3 hlt
        rw [min_eq_right hlt.le, max_eq_left (by linarith)]
        exact hθ _ _ _ b3 b4
    refine ⟨a1, hnew, coaxial ok htol hdt.ne' hs hb (by rw [hm]; decide) (fun _ => by rw [hxi]; simpa using hc) h a4 ?_⟩
    rcases le_or_gt (trialQ m (svd q.F)) m.qMax with hle | hlt
    · rw [newQ, a2 hle]; exact le_rfl
    · exact (a3 hlt).2.1.le
  obtain ⟨p1, k1, c1, i1, j1, d1, g1⟩ := key hs₁ hb₁ hc₁ h₁
  obtain ⟨p2, k2, c2, i2, j2, d2, g2⟩ := key hs₂ hb₂ hc₂ h₂
  refine ⟨by rw [p1, p2], no_spread ok i1 j1 i2 j2 d1 d2 ?_⟩
  show |c1 * trialQ m (svd q₁.F) - c2 * trialQ m (svd q₂.F)| ≤ |trialQ m (svd q₁.F) - trialQ m (svd q₂.F)|
  rw [← g1, ← g2, k1, k2]
  set a := trialQ m (svd q₁.F)
  set b := trialQ m (svd q₂.F)
  have e : ∀ z : ℝ, min z m.qMax + θ * max (z - m.qMax) 0 = θ * z + (1 - θ) * min z m.qMax := by
    intro z
    rcases le_total z m.qMax with h | h
    · rw [min_eq_left h, max_eq_right (by linarith)]; ring
    · rw [min_eq_right h, max_eq_left (by linarith)]; ring
  rw [e, e, show θ * a + (1 - θ) * min a m.qMax - (θ * b + (1 - θ) * min b m.qMax) =
    θ * (a - b) + (1 - θ) * (min a m.qMax - min b m.qMax) by ring]
  refine (abs_add_le _ _).trans ?_
  rw [abs_mul, abs_mul, abs_of_nonneg hθ0, abs_of_nonneg (by linarith : (0 : ℝ) ≤ 1 - θ)]
  have := mul_le_mul_of_nonneg_left (abs_min_sub_min_le_left a b m.qMax) (by linarith : (0 : ℝ) ≤ 1 - θ)
  linarith

/-- **C123** Drucker-Prager: the pressures of two particles differ after the plastic update at most as much as before, the
shear stresses at most as much as before plus the change of strength that goes with the difference of pressure, apart from
the cut-off `1e-10` at the tip. -/
theorem C123_druckerPrager (ok : MatOk m d) (hm : m.plastic = .dp) (hM : 0 < m.M) (hco : 0 ≤ m.qCohesion) (htol : 0 ≤ m.stressTol)
    (hdt : dt ≠ 0)
    (hs₁ : IsSvd q₁.F (svd q₁.F)) (hs₂ : IsSvd q₂.F (svd q₂.F)) (hb₁ : ∀ i, 1e-4 ≤ (svd q₁.F).sig i)
    (hb₂ : ∀ i, 1e-4 ≤ (svd q₂.F).sig i) (h₁ : plasticity cabs svd m dt q₁ x₁ = some o₁)
    (h₂ : plasticity cabs svd m dt q₂ x₂ = some o₂) :
    |newP o₁ - newP o₂| ≤ |trialP m (svd q₁.F) - trialP m (svd q₂.F)| + 1e-10 / m.M ∧
    magnitude (deviator o₁.q.tau - deviator o₂.q.tau) ≤
      magnitude (deviator (elasticTau m (svd q₁.F)) - deviator (elasticTau m (svd q₂.F))) +
        (m.M * |trialP m (svd q₁.F) - trialP m (svd q₂.F)| + 1e-10) / m.qPrefac := by
  have hqp := ok.hq
  have hsol : m.M * (-m.qCohesion / m.M) + m.qCohesion = 0 := by field_simp; ring
  have key : ∀ {q : Particle d ℝ} {x : Bool} {o : PState d}, IsSvd q.F (svd q.F) → (∀ i, 1e-4 ≤ (svd q.F).sig i) →
      plasticity cabs svd m dt q x = some o →
      (newP o = if m.M * trialP m (svd q.F) + m.qCohesion < 1e-10 then -m.qCohesion / m.M else trialP m (svd q.F)) ∧
      0 ≤ m.M * newP o + m.qCohesion ∧
      newQ m o = min (trialQ m (svd q.F)) (m.M * newP o + m.qCohesion) ∧
      ∃ c, 0 ≤ c ∧ c ≤ 1 ∧ deviator o.q.tau = c • deviator (elasticTau m (svd q.F)) ∧ newQ m o = c * trialQ m (svd q.F) := by
    intro q x o hs hb h
    obtain ⟨o', h', -, -, a1, a2, -, a3, -⟩ := C35_druckerPrager (cabs := cabs) ok hm hM hco dt q x hs
    obtain rfl := Option.some.inj (h.symm.trans h')
    have hQ0 : 0 ≤ trialQ m (svd q.F) := by
      rw [trialQ, savedQ_magnitude]; exact mul_nonneg hqp.le (magnitude_nonneg _)
    have hh : (newP o = if m.M * trialP m (svd q.F) + m.qCohesion < 1e-10 then -m.qCohesion / m.M else trialP m (svd q.F)) ∧
        0 ≤ m.M * newP o + m.qCohesion ∧ newQ m o = min (trialQ m (svd q.F)) (m.M * newP o + m.qCohesion) := by
      by_cases hy : m.M * trialP m (svd q.F) + m.qCohesion < 1e-10
      · obtain ⟨b1, b2⟩ := a1 hy
        rw [if_pos hy, b1, b2, hsol, min_eq_right hQ0]
        exact ⟨rfl, le_rfl, rfl⟩
      · obtain ⟨b1, b2, -⟩ := a2 (not_lt.mp hy)
        rw [if_neg hy, b1, b2]
        exact ⟨rfl, le_trans (by norm_num) (not_lt.mp hy), rfl⟩
    exact ⟨hh.1, hh.2.1, hh.2.2, coaxial ok htol hdt hs hb (by rw [hm]; decide) (fun hp => by rw [hm] at hp; cases hp) h a3
      (by rw [hh.2.2]; exact min_le_left _ _)⟩
  obtain ⟨p1, y1, k1, c1, i1, j1, d1, g1⟩ := key hs₁ hb₁ h₁
  obtain ⟨p2, y2, k2, c2, i2, j2, d2, g2⟩ := key hs₂ hb₂ h₂
  set P₁ := trialP m (svd q₁.F)
  set P₂ := trialP m (svd q₂.F)
  have tip : ∀ {a b : ℝ}, m.M * a + m.qCohesion < 1e-10 → ¬ m.M * b + m.qCohesion < 1e-10 →
      |-m.qCohesion / m.M - b| ≤ |a - b| + 1e-10 / m.M := by
    intro a b ha hb
    have h1 : b - -m.qCohesion / m.M = (m.M * b + m.qCohesion) / m.M := by field_simp; ring
    have h2 : 0 ≤ b - -m.qCohesion / m.M := by
      rw [h1]; exact div_nonneg (le_trans (by norm_num) (not_lt.mp hb)) hM.le
    rw [abs_sub_comm, abs_of_nonneg h2, h1, ← sub_le_iff_le_add, ← sub_div, div_le_iff₀ hM]
    have h3 := neg_abs_le (a - b)
    have h4 : m.M * (b - a) ≤ m.M * |a - b| := mul_le_mul_of_nonneg_left (by linarith) hM.le
    linarith
  have hP : |newP o₁ - newP o₂| ≤ |P₁ - P₂| + 1e-10 / m.M := by
    have h0 : 0 ≤ 1e-10 / m.M := div_nonneg (by norm_num) hM.le
    rw [p1, p2]
    by_cases e1 : m.M * P₁ + m.qCohesion < 1e-10 <;> by_cases e2 : m.M * P₂ + m.qCohesion < 1e-10
    · rw [if_pos e1, if_pos e2, sub_self, abs_zero]; exact add_nonneg (abs_nonneg _) h0
    · rw [if_pos e1, if_neg e2]; exact tip e1 e2
    · rw [if_neg e1, if_pos e2, abs_sub_comm, abs_sub_comm P₁]; exact tip e2 e1
    · rw [if_neg e1, if_neg e2]; linarith
  refine ⟨hP, ?_⟩
  set Q₁ := trialQ m (svd q₁.F) with hQ₁
  set Q₂ := trialQ m (svd q₂.F) with hQ₂
  have hQ20 : 0 ≤ Q₂ := by
    rw [hQ₂, trialQ, savedQ_magnitude]; exact mul_nonneg hqp.le (magnitude_nonneg _)
  -- the second particle with the strength of the first
  obtain ⟨e, he0, he1, he⟩ : ∃ e : ℝ, 0 ≤ e ∧ e ≤ 1 ∧ e * Q₂ = min Q₂ (m.M * newP o₁ + m.qCohesion) := by
    rcases hQ20.lt_or_eq with h | h
    · exact ⟨min Q₂ (m.M * newP o₁ + m.qCohesion) / Q₂, div_nonneg (le_min hQ20 y1) hQ20, (div_le_one h).mpr (min_le_left _ _),
        div_mul_cancel₀ _ h.ne'⟩
    · exact ⟨1, zero_le_one, le_rfl, by rw [← h, min_eq_left y1, mul_zero]⟩
  have s1 : magnitude (deviator o₁.q.tau - e • deviator (elasticTau m (svd q₂.F))) ≤
      magnitude (deviator (elasticTau m (svd q₁.F)) - deviator (elasticTau m (svd q₂.F))) := by
    rw [d1]
    refine radial i1 j1 he0 he1 ?_
    have : |c1 * Q₁ - e * Q₂| ≤ |Q₁ - Q₂| := by
      rw [← g1, k1, he]; exact abs_min_sub_min_le_left _ _ _
    rw [hQ₁, hQ₂, trialQ, trialQ, savedQ_magnitude, savedQ_magnitude, ← mul_sub, abs_mul, mul_left_comm c1, mul_left_comm e,
      ← mul_sub, abs_mul] at this
    exact le_of_mul_le_mul_left this (abs_pos.mpr hqp.ne')
  have s2 : magnitude (e • deviator (elasticTau m (svd q₂.F)) - deviator o₂.q.tau) ≤
      (m.M * |P₁ - P₂| + 1e-10) / m.qPrefac := by
    rw [d2, ← sub_smul, magnitude_smul, le_div_iff₀ hqp]
    have e1 : |e - c2| * magnitude (deviator (elasticTau m (svd q₂.F))) * m.qPrefac = |e * Q₂ - c2 * Q₂| := by
      rw [← sub_mul, abs_mul, abs_of_nonneg hQ20, hQ₂, trialQ, savedQ_magnitude]; ring
    rw [e1, he, ← g2, k2]
    refine (abs_min_sub_min_le_right _ _ _).trans ?_
    rw [show m.M * newP o₁ + m.qCohesion - (m.M * newP o₂ + m.qCohesion) = m.M * (newP o₁ - newP o₂) by ring, abs_mul,
      abs_of_pos hM]
    refine (mul_le_mul_of_nonneg_left hP hM.le).trans (le_of_eq ?_)
    field_simp
  have : deviator o₁.q.tau - deviator o₂.q.tau = (deviator o₁.q.tau - e • deviator (elasticTau m (svd q₂.F))) +
      (e • deviator (elasticTau m (svd q₂.F)) - deviator o₂.q.tau) := by abel
  rw [this]
  exact (magnitude_add _ _).trans (add_le_add s1 s2)

end

/-! ### Examples -/

namespace SmoothEx

/-- The decomposition of a diagonal matrix with positive entries. -/
def dsvd : Matrix (Fin 2) (Fin 2) ℝ → Svd 2 := fun F => ⟨1, ![F 0 0, F 1 1], 1⟩

lemma dsvd_part (a b : ℝ) : dsvd (Ex.part a b).F = Ex.svd a b (Ex.part a b).F := by
  simp [dsvd, Ex.part, Ex.svd]

lemma dsvd_ok (a b : ℝ) : IsSvd (Ex.part a b).F (dsvd (Ex.part a b).F) := by
  rw [dsvd_part]; exact Ex.isSvd a b

lemma dsvd_big {a b : ℝ} (ha : -1 / 2 ≤ a) (hb : -1 / 2 ≤ b) (i : Fin 2) : 1e-4 ≤ (dsvd (Ex.part a b).F).sig i := by
  rw [dsvd_part]; exact Ex.big ha hb _ i

lemma dsvd_trial (pm) {a b : ℝ} (ha : -1 / 2 ≤ a) (hb : -1 / 2 ≤ b) :
    trialP (Ex.mat pm) (dsvd (Ex.part a b).F) = -(a + b) ∧ trialQ (Ex.mat pm) (dsvd (Ex.part a b).F) = |a - b| := by
  rw [dsvd_part]; exact ex_trial pm ha hb _ (Ex.isSvd a b)

lemma elastic_diag (pm) {a b : ℝ} (ha : -1 / 2 ≤ a) (hb : -1 / 2 ≤ b) :
    elasticTau (Ex.mat pm) (dsvd (Ex.part a b).F) = diagonal ![2 * a, 2 * b] := by
  rw [dsvd_part, elasticTau_eq (Ex.isSvd a b), henckyTau, Ex.hencky ha hb, Ex.mat_lam, Ex.mat_mu]
  simp only [Ex.svd, Matrix.one_mul, Matrix.transpose_one, Matrix.mul_one, zero_mul, add_zero, mul_one]
  congr 1
  funext i
  fin_cases i <;> simp

/-- Two particles in shear, one inside the yield surface, the other beyond it. -/
example : ∃ o₁ o₂, plasticity abs dsvd (Ex.mat .vm) 1 (Ex.part (1 / 2) (-1 / 2)) false = some o₁ ∧
    plasticity abs dsvd (Ex.mat .vm) 1 (Ex.part (1 / 10) 0) false = some o₂ ∧
    newQ (Ex.mat .vm) o₁ = 1 / 4 ∧ newQ (Ex.mat .vm) o₂ = 1 / 10 ∧
    magnitude (deviator o₁.q.tau - deviator o₂.q.tau) ≤ magnitude
      (deviator (elasticTau (Ex.mat .vm) (dsvd (Ex.part (1 / 2) (-1 / 2)).F)) -
        deviator (elasticTau (Ex.mat .vm) (dsvd (Ex.part (1 / 10) 0).F))) := by
  obtain ⟨o₁, h₁, e₁, -⟩ := C34_vonMises (cabs := abs) (Ex.mat_ok .vm) rfl (by norm_num [Ex.mat]) 1
    (Ex.part (1 / 2) (-1 / 2)) false (dsvd_ok (1 / 2) (-1 / 2))
  obtain ⟨o₂, h₂, e₂, -⟩ := C34_vonMises (cabs := abs) (Ex.mat_ok .vm) rfl (by norm_num [Ex.mat]) 1
    (Ex.part (1 / 10) 0) false (dsvd_ok (1 / 10) 0)
  have t₁ := (dsvd_trial .vm (a := 1 / 2) (b := -1 / 2) (by norm_num) (by norm_num)).2
  have t₂ := (dsvd_trial .vm (a := 1 / 10) (b := 0) (by norm_num) (by norm_num)).2
  refine ⟨o₁, o₂, h₁, h₂, by rw [e₁, t₁]; norm_num [Ex.mat], by rw [e₂, t₂]; norm_num [Ex.mat, abs_of_pos], ?_⟩
  exact (C123_vonMises (Ex.mat_ok .vm) rfl (by norm_num [Ex.mat]) (by norm_num [Ex.mat]) one_ne_zero (dsvd_ok _ _) (dsvd_ok _ _)
    (dsvd_big (by norm_num) (by norm_num)) (dsvd_big (by norm_num) (by norm_num)) h₁ h₂).2

/-- The same two particles with viscosity. -/
example : ∃ o₁ o₂, plasticity abs dsvd (Ex.mat .vmVisc) 1 (Ex.part (1 / 2) (-1 / 2)) false = some o₁ ∧
    plasticity abs dsvd (Ex.mat .vmVisc) 1 (Ex.part (1 / 10) 0) false = some o₂ ∧
    magnitude (deviator o₁.q.tau - deviator o₂.q.tau) ≤ magnitude
      (deviator (elasticTau (Ex.mat .vmVisc) (dsvd (Ex.part (1 / 2) (-1 / 2)).F)) -
        deviator (elasticTau (Ex.mat .vmVisc) (dsvd (Ex.part (1 / 10) 0).F))) := by
  have t₁ := (dsvd_trial .vmVisc (a := 1 / 2) (b := -1 / 2) (by norm_num) (by norm_num)).1
  have t₂ := (dsvd_trial .vmVisc (a := 1 / 10) (b := 0) (by norm_num) (by norm_num)).1
  have c₁ : (Ex.mat .vmVisc).pMin ≤ trialP (Ex.mat .vmVisc) (dsvd (Ex.part (1 / 2) (-1 / 2)).F) := by rw [t₁]; norm_num [Ex.mat]
  have c₂ : (Ex.mat .vmVisc).pMin ≤ trialP (Ex.mat .vmVisc) (dsvd (Ex.part (1 / 10) 0).F) := by rw [t₂]; norm_num [Ex.mat]
  obtain ⟨o₁, h₁, -⟩ := C37_viscousVonMises (cabs := abs) (Ex.mat_ok .vmVisc) rfl rfl rfl (by norm_num [Ex.mat]) (by norm_num [Ex.mat])
    one_pos (Ex.part (1 / 2) (-1 / 2)) false (dsvd_ok (1 / 2) (-1 / 2)) c₁
  obtain ⟨o₂, h₂, -⟩ := C37_viscousVonMises (cabs := abs) (Ex.mat_ok .vmVisc) rfl rfl rfl (by norm_num [Ex.mat]) (by norm_num [Ex.mat])
    one_pos (Ex.part (1 / 10) 0) false (dsvd_ok (1 / 10) 0) c₂
  exact ⟨o₁, o₂, h₁, h₂, (C123_viscousVonMises (Ex.mat_ok .vmVisc) rfl rfl rfl (by norm_num [Ex.mat]) (by norm_num [Ex.mat])
    (by norm_num [Ex.mat]) one_pos (dsvd_ok _ _) (dsvd_ok _ _)
    (dsvd_big (by norm_num) (by norm_num)) (dsvd_big (by norm_num) (by norm_num)) c₁ c₂ h₁ h₂).2⟩

/-- Drucker-Prager: one particle beyond the tip, the other sheared beyond the yield line. -/
example : ∃ o₁ o₂, plasticity abs dsvd (Ex.mat .dp) 1 (Ex.part 1 0) false = some o₁ ∧
    plasticity abs dsvd (Ex.mat .dp) 1 (Ex.part (1 / 2) (-1 / 2)) false = some o₂ ∧
    |newP o₁ - newP o₂| ≤ |trialP (Ex.mat .dp) (dsvd (Ex.part 1 0).F) -
      trialP (Ex.mat .dp) (dsvd (Ex.part (1 / 2) (-1 / 2)).F)| + 1e-10 / (Ex.mat .dp).M := by
  obtain ⟨o₁, h₁, -⟩ := C35_druckerPrager (cabs := abs) (Ex.mat_ok .dp) rfl (by norm_num [Ex.mat]) (by norm_num [Ex.mat]) 1
    (Ex.part 1 0) false (dsvd_ok 1 0)
  obtain ⟨o₂, h₂, -⟩ := C35_druckerPrager (cabs := abs) (Ex.mat_ok .dp) rfl (by norm_num [Ex.mat]) (by norm_num [Ex.mat]) 1
    (Ex.part (1 / 2) (-1 / 2)) false (dsvd_ok (1 / 2) (-1 / 2))
  exact ⟨o₁, o₂, h₁, h₂, (C123_druckerPrager (Ex.mat_ok .dp) rfl (by norm_num [Ex.mat]) (by norm_num [Ex.mat]) (by norm_num [Ex.mat])
    one_ne_zero (dsvd_ok _ _) (dsvd_ok _ _)
    (dsvd_big (by norm_num) (by norm_num)) (dsvd_big (by norm_num) (by norm_num)) h₁ h₂).1⟩

/-- The viscous Drucker-Prager material with the Duvaut-Lions option. -/
def dlMat : Material := { Ex.mat .dpVisc with useDuvautLions := true }

lemma dlMat_ok : MatOk dlMat 2 :=
  have h := Ex.mat_ok .dpVisc
  ⟨h.1, h.2, h.3, h.4, h.5⟩

end SmoothEx

open SmoothEx in
/-- **C123** fails for viscous Drucker-Prager: on the two sides of the tip of the yield surface there are particles whose elastic
stresses are as close as one likes, and whose shear stresses after the plastic update differ by more than 7/16. -/
theorem C123_viscousDruckerPrager_false : ∀ ε : ℝ, 0 < ε → ∃ (q₁ q₂ : Particle 2 ℝ) (o₁ o₂ : PState 2),
    IsSvd q₁.F (dsvd q₁.F) ∧ IsSvd q₂.F (dsvd q₂.F) ∧
    plasticity abs dsvd dlMat 1 q₁ false = some o₁ ∧ plasticity abs dsvd dlMat 1 q₂ false = some o₂ ∧
    magnitude (elasticTau dlMat (dsvd q₁.F) - elasticTau dlMat (dsvd q₂.F)) ≤ ε ∧
    7 / 16 < newQ dlMat o₁ - newQ dlMat o₂ := by
  intro ε hε
  set δ : ℝ := min (ε / 4) (1 / 8) with hδ
  have hδ0 : 0 < δ := lt_min (by linarith) (by norm_num)
  have hδ1 : δ ≤ 1 / 8 := min_le_right _ _
  have hδ2 : δ ≤ ε / 4 := min_le_left _ _
  obtain ⟨p1, r1⟩ := dsvd_trial .dpVisc (a := 1 / 2) (b := -3 / 8 - δ) (by norm_num) (by linarith)
  obtain ⟨p2, r2⟩ := dsvd_trial .dpVisc (a := 1 / 2) (b := -3 / 8 + δ) (by norm_num) (by linarith)
  have eM : dlMat.M = 1 := rfl
  have eC : dlMat.qCohesion = 1 / 8 := rfl
  have eS : ∀ q : Particle 2 ℝ, pressureShift dlMat 2 q = 0 := fun q => by simp [pressureShift, dlMat, Ex.mat]
  obtain ⟨o₁, h₁, -, -, -, k1, -⟩ := C38_viscousDruckerPrager (cabs := abs) (m := dlMat) (dt := 1)
    dlMat_ok rfl rfl (by norm_num [dlMat, Ex.mat]) (by norm_num [dlMat, Ex.mat]) (by norm_num [dlMat, Ex.mat]) one_pos
    (Ex.part (1 / 2) (-3 / 8 - δ)) false (dsvd_ok _ _) p1.symm r1.symm rfl rfl
  obtain ⟨o₂, h₂, k2, -⟩ := C38_viscousDruckerPrager (cabs := abs) (m := dlMat) (dt := 1)
    dlMat_ok rfl rfl (by norm_num [dlMat, Ex.mat]) (by norm_num [dlMat, Ex.mat]) (by norm_num [dlMat, Ex.mat]) one_pos
    (Ex.part (1 / 2) (-3 / 8 + δ)) false (dsvd_ok _ _) p2.symm r2.symm rfl rfl
  refine ⟨_, _, o₁, o₂, dsvd_ok _ _, dsvd_ok _ _, h₁, h₂, ?_, ?_⟩
  · have t1 : elasticTau dlMat _ = _ := elastic_diag .dpVisc (a := 1 / 2) (b := -3 / 8 - δ) (by norm_num) (by linarith)
    have t2 : elasticTau dlMat _ = _ := elastic_diag .dpVisc (a := 1 / 2) (b := -3 / 8 + δ) (by norm_num) (by linarith)
    rw [t1, t2, magnitude]
    have : ∑ i, ∑ j, ((diagonal ![2 * (1 / 2 : ℝ), 2 * (-3 / 8 - δ)] - diagonal ![2 * (1 / 2 : ℝ), 2 * (-3 / 8 + δ)] :
        Matrix (Fin 2) (Fin 2) ℝ) i j) ^ 2 = (4 * δ) ^ 2 := by
      simp only [Fin.sum_univ_two, Matrix.sub_apply, Matrix.diagonal_apply]
      norm_num
      ring
    rw [this, Real.sqrt_sq (by linarith)]
    linarith
  · rw [eS, eM, eC] at k1 k2
    have z2 := (k2 (by linarith)).2
    have ha : |1 / 2 - (-3 / 8 - δ)| = 7 / 8 + δ := by rw [abs_of_pos (by linarith)]; ring
    rw [ha] at k1
    obtain ⟨-, -, e1, e2, -⟩ := k1 (by linarith) (by linarith)
    have ef : dlMat.fMu = 1 := Ex.mat_fMu .dpVisc
    simp only [FlowEq, show dlMat.useDuvautLions = true from rfl, if_true, show dlMat.viscTime = 1 from rfl, ef] at e1 e2
    rw [z2]
    linarith

end

end Verif.Props
