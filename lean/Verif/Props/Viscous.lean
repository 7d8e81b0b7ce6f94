import Verif.Lemmas.Visc
import Verif.Props.Plastic

set_option linter.unusedSectionVars false
set_option linter.unusedSimpArgs false
set_option linter.unusedVariables false

/-!
# C37, C38, C51: the viscoplastic models

`FlowEq` and `flowResidual` (Verif/Lemmas/Visc.lean) state the flow rules in terms of the new shear stress
and the plastic shear rate.
-/

namespace Verif.Props
open Verif Matrix

variable {d : ℕ}

lemma saved_visc {m : Material} (ok : MatOk m d) {U : Matrix (Fin d) (Fin d) ℝ} (hU : U * Uᵀ = 1)
    {t : Trial d} (h : Fin d → ℝ) (ht : t = mkTrial h) {g : ℝ} (hpos : 0 < t.norm)
    (hg : m.fMu * g ≤ m.eMu * t.norm) :
    savedP (henckyTau m.lam m.mu U (t.hencky - (1 / m.dPre * g) • t.dir)) = -m.K d * t.trace ∧
    savedQ m.qPrefac (henckyTau m.lam m.mu U (t.hencky - (1 / m.dPre * g) • t.dir)) =
      m.eMu * t.norm - m.fMu * g := by
  have he := ok.eMu_pos
  rw [ok.fMu_eq, mul_assoc] at hg
  have := saved_shear ok hU h ht (c := 1 / m.dPre * g) (le_of_mul_le_mul_left hg he) hpos
  refine ⟨this.1, this.2.trans ?_⟩
  rw [ok.fMu_eq]; ring

/-- A plastic state after shearing by the increment `g`. -/
noncomputable def sheared (m : Material) (dt : ℝ) (s : Svd d) (t : Trial d) (st : PState d) (g : ℝ) (e : Bool) :
    PState d :=
  { count := st.count + 1
    exit := e
    hencky := t.hencky - (1 / m.dPre * g) • t.dir
    q := { st.q with
      F := s.expF (t.hencky - (1 / m.dPre * g) • t.dir)
      epsPlDev := st.q.epsPlDev + 1 / m.dPre * g
      deltaGamma := g / dt } }

lemma norm_pos_of {m : Material} (ok : MatOk m d) {h : Fin d → ℝ} {y : ℝ} (hy : 0 ≤ y)
    (hlt : y < m.eMu * (mkTrial h).norm) : 0 < (mkTrial h).norm := by
  rcases (mkTrial_norm_nonneg h).lt_or_eq with h | h
  · exact h
  · rw [← h, mul_zero] at hlt; linarith

lemma epsdev_eq {m : Material} (ok : MatOk m d) (g qt : ℝ) :
    1 / m.dPre * g = (qt - (qt - m.fMu * g)) / m.eMu := by
  have := ok.eMu_pos
  rw [ok.fMu_eq]; field_simp; ring

/-! ### C37 -/

/-- **C37** Exponent one, no softening, pressure above the cap `p_min`. -/
theorem C37_viscousVonMises {cabs} {svd : Matrix (Fin d) (Fin d) ℝ → Svd d} {m : Material} (ok : MatOk m d)
    (hm : m.plastic = .vmVisc) (hn : m.viscExponent = 1) (hxi : m.xi = 0) (hq : 0 ≤ m.qMax)
    (hτ : 0 ≤ m.viscTime) {dt : ℝ} (hdt : 0 < dt) (q : Particle d ℝ) (exit : Bool)
    (hs : IsSvd q.F (svd q.F)) (hcap : m.pMin ≤ trialP m (svd q.F)) :
    ∃ out, plasticity cabs svd m dt q exit = some out ∧
      newP out = trialP m (svd q.F) ∧
      (trialQ m (svd q.F) ≤ m.qMax → out.q = { q with tau := elasticTau m (svd q.F) }) ∧
      (m.qMax < trialQ m (svd q.F) →
        m.qMax ≤ newQ m out ∧ newQ m out < trialQ m (svd q.F) ∧
        m.fMu * (out.q.deltaGamma * dt) = trialQ m (svd q.F) - newQ m out ∧
        FlowEq m m.qMax (newQ m out) out.q.deltaGamma ∧
        (m.viscTime = 0 → newQ m out = m.qMax)) ∧
      out.q.epsPlDev = q.epsPlDev + (trialQ m (svd q.F) - newQ m out) / m.eMu ∧
      out.q.epsPlVol = q.epsPlVol ∧
      SameMotion q out.q ∧ out.exit = exit := by
  obtain ⟨hP, hQ⟩ := trial_eq ok hs
  have he := ok.eMu_pos
  have hf := ok.fMu_pos
  have hU := hs.orthU
  rw [hP] at hcap
  have hy : m.qMin + (m.qMax - m.qMin) * Real.exp (-m.xi * q.epsPlDev) = m.qMax := by rw [hxi]; simp
  have hcap' : ¬ -m.K d * (mkTrial (svd q.F).hencky).trace < m.pMin * Real.exp (-m.xi * q.epsPlVol) := by
    rw [hxi]; simpa using hcap
  by_cases hlt : m.eMu * (mkTrial (svd q.F).hencky).norm > m.qMax
  · obtain ⟨c1, c2, c3, c4⟩ := closedForm_spec hf hτ hdt hq hlt
    refine ⟨_, plasticity_some.mpr ⟨sheared m dt (svd q.F) (mkTrial (svd q.F).hencky)
      ⟨q, (svd q.F).hencky, 0, exit⟩
      (closedForm m dt (m.eMu * (mkTrial (svd q.F).hencky).norm) m.qMax).1 exit, ?_, rfl⟩, ?_⟩
    · simp only [plastModel, hm, plastVMVisc, if_neg hcap', hy, if_pos hlt, viscIncrement]
      simp only [hn, hxi, and_self, decide_true, if_true, Option.bind_eq_bind, Option.bind_some, c2,
        Bool.or_false]
      rfl
    simp only [sheared]
    simp only [newQ, newP, newTau_hencky ok.hel]
    set s := svd q.F
    set t := mkTrial s.hencky
    have hnp : 0 < t.norm := norm_pos_of ok hq hlt
    set g := (closedForm m dt (m.eMu * t.norm) m.qMax).1
    obtain ⟨sp, sq⟩ := saved_visc ok hU (t := t) s.hencky rfl (g := g) hnp (by linarith)
    rw [hP, hQ, sp, sq]
    refine ⟨rfl, fun h => absurd hlt (not_lt.mpr h), fun _ => ⟨c3, ?_, ?_, c4, ?_⟩, ?_, by trivial,
      ⟨rfl, rfl, rfl, rfl, rfl⟩, by trivial⟩
    · have := mul_pos hf c1; linarith
    · field_simp; ring
    · intro h0
      unfold FlowEq at c4
      rw [h0] at c4
      split_ifs at c4 <;> linarith
    · rw [← epsdev_eq ok]
  · refine ⟨_, plasticity_some.mpr ⟨⟨q, (svd q.F).hencky, 0, exit⟩, ?_, rfl⟩, ?_⟩
    · simp only [plastModel, hm, plastVMVisc, if_neg hcap', hy, if_neg hlt]
    simp only [newQ, newP, newTau_hencky ok.hel]
    set s := svd q.F
    set t := mkTrial s.hencky
    obtain ⟨sp, sq⟩ := saved_trial' ok hU (t := t) s.hencky rfl
    rw [hP, hQ, sp, sq]
    refine ⟨rfl, fun _ => ?_, fun h => absurd h hlt, by simp, by trivial, ⟨rfl, rfl, rfl, rfl, rfl⟩, by trivial⟩
    rw [elasticTau_eq hs]

/-- Two solutions of the flow equation for different viscosities. -/
lemma flow_mono {m : Material} (hf : 0 < m.fMu) {τ₁ τ₂ dt qt y a b : ℝ} (h12 : τ₁ ≤ τ₂)
    (hdt : 0 < dt) (hy : 0 ≤ y) (hτ : 0 ≤ τ₁) (ha0 : 0 ≤ b)
    (ha : FlowEq { m with viscTime := τ₁ } y (qt - m.fMu * (a * dt)) a)
    (hb : FlowEq { m with viscTime := τ₂ } y (qt - m.fMu * (b * dt)) b) : b ≤ a := by
  unfold FlowEq at ha hb
  by_contra hcon
  have hab : 0 < b - a := by linarith [not_le.mp hcon]
  have hfm : ∀ τ, ({ m with viscTime := τ } : Material).fMu = m.fMu := fun _ => rfl
  simp only [hfm] at ha hb
  have hfd : 0 < m.fMu * dt := by positivity
  have hτ' : 0 ≤ τ₂ - τ₁ := by linarith
  split_ifs at ha hb
  · have h1 : (b - a) * (m.fMu * dt + m.fMu * τ₁) + m.fMu * (τ₂ - τ₁) * b = 0 := by linarith
    have h2 : 0 < (b - a) * (m.fMu * dt + m.fMu * τ₁) := by positivity
    have h3 : 0 ≤ m.fMu * (τ₂ - τ₁) * b := by positivity
    linarith
  · have h1 : (b - a) * (m.fMu * dt + y * τ₁) + y * (τ₂ - τ₁) * b = 0 := by linarith
    have h2 : 0 < (b - a) * (m.fMu * dt + y * τ₁) := by positivity
    have h3 : 0 ≤ y * (τ₂ - τ₁) * b := by positivity
    linarith

/-- **C37** A smaller viscosity gives a smaller shear stress, and with vanishing viscosity the
rate-independent stress is approached at a linear rate. -/
theorem C37_monotone {cabs} {svd : Matrix (Fin d) (Fin d) ℝ → Svd d} {m : Material} (ok : MatOk m d)
    (hm : m.plastic = .vmVisc) (hn : m.viscExponent = 1) (hxi : m.xi = 0) (hq : 0 ≤ m.qMax)
    {dt : ℝ} (hdt : 0 < dt) (q : Particle d ℝ) (exit : Bool)
    (hs : IsSvd q.F (svd q.F)) (hcap : m.pMin ≤ trialP m (svd q.F)) {τ₁ τ₂ : ℝ} (h0 : 0 ≤ τ₁) (h12 : τ₁ ≤ τ₂) :
    ∃ out₁ out₂, plasticity cabs svd { m with viscTime := τ₁ } dt q exit = some out₁ ∧
      plasticity cabs svd { m with viscTime := τ₂ } dt q exit = some out₂ ∧
      min (trialQ m (svd q.F)) m.qMax ≤ newQ m out₁ ∧ newQ m out₁ ≤ newQ m out₂ ∧
      newQ m out₂ ≤ min (trialQ m (svd q.F)) m.qMax +
        τ₂ * ((m.fMu + m.qMax) * trialQ m (svd q.F) / (m.fMu * dt)) := by
  have hf := ok.fMu_pos
  have ok₁ : MatOk { m with viscTime := τ₁ } d := ⟨ok.hd, ok.hK, ok.hmu, ok.hq, ok.hel⟩
  have ok₂ : MatOk { m with viscTime := τ₂ } d := ⟨ok.hd, ok.hK, ok.hmu, ok.hq, ok.hel⟩
  obtain ⟨o₁, e₁, -, a₁, b₁, -⟩ := C37_viscousVonMises (cabs := cabs) ok₁ hm hn hxi hq h0 hdt q exit hs hcap
  obtain ⟨o₂, e₂, -, a₂, b₂, -⟩ := C37_viscousVonMises (cabs := cabs) ok₂ hm hn hxi hq (h0.trans h12) hdt q exit hs hcap
  refine ⟨o₁, o₂, e₁, e₂, ?_⟩
  change trialQ m (svd q.F) ≤ m.qMax → _ at a₁
  change trialQ m (svd q.F) ≤ m.qMax → _ at a₂
  change m.qMax < trialQ m (svd q.F) → m.qMax ≤ newQ m o₁ ∧ newQ m o₁ < trialQ m (svd q.F) ∧
    m.fMu * (o₁.q.deltaGamma * dt) = trialQ m (svd q.F) - newQ m o₁ ∧
    FlowEq { m with viscTime := τ₁ } m.qMax (newQ m o₁) o₁.q.deltaGamma ∧ _ at b₁
  change m.qMax < trialQ m (svd q.F) → m.qMax ≤ newQ m o₂ ∧ newQ m o₂ < trialQ m (svd q.F) ∧
    m.fMu * (o₂.q.deltaGamma * dt) = trialQ m (svd q.F) - newQ m o₂ ∧
    FlowEq { m with viscTime := τ₂ } m.qMax (newQ m o₂) o₂.q.deltaGamma ∧ _ at b₂
  have hQ0 : 0 ≤ trialQ m (svd q.F) := by
    rw [(trial_eq ok hs).2]; exact mul_nonneg ok.eMu_pos.le (mkTrial_norm_nonneg _)
  have hτ₂ := h0.trans h12
  rcases le_or_gt (trialQ m (svd q.F)) m.qMax with h | h
  · have n₁ : newQ m o₁ = trialQ m (svd q.F) := by rw [newQ, a₁ h]; rfl
    have n₂ : newQ m o₂ = trialQ m (svd q.F) := by rw [newQ, a₂ h]; rfl
    rw [n₁, n₂, min_eq_left h]
    exact ⟨le_rfl, le_rfl, le_add_of_nonneg_right (by positivity)⟩
  · obtain ⟨p1, p2, p3, p4, -⟩ := b₁ h
    obtain ⟨r1, r2, r3, r4, -⟩ := b₂ h
    set Q := trialQ m (svd q.F)
    have hr0 : 0 < o₂.q.deltaGamma := by
      have h1 : 0 < m.fMu * (o₂.q.deltaGamma * dt) := by linarith
      have h2 := (mul_pos_iff_of_pos_left hf).mp h1
      exact (mul_pos_iff_of_pos_right hdt).mp h2
    have hmono := flow_mono (m := m) (qt := Q) hf h12 hdt hq h0 hr0.le
      (by rw [p3, sub_sub_cancel]; exact p4) (by rw [r3, sub_sub_cancel]; exact r4)
    rw [min_eq_right h.le]
    refine ⟨p1, ?_, ?_⟩
    · have : m.fMu * (o₂.q.deltaGamma * dt) ≤ m.fMu * (o₁.q.deltaGamma * dt) := by gcongr
      linarith
    · have hb : o₂.q.deltaGamma ≤ Q / (m.fMu * dt) := by
        rw [le_div_iff₀ (by positivity)]; linarith
      have hb2 : τ₂ * o₂.q.deltaGamma * (m.fMu + m.qMax) ≤ τ₂ * (Q / (m.fMu * dt)) * (m.fMu + m.qMax) := by
        gcongr
      have hA : 0 ≤ τ₂ * o₂.q.deltaGamma * m.fMu := by positivity
      have hB : 0 ≤ τ₂ * o₂.q.deltaGamma * m.qMax := by positivity
      have hC : τ₂ * ((m.fMu + m.qMax) * Q / (m.fMu * dt)) = τ₂ * (Q / (m.fMu * dt)) * (m.fMu + m.qMax) := by ring
      rw [hC]
      unfold FlowEq at r4
      have hfm : ({ m with viscTime := τ₂ } : Material).fMu = m.fMu := rfl
      split_ifs at r4
      · rw [hfm] at r4
        change newQ m o₂ = m.qMax + m.fMu * τ₂ * o₂.q.deltaGamma at r4
        nlinarith
      · change newQ m o₂ = m.qMax * (1 + τ₂ * o₂.q.deltaGamma) at r4
        nlinarith

/-- Shear stress 1 with yield stress 1/4, viscosity time 1, step 1: the increment is `3/4 / (1 + 1/4)`. -/
example : ∃ out, plasticity abs (Ex.svd (1 / 2) (-1 / 2)) (Ex.mat .vmVisc) 1 (Ex.part (1 / 2) (-1 / 2)) false
      = some out ∧ newQ (Ex.mat .vmVisc) out = 2 / 5 ∧ out.q.deltaGamma = 3 / 5 := by
  obtain ⟨e1, e2⟩ := ex_trial .vmVisc (a := 1 / 2) (b := -1 / 2) (by norm_num) (by norm_num) _ (Ex.isSvd _ _)
  obtain ⟨out, h, -, -, hp, -⟩ := C37_viscousVonMises (cabs := abs) (m := Ex.mat .vmVisc) (Ex.mat_ok _) rfl rfl rfl
    (by norm_num [Ex.mat]) (by norm_num [Ex.mat]) one_pos (Ex.part (1 / 2) (-1 / 2)) false
    (Ex.isSvd (1 / 2) (-1 / 2)) (by rw [e1]; norm_num [Ex.mat])
  rw [e2, Ex.mat_fMu] at hp
  obtain ⟨-, -, h3, h4, -⟩ := hp (by norm_num [Ex.mat])
  have h4' : newQ (Ex.mat .vmVisc) out = 1 / 4 * (1 + 1 * out.q.deltaGamma) := h4
  norm_num at h3
  exact ⟨out, h, by linarith, by linarith⟩

/-! ### C38 -/

lemma ite_muI (b : Bool) (q : Particle d ℝ) (h : Fin d → ℝ) (n : ℕ) (e : Bool) (x : ℝ) :
    (if b = true then (⟨{ q with muI := x }, h, n, e⟩ : PState d) else ⟨q, h, n, e⟩) =
      ⟨{ q with muI := if b = true then x else q.muI }, h, n, e⟩ := by
  cases b <;> rfl

/-- **C38** Exponent one. `Y` is the shifted yield stress at the trial pressure. -/
theorem C38_viscousDruckerPrager {cabs} {svd : Matrix (Fin d) (Fin d) ℝ → Svd d} {m : Material}
    (ok : MatOk m d) (hm : m.plastic = .dpVisc) (hn : m.viscExponent = 1) (hM : 0 < m.M) (hc : 0 ≤ m.qCohesion)
    (hτ : 0 ≤ m.viscTime) {dt : ℝ} (hdt : 0 < dt) (q : Particle d ℝ) (exit : Bool)
    (hs : IsSvd q.F (svd q.F)) {P Q S Y : ℝ} (hPd : P = trialP m (svd q.F)) (hQd : Q = trialQ m (svd q.F))
    (hSd : S = pressureShift m d q) (hYd : Y = m.M * (P + S) + m.qCohesion) :
    ∃ out, plasticity cabs svd m dt q exit = some out ∧
      (P + S < -m.qCohesion / m.M → newP out = -m.qCohesion / m.M ∧ newQ m out = 0) ∧
      (-m.qCohesion / m.M ≤ P + S → newP out = P) ∧
      (-m.qCohesion / m.M < P + S → Q ≤ Y →
        out.q.F = q.F ∧ out.q.tau = elasticTau m (svd q.F) ∧ out.q.deltaGamma = 0) ∧
      (-m.qCohesion / m.M < P + S → Y < Q →
        Y ≤ newQ m out ∧ newQ m out < Q ∧ m.fMu * (out.q.deltaGamma * dt) = Q - newQ m out ∧
        FlowEq m Y (newQ m out) out.q.deltaGamma ∧ (m.viscTime = 0 → newQ m out = Y)) ∧
      (P + S = -m.qCohesion / m.M → newQ m out = Q) ∧
      out.q.epsPlDev = q.epsPlDev + (Q - newQ m out) / m.eMu ∧
      out.q.epsPlVol = q.epsPlVol + (newP out - P) / m.K d ∧
      out.q.epsPlVolPradhana =
        (if m.usePradhana then
          if P + S < -m.qCohesion / m.M then q.epsPlVolPradhana + (newP out - P) / m.K d else 0
        else q.epsPlVolPradhana) ∧
      (m.useMibf = true → out.q.muI = m.M ∨ |P + S| < 1e-10 ∨ newQ m out = out.q.muI * (P + S) + m.qCohesion) ∧
      SameMotion q out.q ∧ out.exit = exit := by
  obtain ⟨hP, hQ⟩ := trial_eq ok hs
  have he := ok.eMu_pos
  have hf := ok.fMu_pos
  have hU := hs.orthU
  rw [← hPd] at hP
  rw [← hQd] at hQ
  have hS' : (if m.usePradhana = true then -m.K d * q.epsPlVolPradhana else 0) = S := hSd.symm
  have hcanc : ∀ x, 1 / m.dPre * (m.dPre * x) = x := fun x => by have := ok.dPre_pos; field_simp
  have hsol : m.M * (-m.qCohesion / m.M) + m.qCohesion = 0 := by field_simp; ring
  have key : ∀ st, plastDPVisc m dt (svd q.F) (mkTrial (svd q.F).hencky)
      ⟨q, (svd q.F).hencky, 0, exit⟩ = some st → plasticity cabs svd m dt q exit =
        some { st with q := { st.q with tau := henckyTau m.lam m.mu (svd q.F).U st.hencky } } := by
    intro st hst
    refine plasticity_some.mpr ⟨st, by simp only [plastModel, hm, hst], ?_⟩
    rw [newTau_hencky ok.hel]
  unfold plastDPVisc at key
  simp only [ite_muI, hS', ← hP, ← hQ, ← hYd, hcanc] at key
  simp only [newQ, newP]
  set s := svd q.F
  set t := mkTrial s.hencky
  rcases lt_trichotomy (P + S) (-m.qCohesion / m.M) with h1 | h1 | h1
  · rw [if_pos h1, if_neg (by intro h; exact absurd h.1 (not_lt.mpr h1.le))] at key
    refine ⟨_, key _ rfl, ?_⟩
    obtain ⟨sp, sq⟩ := saved_iso ok hU (-m.qCohesion / m.M)
    simp only
    rw [show savedP _ = _ from sp, show savedQ _ _ = _ from sq]
    refine ⟨fun _ => ⟨rfl, rfl⟩, fun h => absurd h1 (not_lt.mpr h), fun h => absurd h1 (not_lt.mpr h.le),
      fun h => absurd h1 (not_lt.mpr h.le), fun h => absurd h h1.ne, ?_, rfl, ?_, ?_,
      ⟨rfl, rfl, rfl, rfl, rfl⟩, by trivial⟩
    · rw [hQ]; field_simp; ring
    · rw [if_pos h1]
    · intro h; left; simp only [h, if_true]
  · rw [if_neg h1.not_lt, if_neg (by intro h; exact absurd h.1 (h1 ▸ lt_irrefl _))] at key
    refine ⟨_, key _ rfl, ?_⟩
    obtain ⟨sp, sq⟩ := saved_trial' ok hU (t := t) s.hencky rfl
    simp only
    rw [show savedP _ = P from sp.trans hP.symm, show savedQ _ _ = Q from sq.trans hQ.symm]
    refine ⟨fun h => absurd h1 h.ne, fun _ => rfl, fun h => absurd h1 h.ne', fun h => absurd h1 h.ne',
      fun _ => rfl, by simp, by simp, ?_, ?_, ⟨rfl, rfl, rfl, rfl, rfl⟩, by trivial⟩
    · rw [if_neg h1.not_lt]
    · intro h; left; simp only [h, if_true]
  · rw [if_neg (not_lt.mpr h1.le)] at key
    by_cases h2 : Q > Y
    · rw [if_pos ⟨h1, h2⟩] at key
      have hY0 : 0 < Y := by
        have := mul_lt_mul_of_pos_left h1 hM
        rw [hYd]; linarith
      obtain ⟨c1, c2, c3, c4⟩ := closedForm_spec hf hτ hdt hY0.le h2
      simp only [viscIncrement] at key
      simp only [hn, decide_true, if_true, Option.bind_eq_bind, Option.bind_some, c2, Bool.or_false] at key
      refine ⟨_, key _ rfl, ?_⟩
      have hnp : 0 < t.norm := norm_pos_of ok hY0.le (by rw [hQ] at h2; exact h2)
      set g := (closedForm m dt Q Y).1
      obtain ⟨sp, sq⟩ := saved_visc ok hU (t := t) s.hencky rfl (g := g) hnp (by rw [← hQ]; linarith)
      simp only
      rw [show savedP _ = P from sp.trans hP.symm, show savedQ _ _ = _ from sq, ← hQ]
      refine ⟨fun h => absurd h (not_lt.mpr h1.le), fun _ => rfl, fun _ h => absurd h2 (not_lt.mpr h),
        fun _ _ => ⟨c3, ?_, ?_, c4, ?_⟩, fun h => absurd h h1.ne', ?_, by simp, ?_, ?_,
        ⟨rfl, rfl, rfl, rfl, rfl⟩, by trivial⟩
      · have := mul_pos hf c1; linarith
      · field_simp; ring
      · intro h0
        unfold FlowEq at c4
        rw [h0] at c4
        split_ifs at c4 <;> linarith
      · rw [← epsdev_eq ok]
      · rw [if_neg (not_lt.mpr h1.le)]
      · intro h
        right
        by_cases h3 : |P + S| < 1e-10
        · exact Or.inl h3
        · right
          rw [if_pos h, if_neg h3, div_mul_cancel₀]
          · ring
          · intro h4; rw [h4] at h3; norm_num at h3
    · rw [if_neg (fun h => h2 h.2)] at key
      refine ⟨_, key _ rfl, ?_⟩
      obtain ⟨sp, sq⟩ := saved_trial' ok hU (t := t) s.hencky rfl
      simp only
      rw [show savedP _ = P from sp.trans hP.symm, show savedQ _ _ = Q from sq.trans hQ.symm]
      refine ⟨fun h => absurd h (not_lt.mpr h1.le), fun _ => rfl, fun _ _ => ⟨by trivial, (elasticTau_eq hs).symm, by trivial⟩,
        fun _ h => absurd h h2, fun _ => rfl, by simp, by simp, ?_, ?_, ⟨rfl, rfl, rfl, rfl, rfl⟩, by trivial⟩
      · rw [if_neg (not_lt.mpr h1.le)]
      · intro h; left; simp only [h, if_true]

/-- Cohesion 1/8, friction 1, pressure 0, shear stress 1. -/
example : ∃ out, plasticity abs (Ex.svd (1 / 2) (-1 / 2)) (Ex.mat .dpVisc) 1 (Ex.part (1 / 2) (-1 / 2)) false
      = some out ∧ newQ (Ex.mat .dpVisc) out = 2 / 9 ∧ out.q.deltaGamma = 7 / 9 := by
  obtain ⟨e1, e2⟩ := ex_trial .dpVisc (a := 1 / 2) (b := -1 / 2) (by norm_num) (by norm_num) _ (Ex.isSvd _ _)
  obtain ⟨out, h, -, -, -, hp, -⟩ := C38_viscousDruckerPrager (cabs := abs) (m := Ex.mat .dpVisc)
    (Ex.mat_ok _) rfl rfl (by norm_num [Ex.mat]) (by norm_num [Ex.mat]) (by norm_num [Ex.mat]) one_pos
    (Ex.part (1 / 2) (-1 / 2)) false (Ex.isSvd (1 / 2) (-1 / 2)) e1.symm e2.symm rfl rfl
  rw [Ex.mat_fMu] at hp
  obtain ⟨-, -, h3, h4, -⟩ := hp (by norm_num [Ex.mat, pressureShift]) (by norm_num [Ex.mat, pressureShift])
  have h4' : newQ (Ex.mat .dpVisc) out = (1 * (-(1 / 2 + -1 / 2) + 0) + 1 / 8) * (1 + 1 * out.q.deltaGamma) := h4
  norm_num at h3 h4'
  exact ⟨out, h, by linarith, by linarith⟩

/-- **C38** fails for a trial pressure exactly at the tip: the state keeps its shear stress 7/8 although the
yield stress there is zero. -/
theorem C38_tip_false : ∃ out, plasticity abs (Ex.svd (1 / 2) (-3 / 8)) (Ex.mat .dpVisc) 1
      (Ex.part (1 / 2) (-3 / 8)) false = some out ∧ newQ (Ex.mat .dpVisc) out = 7 / 8 ∧
      (Ex.mat .dpVisc).M * newP out + (Ex.mat .dpVisc).qCohesion = 0 := by
  obtain ⟨e1, e2⟩ := ex_trial .dpVisc (a := 1 / 2) (b := -3 / 8) (by norm_num) (by norm_num) _ (Ex.isSvd _ _)
  obtain ⟨out, h, -, hp, -, -, hq, -⟩ := C38_viscousDruckerPrager (cabs := abs) (m := Ex.mat .dpVisc)
    (Ex.mat_ok _) rfl rfl (by norm_num [Ex.mat]) (by norm_num [Ex.mat]) (by norm_num [Ex.mat]) one_pos
    (Ex.part (1 / 2) (-3 / 8)) false (Ex.isSvd (1 / 2) (-3 / 8)) e1.symm e2.symm rfl rfl
  refine ⟨out, h, ?_, ?_⟩
  · rw [hq (by norm_num [Ex.mat, pressureShift])]; norm_num
  · rw [hp (by norm_num [Ex.mat, pressureShift])]; norm_num [Ex.mat]

/-! ### C51 -/

/-- Yield stress of the softening von Mises model after the plastic shear strain `eps`. -/
noncomputable def vmYield (m : Material) (eps : ℝ) : ℝ :=
  m.qMin + (m.qMax - m.qMin) * Real.exp (-m.xi * eps)

lemma saved_visc_abs {m : Material} (ok : MatOk m d) {U : Matrix (Fin d) (Fin d) ℝ} (hU : U * Uᵀ = 1)
    {t : Trial d} (h : Fin d → ℝ) (ht : t = mkTrial h) {g : ℝ} (hpos : 0 < t.norm) :
    savedP (henckyTau m.lam m.mu U (t.hencky - (1 / m.dPre * g) • t.dir)) = -m.K d * t.trace ∧
    savedQ m.qPrefac (henckyTau m.lam m.mu U (t.hencky - (1 / m.dPre * g) • t.dir)) =
      |m.eMu * t.norm - m.fMu * g| := by
  subst ht
  have he := ok.eMu_pos
  have := saved_ab ok hU h _ _ (shear_form h (1 / m.dPre * g))
  rw [saved_dir_pos hpos] at this
  constructor
  · rw [mkTrial_hencky, this.1]
    have := ok.dne
    field_simp
  · rw [mkTrial_hencky, this.2, ok.fMu_eq, mul_assoc, ← mul_sub, abs_mul, abs_of_pos he]

/-- A stress that solves the flow equation within the tolerance is not below the yield stress by more. -/
lemma flowResidual_lower {m : Material} (hf : 0 < m.fMu) (hτ : 0 ≤ m.viscTime) (hn : 0 ≤ m.viscExponent)
    {y qn rate : ℝ} (hr : 0 ≤ rate) (hy : 1e-2 ≤ y) (h : |flowResidual m y qn rate| < 1e-2) :
    y - 1e-2 < qn := by
  unfold flowResidual at h
  have hb := (abs_lt.mp h).1
  have hτr : 0 ≤ m.viscTime * rate := by positivity
  split_ifs at hb
  · have : 0 ≤ m.fMu * (m.viscTime * rate) ^ m.viscExponent := by positivity
    linarith
  · set w := (1 / (1 + m.viscTime * rate)) ^ m.viscExponent
    have hw0 : 0 < w := by positivity
    have hw1 : w ≤ 1 := by
      apply Real.rpow_le_one (by positivity) _ hn
      rw [div_le_one (by positivity)]; linarith
    have h1 : y - 1e-2 < qn * w := by linarith
    have h2 : 0 < qn := by
      by_contra hcon
      have : qn * w ≤ 0 := mul_nonpos_of_nonpos_of_nonneg (not_lt.mp hcon) hw0.le
      linarith
    nlinarith

/-- **C51** Viscous von Mises, Newton case: exponent not one or softening. -/
theorem C51_vonMises {cabs} {svd : Matrix (Fin d) (Fin d) ℝ → Svd d} {m : Material} (ok : MatOk m d)
    (hm : m.plastic = .vmVisc) (hnc : ¬ (m.viscExponent = 1 ∧ m.xi = 0)) (hn : 0 ≤ m.viscExponent)
    (hτ : 0 ≤ m.viscTime) {dt : ℝ} (hdt : 0 < dt) (q : Particle d ℝ) (exit : Bool)
    (hs : IsSvd q.F (svd q.F)) (hcap : m.pMin * Real.exp (-m.xi * q.epsPlVol) ≤ trialP m (svd q.F))
    (hy0 : 0 ≤ vmYield m q.epsPlDev) (hplast : vmYield m q.epsPlDev < trialQ m (svd q.F)) {out : PState d}
    (h : plasticity cabs svd m dt q exit = some out) (hok : out.exit = false) :
    exit = false ∧ 0 ≤ out.q.deltaGamma ∧ newP out = trialP m (svd q.F) ∧
      out.q.epsPlDev = q.epsPlDev + m.fMu * (out.q.deltaGamma * dt) / m.eMu ∧
      ∃ qn, qn = trialQ m (svd q.F) - m.fMu * (out.q.deltaGamma * dt) ∧ newQ m out = |qn| ∧
        |flowResidual m (vmYield m out.q.epsPlDev) qn out.q.deltaGamma| < 1e-2 ∧
        (1e-2 ≤ vmYield m out.q.epsPlDev → newQ m out = qn ∧ newQ m out ≤ trialQ m (svd q.F) ∧
          vmYield m out.q.epsPlDev - 1e-2 < newQ m out) := by
  obtain ⟨hP, hQ⟩ := trial_eq ok hs
  have he := ok.eMu_pos
  have hf := ok.fMu_pos
  have hU := hs.orthU
  rw [hP] at hcap
  rw [hQ] at hplast
  obtain ⟨st, hst, hout⟩ := plasticity_some.mp h
  simp only [plastModel, hm, plastVMVisc, if_neg (not_lt.mpr hcap)] at hst
  rw [if_pos (show m.eMu * (mkTrial (svd q.F).hencky).norm >
    m.qMin + (m.qMax - m.qMin) * Real.exp (-m.xi * q.epsPlDev) from hplast)] at hst
  simp only [decide_eq_false hnc, Option.bind_eq_bind, Option.bind_eq_some_iff, Option.some.injEq] at hst
  obtain ⟨r, hr, rfl⟩ := hst
  have hr2 : r.2 = false := by rw [hout] at hok; exact hok
  obtain ⟨v1, v2, v3⟩ := viscIncrement_newton hf hτ hn hdt hplast.le _ _ hr hr2
  have hnp := norm_pos_of ok hy0 hplast
  obtain ⟨sp, sq⟩ := saved_visc_abs ok hU (t := mkTrial (svd q.F).hencky) (svd q.F).hencky rfl (g := r.1) hnp
  have hg : r.1 / dt * dt = r.1 := by field_simp
  have e1 : newP out = -m.K d * (mkTrial (svd q.F).hencky).trace := by
    rw [hout, newP, newTau_hencky ok.hel]; exact sp
  have e2 : newQ m out = |m.eMu * (mkTrial (svd q.F).hencky).norm - m.fMu * r.1| := by
    rw [hout, newQ, newTau_hencky ok.hel]; exact sq
  have e3 : out.q.deltaGamma = r.1 / dt := by rw [hout]
  have e4 : out.q.epsPlDev = q.epsPlDev + 1 / m.dPre * r.1 := by rw [hout]
  rw [e1, e2, e3, e4, hP, hQ, hg]
  have hrate : 0 ≤ r.1 / dt := by positivity
  have v3' : |flowResidual m (vmYield m (q.epsPlDev + 1 / m.dPre * r.1))
      (m.eMu * (mkTrial (svd q.F).hencky).norm - m.fMu * r.1) (r.1 / dt)| < 1e-2 := v3
  refine ⟨v1, hrate, rfl, ?_, _, rfl, rfl, v3', fun hy => ?_⟩
  · rw [ok.fMu_eq]; field_simp
  · have hl := flowResidual_lower hf hτ hn hrate hy v3'
    have hpos : 0 ≤ m.eMu * (mkTrial (svd q.F).hencky).norm - m.fMu * r.1 := by linarith
    rw [abs_of_nonneg hpos]
    refine ⟨rfl, ?_, hl⟩
    have : 0 ≤ m.fMu * r.1 := by positivity
    linarith

/-- **C51** Viscous Drucker-Prager, exponent not one. -/
theorem C51_druckerPrager {cabs} {svd : Matrix (Fin d) (Fin d) ℝ → Svd d} {m : Material} (ok : MatOk m d)
    (hm : m.plastic = .dpVisc) (hnc : m.viscExponent ≠ 1) (hn : 0 ≤ m.viscExponent)
    (hM : 0 < m.M) (hτ : 0 ≤ m.viscTime) {dt : ℝ} (hdt : 0 < dt) (q : Particle d ℝ) (exit : Bool)
    (hs : IsSvd q.F (svd q.F)) {P Q S Y : ℝ} (hPd : P = trialP m (svd q.F)) (hQd : Q = trialQ m (svd q.F))
    (hSd : S = pressureShift m d q) (hYd : Y = m.M * (P + S) + m.qCohesion)
    (htip : -m.qCohesion / m.M < P + S) (hplast : Y < Q) {out : PState d}
    (h : plasticity cabs svd m dt q exit = some out) (hok : out.exit = false) :
    exit = false ∧ 0 ≤ out.q.deltaGamma ∧ newP out = P ∧
      out.q.epsPlDev = q.epsPlDev + m.fMu * (out.q.deltaGamma * dt) / m.eMu ∧
      ∃ qn, qn = Q - m.fMu * (out.q.deltaGamma * dt) ∧ newQ m out = |qn| ∧
        |flowResidual m Y qn out.q.deltaGamma| < 1e-2 ∧
        (1e-2 ≤ Y → newQ m out = qn ∧ newQ m out ≤ Q ∧ Y - 1e-2 < newQ m out) := by
  obtain ⟨hP, hQ⟩ := trial_eq ok hs
  have he := ok.eMu_pos
  have hf := ok.fMu_pos
  have hU := hs.orthU
  rw [← hPd] at hP
  rw [← hQd] at hQ
  have hS' : (if m.usePradhana = true then -m.K d * q.epsPlVolPradhana else 0) = S := hSd.symm
  have hY0 : 0 < Y := by
    have h1 := mul_lt_mul_of_pos_left htip hM
    have h2 : m.M * (-m.qCohesion / m.M) = -m.qCohesion := by field_simp
    rw [hYd]; linarith
  obtain ⟨st, hst, hout⟩ := plasticity_some.mp h
  simp only [plastModel, hm, plastDPVisc, ite_muI, hS', ← hP, ← hQ, ← hYd, if_neg (not_lt.mpr htip.le)] at hst
  rw [if_pos ⟨htip, hplast⟩] at hst
  simp only [decide_eq_false hnc, Option.bind_eq_bind, Option.bind_eq_some_iff, Option.some.injEq] at hst
  obtain ⟨r, hr, rfl⟩ := hst
  have hr2 : r.2 = false := by rw [hout] at hok; exact hok
  obtain ⟨v1, v2, v3⟩ := viscIncrement_newton hf hτ hn hdt hplast.le _ _ hr hr2
  have hnp : 0 < (mkTrial (svd q.F).hencky).norm := norm_pos_of ok hY0.le (by rw [← hQ]; exact hplast)
  obtain ⟨sp, sq⟩ := saved_visc_abs ok hU (t := mkTrial (svd q.F).hencky) (svd q.F).hencky rfl (g := r.1) hnp
  have hg : r.1 / dt * dt = r.1 := by field_simp
  have e1 : newP out = P := by
    rw [hout, newP, newTau_hencky ok.hel]; exact sp.trans hP.symm
  have e2 : newQ m out = |Q - m.fMu * r.1| := by
    rw [hout, newQ, newTau_hencky ok.hel, hQ]; exact sq
  have e3 : out.q.deltaGamma = r.1 / dt := by rw [hout]
  have e4 : out.q.epsPlDev = q.epsPlDev + 1 / m.dPre * r.1 := by rw [hout]
  rw [e1, e2, e3, e4, hg]
  have hrate : 0 ≤ r.1 / dt := by positivity
  refine ⟨v1, hrate, rfl, ?_, _, rfl, rfl, v3, fun hy => ?_⟩
  · rw [ok.fMu_eq]; field_simp
  · have hl := flowResidual_lower hf hτ hn hrate hy v3
    have hpos : 0 ≤ Q - m.fMu * r.1 := by linarith
    rw [abs_of_nonneg hpos]
    refine ⟨rfl, ?_, hl⟩
    have : 0 ≤ m.fMu * r.1 := by positivity
    linarith

lemma bind_total {α β : Type} {x : Option α} (h : ∃ r, x = some r) (f : α → β) :
    ∃ st, (x >>= fun r => some (f r)) = some st := by
  obtain ⟨r, rfl⟩ := h
  exact ⟨_, rfl⟩

/-- **C51** For an exponent of at least one the update of both models is defined for every state (no
division by zero, no invalid power), whatever the iterates are. -/
theorem C51_defined {cabs} {svd : Matrix (Fin d) (Fin d) ℝ → Svd d} {m : Material} (ok : MatOk m d)
    (hm : m.plastic = .vmVisc ∨ m.plastic = .dpVisc) (hn : 1 ≤ m.viscExponent)
    (hτ : 0 ≤ m.viscTime) {dt : ℝ} (hdt : 0 < dt) (q : Particle d ℝ) (exit : Bool) :
    ∃ out, plasticity cabs svd m dt q exit = some out := by
  suffices h : ∃ st, plastModel cabs m dt (svd q.F) (mkTrial (svd q.F).hencky)
      ⟨q, (svd q.F).hencky, 0, exit⟩ = some st by
    obtain ⟨st, hst⟩ := h
    exact ⟨_, plasticity_some.mpr ⟨st, hst, rfl⟩⟩
  have hf := ok.fMu_pos
  rcases hm with hm | hm
  · simp only [plastModel, hm, plastVMVisc]
    split_ifs
    all_goals first
      | exact ⟨_, rfl⟩
      | exact bind_total (viscIncrement_total hf hτ hn hdt _ (le_of_lt ‹_›) _ _ _) _
  · simp only [plastModel, hm, plastDPVisc]
    split_ifs
    all_goals first
      | exact ⟨_, rfl⟩
      | exact bind_total (viscIncrement_total hf hτ hn hdt _ (le_of_lt (And.right ‹_›)) _ _ _) _

lemma newtonLoop_first {resid diff : ℝ → Option ℝ} {n : ℕ} {dg v : ℝ} (exit : Bool) (h : resid dg = some v)
    (hv : |v| < 1e-2) : newtonLoop resid diff (n + 2) dg exit = some (dg, exit) := by
  rw [newtonLoop, h]
  simp only [Option.bind_eq_bind, Option.bind_some, if_pos hv]
  simp

/-- Exponent two, shear stress 51/200, yield stress 1/4: the first guess is within the tolerance. -/
example : ∃ out, plasticity abs (Ex.svd (51 / 200) 0) { Ex.mat .vmVisc with viscExponent := 2 } 1
      (Ex.part (51 / 200) 0) false = some out ∧ out.exit = false ∧
      |flowResidual { Ex.mat .vmVisc with viscExponent := 2 } (1 / 4)
        (newQ { Ex.mat .vmVisc with viscExponent := 2 } out) out.q.deltaGamma| < 1e-2 := by
  set m : Material := { Ex.mat .vmVisc with viscExponent := 2 } with hm
  have ok : MatOk m 2 := ⟨(Ex.mat_ok .vmVisc).hd, (Ex.mat_ok .vmVisc).hK, (Ex.mat_ok .vmVisc).hmu,
    (Ex.mat_ok .vmVisc).hq, rfl⟩
  have hs := Ex.isSvd (51 / 200) 0
  obtain ⟨e1, e2⟩ := ex_trial .vmVisc (a := 51 / 200) (b := 0) (by norm_num) (by norm_num) _ hs
  change trialP m _ = _ at e1
  change trialQ m _ = _ at e2
  rw [abs_of_pos (by norm_num), sub_zero] at e2
  obtain ⟨t1, t2⟩ := trial_eq ok hs
  have hxi : m.xi = 0 := rfl
  have hy : ∀ e, vmYield m e = 1 / 4 := by intro e; rw [vmYield, hxi]; norm_num [hm, Ex.mat]
  have hcap : m.pMin * Real.exp (-m.xi * (Ex.part (51 / 200) 0).epsPlVol) ≤
      trialP m (Ex.svd (51 / 200) 0 (Ex.part (51 / 200) 0).F) := by rw [e1, hxi]; norm_num [hm, Ex.mat]
  have hpl : vmYield m (Ex.part (51 / 200) 0).epsPlDev <
      trialQ m (Ex.svd (51 / 200) 0 (Ex.part (51 / 200) 0).F) := by rw [e2, hy]; norm_num
  have hf : m.fMu = 1 := Ex.mat_fMu .vmVisc
  have hinc : ∀ qyd, viscIncrement m 1 false (51 / 200) (1 / 4) (fun _ => 1 / 4) qyd false =
      some (0.01 * (51 / 200 - 1 / 4) / 1, false) := by
    intro qyd
    unfold viscIncrement
    rw [if_neg (by simp), if_neg (show ¬ m.useDuvautLions = true by simp [hm, Ex.mat]), hf]
    refine newtonLoop_first (n := 58) false (residPerzyna_eq one_pos ?_) ?_
    · norm_num [hm, Ex.mat]
    · rw [hf, show m.viscTime = 1 from rfl, show m.viscExponent = 2 from rfl, Real.rpow_two]
      norm_num [abs_lt]
  have hrun : ∃ out, plasticity abs (Ex.svd (51 / 200) 0) m 1 (Ex.part (51 / 200) 0) false = some out ∧
      out.exit = false := by
    refine ⟨_, plasticity_some.mpr ⟨sheared m 1 (Ex.svd (51 / 200) 0 (Ex.part (51 / 200) 0).F)
      (mkTrial (Ex.svd (51 / 200) 0 (Ex.part (51 / 200) 0).F).hencky)
      ⟨(Ex.part (51 / 200) 0), (Ex.svd (51 / 200) 0 (Ex.part (51 / 200) 0).F).hencky, 0, false⟩ (0.01 * (51 / 200 - 1 / 4) / 1) false, ?_, rfl⟩, rfl⟩
    rw [t1] at hcap
    rw [t2] at hpl
    simp only [plastModel, show m.plastic = .vmVisc from rfl, plastVMVisc, if_neg (not_lt.mpr hcap)]
    rw [if_pos (show _ > m.qMin + (m.qMax - m.qMin) * Real.exp (-m.xi * _) from hpl), ← t2, e2]
    have hy' : ∀ e, m.qMin + (m.qMax - m.qMin) * Real.exp (-m.xi * e) = 1 / 4 := hy
    simp only [hy']
    rw [decide_eq_false (by simp [hm]), hinc]
    rfl
  obtain ⟨out, h1, h2⟩ := hrun
  refine ⟨out, h1, h2, ?_⟩
  obtain ⟨-, -, -, -, qn, -, -, h3, h4⟩ := C51_vonMises ok rfl (by simp [hm]) (by norm_num [hm])
    (by norm_num [hm, Ex.mat]) one_pos _ _ hs hcap (by rw [hy]; norm_num) hpl h1 h2
  rw [hy] at h3 h4
  rw [(h4 (by norm_num)).1]
  exact h3

end Verif.Props
