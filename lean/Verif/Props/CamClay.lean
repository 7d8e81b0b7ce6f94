import Verif.Lemmas.CamClay
import Verif.Props.Viscous

set_option linter.unusedSectionVars false
set_option linter.unusedSimpArgs false
set_option linter.unusedVariables false

/-!
# C40, C41, C52: Cam-Clay return mappings

`OnEllipse`, `OutsideEllipse`, `AtEnd` (Verif/Lemmas/CamClay.lean) describe the yield ellipse.
A result `none` of a mapping stands for an undefined floating point operation (division by zero, root of a
negative number); the theorems assume that none occurs. For the explicit mapping this is proved
(`C40_explicit_defined`).
-/

namespace Verif.Props
open Verif Matrix

variable {d : ℕ}

/-! ### The mappings -/

/-- **C40**, explicit mapping. -/
theorem C40_explicit {cabs : ℝ → ℝ} {p q M pc beta K f : ℝ} {exit : Bool} (hM : 0 ≤ M) (hb : 0 ≤ beta)
    (hpc : 0 < pc) {r : Rma} (h : mccRmaExplicit cabs p q exit M pc beta K f = some r) :
    (r.did = false ∧ ¬ OutsideEllipse M pc beta p q ∧ r.p = p ∧ r.q = q ∧ r.exit = exit) ∨
    (r.did = true ∧ OutsideEllipse M pc beta p q ∧ OnEllipse M pc beta r.p r.q ∧ r.exit = exit) := by
  unfold mccRmaExplicit at h
  simp only at h
  have hbp : 0 ≤ beta * pc := by positivity
  split_ifs at h with hy
  · right
    simp only [Option.bind_eq_bind, Option.bind_eq_some_iff] at h
    obtain ⟨a, -, s, hs, h⟩ := h
    obtain ⟨w, hw, h1, -⟩ := rmaFinish_spec hM (pc := pc) (beta := beta) (by linarith) a.1
    rw [hw] at hs
    simp only [Option.some.injEq] at hs h
    subst hs; subst h
    exact ⟨rfl, hy, h1, rfl⟩
  · left
    simp only [Option.some.injEq] at h
    subst h
    exact ⟨rfl, hy, rfl, rfl, rfl⟩

/-- **C40** The explicit mapping always produces a result, whatever the Newton iterates. -/
theorem C40_explicit_defined {cabs : ℝ → ℝ} (hc : cabs 0 = 0) {M pc beta : ℝ} (hM : 0 ≤ M) (hb : 0 ≤ beta)
    (hpc : 0 < pc) (p q K f : ℝ) (exit : Bool) : ∃ r, mccRmaExplicit cabs p q exit M pc beta K f = some r := by
  unfold mccRmaExplicit
  have hbp : 0 ≤ beta * pc := by positivity
  simp only
  split_ifs with hy
  · obtain ⟨a, ha⟩ := explicitLoop_total hc hpc.ne' M beta K f p q 40 0 p q 0
    obtain ⟨w, hw, -⟩ := rmaFinish_spec hM (pc := pc) (beta := beta) (by linarith) a.1
    rw [ha, Option.bind_eq_bind, Option.bind_some, hw]
    exact ⟨_, rfl⟩
  · exact ⟨_, rfl⟩

/-- The hypotheses are met by a state outside the ellipse of the unit pressure. -/
example : ∃ r, mccRmaExplicit abs 0 2 false 1 1 (1 / 2) 1 1 = some r ∧ r.did = true ∧
    OnEllipse 1 1 (1 / 2) r.p r.q := by
  obtain ⟨r, hr⟩ := C40_explicit_defined (cabs := abs) abs_zero (M := 1) (pc := 1) (beta := 1 / 2) (by norm_num)
    (by norm_num) (by norm_num) 0 2 1 1 false
  rcases C40_explicit (by norm_num) (by norm_num) (by norm_num) hr with ⟨-, h, -⟩ | ⟨h, -, h', -⟩
  · exact absurd (by unfold OutsideEllipse; norm_num) h
  · exact ⟨r, hr, h, h'⟩

/-- **C40**, one-variable explicit mapping (not called by the program). -/
theorem C40_explicitOnevar {p q M pc beta mu K : ℝ} {exit : Bool} (hM : 0 ≤ M) (hb : 0 ≤ beta)
    (hpc : 0 < pc) {r : Rma} (h : mccRmaExplicitOnevar p q exit M pc beta mu K = some r) :
    (r.did = false ∧ ¬ OutsideEllipse M pc beta p q ∧ r.p = p ∧ r.q = q ∧ r.exit = exit) ∨
    (r.did = true ∧ OutsideEllipse M pc beta p q ∧ OnEllipse M pc beta r.p r.q) := by
  unfold mccRmaExplicitOnevar at h
  simp only [one_mul] at h
  split_ifs at h with hy
  · left
    simp only [Option.some.injEq] at h
    subst h
    exact ⟨rfl, not_lt.mpr hy, rfl, rfl, rfl⟩
  · right
    simp only [Option.bind_eq_bind, Option.bind_eq_some_iff] at h
    obtain ⟨sc, -, a, -, s, hs, h⟩ := h
    obtain ⟨w, hw, h1, -⟩ := rmaFinish_spec hM (pc := 1) (beta := beta) (by linarith) a.1
    rw [hw] at hs
    simp only [Option.some.injEq] at hs h
    subst hs; subst h
    exact ⟨rfl, not_le.mp hy, by simpa using h1.scale hpc.le⟩

/-- **C40**, three-variable implicit mapping (not called by the program): the ellipse is the one of the last
iteration, whose pressure is positive. -/
theorem C40_implicitThree {cabs : ℝ → ℝ} {p q M p00 beta K xi f epv : ℝ} {exit : Bool} (hM : 0 ≤ M)
    (hb : 0 ≤ beta) (hpc : 0 < p00) {r : Rma}
    (h : mccRmaImplicitExponential cabs p q exit M p00 beta K xi f epv = some r) :
    (r.did = false ∧ ¬ OutsideEllipse M (max 1e-2 (p00 * Real.exp (-xi * epv))) beta p q ∧ r.p = p ∧ r.q = q ∧
      r.exit = exit) ∨
    (r.did = true ∧ OutsideEllipse M (max 1e-2 (p00 * Real.exp (-xi * epv))) beta p q ∧
      (∃ pc, 0 < pc ∧ OnEllipse M pc beta r.p r.q) ∧ r.exit = exit) := by
  unfold mccRmaImplicitExponential at h
  simp only at h
  split_ifs at h with hy
  · right
    simp only [Option.bind_eq_bind, Option.bind_eq_some_iff] at h
    obtain ⟨a, ha, s, hs, h⟩ := h
    have hpos : 0 < a.2 := implicitExpLoop_pos hpc ha (lt_of_lt_of_le (by norm_num) (le_max_left _ _))
    have hbp : 0 ≤ beta * a.2 := by positivity
    obtain ⟨w, hw, h1, -⟩ := rmaFinish_spec hM (pc := a.2) (beta := beta) (by linarith) a.1
    rw [hw] at hs
    simp only [Option.some.injEq] at hs h
    subst hs; subst h
    exact ⟨rfl, hy, ⟨_, hpos, h1⟩, rfl⟩
  · left
    simp only [Option.some.injEq] at h
    subst h
    exact ⟨rfl, hy, rfl, rfl, rfl⟩

/-- **C40**, **C41**, implicit mapping with the exponential law: the ellipse reached belongs to the
hardening law at the new plastic volumetric strain, or the state is an end point of an ellipse. -/
theorem C40_implicitExponential {cabs : ℝ → ℝ} {p q M p00 beta mu K xi epv : ℝ} {exit : Bool} (hM : 0 ≤ M)
    (hb : 0 ≤ beta) (hp : 0 < p00) (hK : 0 < K) {r : Rma}
    (h : mccRmaImplicitExponentialOnevar cabs p q exit M p00 beta mu K xi epv = some r) :
    (r.did = false ∧ ¬ OutsideEllipse M (p00 * Real.exp (-xi * epv)) beta p q ∧ r.p = p ∧ r.q = q ∧
      r.exit = exit) ∨
    (r.did = true ∧ OutsideEllipse M (p00 * Real.exp (-xi * epv)) beta p q ∧
      ∃ pc, 0 < pc ∧ OnEllipse M pc beta r.p r.q ∧
        (pc = p00 * Real.exp (-xi * (epv + (r.p - p) / K)) ∨ AtEnd pc beta r.p r.q)) := by
  unfold mccRmaImplicitExponentialOnevar at h
  simp only at h
  set p0T := p00 * Real.exp (-xi * epv) with hp0T
  have hT : 0 < p0T := by positivity
  have hout : OutsideEllipse M p0T beta p q ↔
      ¬ (M * M * (p * p + (beta - 1) * p0T * p - beta * p0T * p0T) + 1 * q * q ≤ 0) := by
    unfold OutsideEllipse
    rw [not_le, show M * M * (p * p + (beta - 1) * p0T * p - beta * p0T * p0T) + 1 * q * q =
      M * M * (p - p0T) * (p + beta * p0T) + q * q by ring]
  split_ifs at h with hy
  · left
    simp only [Option.some.injEq] at h
    subst h
    exact ⟨rfl, fun hc => hout.mp hc hy, rfl, rfl, rfl⟩
  · right
    rw [fdiv_of_ne hT.ne'] at h
    simp only [Option.bind_eq_bind, Option.bind_some, Option.bind_eq_some_iff] at h
    obtain ⟨s, hs, h⟩ := h
    have hsc : 0 < 1 / p0T := by positivity
    have hinv := implicitLoop_inv (mul_ne_zero hK.ne' hsc.ne') hs (by
      rw [sub_self, zero_div, add_zero, hp0T]; field_simp)
    have hpos : 0 < s.2.2.1 := by rw [hinv]; positivity
    obtain ⟨h1, -, h3, h4⟩ := implicitFinish_spec hM hb hT hpos h
    refine ⟨h1, hout.mpr hy, s.2.2.1 * p0T, by positivity, h3, ?_⟩
    rcases h4 with h4 | h4
    · left
      rw [hinv, h4]
      have e1 : (s.2.1 - p * (1 / p0T)) / (K * (1 / p0T)) = (s.2.1 * p0T - p) / K := by field_simp
      rw [e1]; field_simp
    · exact Or.inr h4

/-- Scaling of the sinh law. -/
lemma sinhLaw_scale {K p00 xi p0min e s : ℝ} (hs : 0 < s) :
    sinhLaw (K * s) (p00 * s) xi (p0min * s) e = sinhLaw K p00 xi p0min e * s := by
  unfold sinhLaw
  rw [mul_div_mul_right _ _ hs.ne', max_mul_of_nonneg _ _ hs.le]
  congr 1; ring

/-- **C40**, **C41**, implicit mapping with the sinh law. -/
theorem C40_implicitSinh {p q M p00 beta mu K xi epv : ℝ} {exit : Bool} (hM : 0 ≤ M)
    (hb : 0 ≤ beta) (hK : 0 < K) {r : Rma}
    (h : mccRmaImplicitSinhOnevar p q exit M p00 beta mu K xi epv = some r) :
    (r.did = false ∧
      ¬ OutsideEllipse M (max 0.01 (K * Real.sinh (-xi * epv + Real.arsinh (p00 / K)))) beta p q ∧
      r.p = p ∧ r.q = q ∧ r.exit = exit) ∨
    (r.did = true ∧
      OutsideEllipse M (max 0.01 (K * Real.sinh (-xi * epv + Real.arsinh (p00 / K)))) beta p q ∧
      ∃ pc, 0 < pc ∧ OnEllipse M pc beta r.p r.q ∧
        (pc = max 0.01 (K * Real.sinh (-xi * (epv + (r.p - p) / K) + Real.arsinh (p00 / K))) ∨
          AtEnd pc beta r.p r.q)) := by
  unfold mccRmaImplicitSinhOnevar at h
  rw [fdiv_of_ne hK.ne'] at h
  simp only [Option.bind_eq_bind, Option.bind_some] at h
  set p0T := max 0.01 (K * Real.sinh (-xi * epv + Real.arsinh (p00 / K))) with hp0T
  have hT : 0 < p0T := lt_of_lt_of_le (by norm_num) (le_max_left _ _)
  have hout : OutsideEllipse M p0T beta p q ↔
      ¬ (M * M * (p * p + (beta - 1) * p0T * p - beta * p0T * p0T) + 1 * q * q ≤ 0) := by
    unfold OutsideEllipse
    rw [not_le, show M * M * (p * p + (beta - 1) * p0T * p - beta * p0T * p0T) + 1 * q * q =
      M * M * (p - p0T) * (p + beta * p0T) + q * q by ring]
  split_ifs at h with hy
  · left
    simp only [Option.some.injEq] at h
    subst h
    exact ⟨rfl, fun hc => hout.mp hc hy, rfl, rfl, rfl⟩
  · right
    rw [fdiv_of_ne hT.ne'] at h
    simp only [Option.bind_eq_bind, Option.bind_some, Option.bind_eq_some_iff] at h
    obtain ⟨s, hs, h⟩ := h
    have hsc : 0 < 1 / p0T := by positivity
    have hinv := implicitLoop_inv (mul_ne_zero hK.ne' hsc.ne') hs (by
      rw [sub_self, zero_div, add_zero, sinhLaw_scale hsc]
      show 1 = p0T * (1 / p0T)
      field_simp)
    rw [sinhLaw_scale hsc] at hinv
    have hpos' : ∀ e, 0 < sinhLaw K p00 xi 0.01 e := fun e => lt_of_lt_of_le (by norm_num) (le_max_left _ _)
    have hpos : 0 < s.2.2.1 := by rw [hinv]; exact mul_pos (hpos' _) hsc
    obtain ⟨h1, -, h3, h4⟩ := implicitFinish_spec hM hb hT hpos h
    refine ⟨h1, hout.mpr hy, s.2.2.1 * p0T, by positivity, h3, ?_⟩
    rcases h4 with h4 | h4
    · left
      rw [hinv, h4]
      have e1 : (s.2.1 - p * (1 / p0T)) / (K * (1 / p0T)) = (s.2.1 * p0T - p) / K := by field_simp
      rw [e1, mul_assoc, one_div_mul_cancel hT.ne', mul_one]
      rfl
    · exact Or.inr h4

/-! ### End to end -/

/-- Preconsolidation pressure as a function of the plastic volumetric strain. -/
noncomputable def hardeningPc (m : Material) (d : ℕ) (eps : ℝ) : ℝ :=
  match m.hardening with
  | .noHard => m.p0
  | .expoExpl => max m.stressTol (m.p0 * Real.exp (-m.xi * eps))
  | .sinhExpl => max m.stressTol (m.K d * Real.sinh (-m.xi * eps + Real.arsinh (m.p0 / m.K d)))
  | .expoImpl => m.p0 * Real.exp (-m.xi * eps)
  | .sinhImpl => max 0.01 (m.K d * Real.sinh (-m.xi * eps + Real.arsinh (m.p0 / m.K d)))

/-- Is the hardening law treated implicitly? -/
def isImplicit : HardeningLaw → Bool
  | .expoImpl => true
  | .sinhImpl => true
  | _ => false

/-- `(p, q)` is a legitimate result of the Cam-Clay correction of `(pT, qT)`: outside the old ellipse before,
on the ellipse `pc` afterwards, where `pc` obeys the hardening law (implicit laws: at the new plastic
volumetric strain, unless the pressure was clipped to an end of the ellipse). -/
def Returned (m : Material) (d : ℕ) (slope eps pT qT p q : ℝ) : Prop :=
  OutsideEllipse slope (hardeningPc m d eps) m.beta pT qT ∧
  ∃ pc, 0 < pc ∧ OnEllipse slope pc m.beta p q ∧
    (isImplicit m.hardening = false ∧ pc = hardeningPc m d eps ∨
     isImplicit m.hardening = true ∧ pc = hardeningPc m d (eps + (p - pT) / m.K d) ∨
     isImplicit m.hardening = true ∧ AtEnd pc m.beta p q)

/-- Parameters of the Cam-Clay models. -/
structure CamOk (m : Material) : Prop where
  beta : 0 ≤ m.beta
  p0 : 0 < m.p0
  tol : 0 < m.stressTol

lemma mccReturn_spec {cabs : ℝ → ℝ} {m : Material} (cam : CamOk m) (hK : 0 < m.K d) {allow : Bool}
    {slope eps p q : ℝ} (hM : 0 ≤ slope) {exit : Bool} {pc? : Option ℝ} {r : Rma}
    (h : mccReturn cabs m d allow slope eps p q exit = some (pc?, r)) :
    (r.did = false ∧ ¬ OutsideEllipse slope (hardeningPc m d eps) m.beta p q ∧ r.p = p ∧ r.q = q ∧
      r.exit = exit) ∨ (r.did = true ∧ Returned m d slope eps p q r.p r.q) := by
  unfold mccReturn at h
  unfold Returned hardeningPc
  cases hh : m.hardening <;> simp only [hh, Option.bind_eq_bind] at h ⊢
  · split_ifs at h
    · simp only [Option.bind_eq_some_iff, Option.some.injEq, Prod.mk.injEq] at h
      obtain ⟨w, hw, -, rfl⟩ := h
      rcases C40_explicit hM cam.beta cam.p0 hw with h | ⟨h1, h2, h3, -⟩
      · exact Or.inl h
      · exact Or.inr ⟨h1, h2, _, cam.p0, h3, Or.inl ⟨rfl, rfl⟩⟩
  · simp only [Option.bind_eq_some_iff, Option.some.injEq, Prod.mk.injEq] at h
    obtain ⟨w, hw, -, rfl⟩ := h
    have hpc : 0 < max m.stressTol (m.expLaw eps) := lt_of_lt_of_le cam.tol (le_max_left _ _)
    rcases C40_explicit hM cam.beta hpc hw with h | ⟨h1, h2, h3, -⟩
    · exact Or.inl h
    · exact Or.inr ⟨h1, h2, _, hpc, h3, Or.inl ⟨rfl, rfl⟩⟩
  · simp only [Option.bind_eq_some_iff, Option.some.injEq, Prod.mk.injEq] at h
    obtain ⟨w, hw, -, rfl⟩ := h
    have hpc : 0 < max m.stressTol (m.sinhLaw d eps) := lt_of_lt_of_le cam.tol (le_max_left _ _)
    rcases C40_explicit hM cam.beta hpc hw with h | ⟨h1, h2, h3, -⟩
    · exact Or.inl h
    · exact Or.inr ⟨h1, h2, _, hpc, h3, Or.inl ⟨rfl, rfl⟩⟩
  · simp only [Option.bind_eq_some_iff, Option.some.injEq, Prod.mk.injEq] at h
    obtain ⟨w, hw, -, rfl⟩ := h
    rcases C40_implicitExponential hM cam.beta cam.p0 hK hw with h | ⟨h1, h2, pc, h3, h4, h5⟩
    · exact Or.inl h
    · refine Or.inr ⟨h1, h2, pc, h3, h4, Or.inr ?_⟩
      rcases h5 with h5 | h5
      · exact Or.inl ⟨rfl, h5⟩
      · exact Or.inr ⟨rfl, h5⟩
  · simp only [Option.bind_eq_some_iff, Option.some.injEq, Prod.mk.injEq] at h
    obtain ⟨w, hw, -, rfl⟩ := h
    rcases C40_implicitSinh hM cam.beta hK hw with h | ⟨h1, h2, pc, h3, h4, h5⟩
    · exact Or.inl h
    · refine Or.inr ⟨h1, h2, pc, h3, h4, Or.inr ?_⟩
      rcases h5 with h5 | h5
      · exact Or.inl ⟨rfl, h5⟩
      · exact Or.inr ⟨rfl, h5⟩

/-! ### Whole update -/

lemma saved_dev {m : Material} (ok : MatOk m d) {U : Matrix (Fin d) (Fin d) ℝ} (hU : U * Uᵀ = 1)
    (h : Fin d → ℝ) {a p : ℝ} (ha : 0 ≤ a) {h' : Fin d → ℝ}
    (hh : ∀ i, h' i = a / m.eMu * (mkTrial h).dir i + -p / (m.K d * d)) :
    savedP (henckyTau m.lam m.mu U h') = p ∧ savedQ m.qPrefac (henckyTau m.lam m.mu U h') ≤ a ∧
      (0 < (mkTrial h).norm → savedQ m.qPrefac (henckyTau m.lam m.mu U h') = a) ∧
      ((mkTrial h).norm = 0 → savedQ m.qPrefac (henckyTau m.lam m.mu U h') = 0) := by
  have he := ok.eMu_pos
  have hK := ok.hK.ne'
  have hdn := ok.dne
  obtain ⟨h1, h2⟩ := saved_ab ok hU h _ _ hh
  have hnn : 0 ≤ a / m.eMu := by positivity
  refine ⟨?_, ?_, ?_, ?_⟩
  · rw [h1]; field_simp
  · rw [h2]
    calc m.eMu * (|a / m.eMu| * vnorm (mkTrial h).dir) ≤ m.eMu * |a / m.eMu| :=
          mul_le_mul_of_nonneg_left (saved_dir_le h _) he.le
      _ = a := by rw [abs_of_nonneg hnn]; field_simp
  · intro hp
    rw [h2, saved_dir_pos hp, abs_of_nonneg hnn]; field_simp
  · intro hp
    rw [h2, mkTrial_dir_zero hp, show vnorm (0 : Fin d → ℝ) = 0 by simp [vnorm]]; simp

/-- Elastic strain after a Cam-Clay correction by the factor `b` towards `(p, qs)`. -/
noncomputable def mccHencky (m : Material) (t : Trial d) (b p qs : ℝ) : Fin d → ℝ := fun i =>
  (m.eMu * t.norm / m.eMu - b * (m.eMu * t.norm - qs) / m.eMu) * t.dir i +
    (-(-m.K d * t.trace) / m.K d - -b * (-m.K d * t.trace - p) / m.K d) / d

/-- State after a Cam-Clay correction. -/
noncomputable def mccDone (m : Material) (dt : ℝ) (s : Svd d) (t : Trial d) (st : PState d)
    (b p qs muI : ℝ) (e : Bool) : PState d :=
  { count := st.count + 1
    exit := e
    hencky := mccHencky m t b p qs
    q := { st.q with
      epsPlVol := st.q.epsPlVol + -b * (-m.K d * t.trace - p) / m.K d
      epsPlDev := st.q.epsPlDev + b * (m.eMu * t.norm - qs) / m.eMu
      deltaGamma := m.dPre * (b * (m.eMu * t.norm - qs) / m.eMu) / dt
      F := s.expF (mccHencky m t b p qs)
      muI := muI } }

lemma plastMCC_shape {cabs : ℝ → ℝ} {m : Material} {dt : ℝ} {s : Svd d} {t : Trial d} {st out : PState d}
    (h : plastMCC cabs m dt s t st = some out) :
    ∃ pc? r, mccReturn cabs m d true m.M st.q.epsPlVol (-m.K d * t.trace) (m.eMu * t.norm) st.exit =
        some (pc?, r) ∧
      (r.did = false ∧ (∃ muI, out = { st with exit := r.exit, q := { st.q with muI := muI } }) ∨
       r.did = true ∧ ∃ b qs e muI,
        (if m.plastic = .mccVisc then mccViscous m dt (m.eMu * t.norm) r.q r.exit else some (1, r.q, r.exit)) =
          some (b, qs, e) ∧ out = mccDone m dt s t st b r.p qs muI e) := by
  unfold plastMCC at h
  simp only [Option.bind_eq_bind, Option.bind_eq_some_iff] at h
  obtain ⟨⟨pc?, r⟩, hr, h⟩ := h
  refine ⟨pc?, r, ?_, ?_⟩
  · split_ifs at hr <;> exact hr
  simp only at h
  cases hd : r.did with
  | false =>
    left
    simp only [hd, Bool.false_eq_true, if_false, Option.some.injEq] at h
    refine ⟨rfl, ?_⟩
    split_ifs at h
    · exact ⟨_, h.symm⟩
    · exact ⟨st.q.muI, h.symm⟩
  | true =>
    right
    refine ⟨rfl, ?_⟩
    by_cases hv : m.plastic = .mccVisc <;> by_cases hmi : m.useMibf = true <;>
      simp only [hd, hv, hmi, if_true, if_false, reduceCtorEq, Bool.false_eq_true, Option.bind_some,
        Option.bind_eq_some_iff] at h ⊢
    · obtain ⟨⟨b, qs, e⟩, hv, muI, -, h⟩ := h
      exact ⟨b, qs, e, muI, hv, (Option.some.inj h).symm⟩
    · obtain ⟨⟨b, qs, e⟩, hv, h⟩ := h
      exact ⟨b, qs, e, st.q.muI, hv, (Option.some.inj h).symm⟩
    · obtain ⟨muI, -, h⟩ := h
      exact ⟨1, r.q, r.exit, muI, rfl, (Option.some.inj h).symm⟩
    · exact ⟨1, r.q, r.exit, st.q.muI, rfl, (Option.some.inj h).symm⟩

lemma saved_mcc {m : Material} (ok : MatOk m d) {U : Matrix (Fin d) (Fin d) ℝ} (hU : U * Uᵀ = 1)
    (h : Fin d → ℝ) {a p : ℝ} (ha : 0 ≤ a) :
    savedP (henckyTau m.lam m.mu U (mccHencky m (mkTrial h) 1 p a)) = p ∧
      savedQ m.qPrefac (henckyTau m.lam m.mu U (mccHencky m (mkTrial h) 1 p a)) ≤ a ∧
      (0 < (mkTrial h).norm → savedQ m.qPrefac (henckyTau m.lam m.mu U (mccHencky m (mkTrial h) 1 p a)) = a) ∧
      ((mkTrial h).norm = 0 → savedQ m.qPrefac (henckyTau m.lam m.mu U (mccHencky m (mkTrial h) 1 p a)) = 0) := by
  apply saved_dev ok hU h ha
  intro i
  have h1 := ok.dne
  have h2 := ok.hK.ne'
  have h3 := ok.eMu_pos.ne'
  unfold mccHencky
  congr 1
  · congr 1; field_simp; ring
  · field_simp; ring

/-- Outcome of a Cam-Clay update that leaves the stress elastic. -/
def StayedElastic (m : Material) (q : Particle d ℝ) (s : Svd d) (out : PState d) : Prop :=
  out.q = { q with tau := elasticTau m s, muI := out.q.muI, viscosity := out.q.viscosity }

/-- **C40**, **C41** Modified Cam-Clay: either the trial stress is inside the yield ellipse and is kept, or
the new stress is on an ellipse obeying the hardening law; both plastic strains account for the stress
removed. The point `qy` of the ellipse is the new shear stress, except for a trial state without shear
stress, which stays without. -/
theorem C40_camClay {cabs} {svd : Matrix (Fin d) (Fin d) ℝ → Svd d} {m : Material} (ok : MatOk m d)
    (cam : CamOk m) (hm : m.plastic = .mcc) (hM : 0 ≤ m.M) (dt : ℝ) (q : Particle d ℝ) (exit : Bool)
    (hs : IsSvd q.F (svd q.F)) {out : PState d} (h : plasticity cabs svd m dt q exit = some out) :
    (¬ OutsideEllipse m.M (hardeningPc m d q.epsPlVol) m.beta (trialP m (svd q.F)) (trialQ m (svd q.F)) ∧
      StayedElastic m q (svd q.F) out ∧ out.exit = exit ∧ newP out = trialP m (svd q.F) ∧
      newQ m out = trialQ m (svd q.F)) ∨
    ∃ qy, Returned m d m.M q.epsPlVol (trialP m (svd q.F)) (trialQ m (svd q.F)) (newP out) qy ∧
      (0 < trialQ m (svd q.F) → newQ m out = qy) ∧ (trialQ m (svd q.F) = 0 → newQ m out = 0) ∧
      newQ m out ≤ qy ∧
      out.q.epsPlVol = q.epsPlVol + (newP out - trialP m (svd q.F)) / m.K d ∧
      out.q.epsPlDev = q.epsPlDev + (trialQ m (svd q.F) - qy) / m.eMu ∧
      out.q.deltaGamma = m.dPre * ((trialQ m (svd q.F) - qy) / m.eMu) / dt ∧
      SameMotion q out.q := by
  obtain ⟨hP, hQ⟩ := trial_eq ok hs
  have he := ok.eMu_pos
  have hK := ok.hK
  obtain ⟨st, h1, rfl⟩ := plasticity_some.mp h
  simp only [plastModel, hm] at h1
  obtain ⟨pc?, r, hr, h1⟩ := plastMCC_shape h1
  rw [← hP, ← hQ] at hr
  simp only [newP, newQ, newTau_hencky ok.hel]
  rcases mccReturn_spec cam hK hM hr with ⟨d1, d2, d3, d4, d5⟩ | ⟨d1, d2⟩
  · left
    rcases h1 with ⟨-, muI, rfl⟩ | ⟨h1, -⟩
    swap
    · rw [d1] at h1; simp at h1
    refine ⟨d2, ?_, d5, ?_, ?_⟩
    · unfold StayedElastic
      simp only [elasticTau_eq hs]
    · exact (saved_trial' ok hs.orthU (t := mkTrial (svd q.F).hencky) _ rfl).1.trans hP.symm
    · exact (saved_trial' ok hs.orthU (t := mkTrial (svd q.F).hencky) _ rfl).2.trans hQ.symm
  · right
    rcases h1 with ⟨h1, -⟩ | ⟨-, b, qs, e, muI, hv, rfl⟩
    · rw [d1] at h1; simp at h1
    simp only [hm, reduceCtorEq, if_false, Option.some.injEq, Prod.mk.injEq] at hv
    obtain ⟨rfl, rfl, -⟩ := hv
    have hq0 : 0 ≤ r.q := by obtain ⟨-, pc, -, ⟨a, -⟩, -⟩ := d2; exact a
    obtain ⟨s1, s2, s3, s4⟩ := saved_mcc ok hs.orthU (svd q.F).hencky hq0 (p := r.p)
    have hnorm : 0 < trialQ m (svd q.F) ↔ 0 < (mkTrial (svd q.F).hencky).norm := by
      rw [hQ]; exact mul_pos_iff_of_pos_left he
    have hnorm0 : trialQ m (svd q.F) = 0 → (mkTrial (svd q.F).hencky).norm = 0 := by
      rw [hQ]; intro hz; exact (mul_eq_zero.mp hz).resolve_left he.ne'
    simp only [mccDone]
    refine ⟨r.q, ?_, ?_, ?_, ?_, ?_, ?_, ?_, ⟨rfl, rfl, rfl, rfl, rfl⟩⟩
    · rw [s1]; exact d2
    · intro hp; exact s3 (hnorm.mp hp)
    · intro hp; exact s4 (hnorm0 hp)
    · exact s2
    · rw [s1, hP]; ring
    · rw [hQ]; ring
    · rw [hQ]; ring

end Verif.Props
