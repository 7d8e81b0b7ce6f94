import Verif.Props.Run
import Verif.Props.Reproduce

set_option linter.unusedSectionVars false
set_option linter.unusedSimpArgs false
set_option linter.unusedVariables false

/-!
# C60, C61: a stress-free body in free fall or at rest, over a whole run
-/

namespace Verif.Props
open Verif Matrix
noncomputable section

/-! ### an unstrained particle stays unstrained -/

section rest
variable {d : ℕ}

/-- Not strained: the deformation gradient is a rotation. -/
def Unstrained (F : Matrix (Fin d) (Fin d) ℝ) : Prop := F * Fᵀ = 1 ∧ F.det = 1

lemma unstrained_sig {F : Matrix (Fin d) (Fin d) ℝ} {s : Svd d} (hs : IsSvd F s) (hF : F * Fᵀ = 1) (i : Fin d) :
    s.sig i = 1 := by
  have hU : s.Uᵀ * s.U = 1 := orth_comm hs.orthU
  have hV : s.Vᵀ * s.V = 1 := orth_comm hs.orthV
  have h1 : diagonal s.sig * diagonal s.sig = (1 : Matrix (Fin d) (Fin d) ℝ) := by
    have e : s.Uᵀ * (F * Fᵀ) * s.U = diagonal s.sig * diagonal s.sig := by
      rw [hs.eq]
      simp only [Matrix.transpose_mul, Matrix.transpose_transpose, Matrix.diagonal_transpose, Matrix.mul_assoc]
      rw [hU, Matrix.mul_one, ← Matrix.mul_assoc s.Uᵀ s.U, hU, Matrix.one_mul, ← Matrix.mul_assoc s.Vᵀ s.V, hV,
        Matrix.one_mul]
    rw [← e, hF, Matrix.mul_one, hU]
  have h2 := congrFun (congrFun h1 i) i
  simp only [Matrix.diagonal_mul_diagonal, Matrix.diagonal_apply_eq, Matrix.one_apply_eq] at h2
  nlinarith [hs.nonneg i]

lemma unstrained_hencky {F : Matrix (Fin d) (Fin d) ℝ} {s : Svd d} (hs : IsSvd F s) (hF : F * Fᵀ = 1) :
    s.hencky = 0 := by
  funext i
  rw [Svd.hencky, unstrained_sig hs hF i]
  norm_num

lemma unstrained_expF {F : Matrix (Fin d) (Fin d) ℝ} {s : Svd d} (hs : IsSvd F s) (hF : F * Fᵀ = 1) :
    s.expF 0 = F := by
  rw [← unstrained_hencky hs hF]
  exact expF_hencky hs fun i => by rw [unstrained_sig hs hF]; norm_num

lemma mkTrial_zero : (mkTrial (0 : Fin d → ℝ)).trace = 0 ∧ (mkTrial (0 : Fin d → ℝ)).norm = 0 := by
  constructor
  · simp [mkTrial]
  · simp [mkTrial, vnorm]

/-- Materials for which the stress-free state is admissible. With a cohesion between zero and 1e-10 the program moves
the stress of the Drucker-Prager model to the tip of the cone, hence the gap. The volume correction of `use_pradhana`
depends on the history of the particle, and is excluded where it matters. -/
def StressFreeOk (m : Material) (d : ℕ) : Prop :=
  m.plastic = .noPlasticity ∨ MatOk m d ∧ (m.plastic = .vm ∧ 0 ≤ m.qMax ∨
    m.plastic = .dp ∧ (m.qCohesion = 0 ∨ 1e-10 ≤ m.qCohesion) ∨
    m.plastic = .dpSoft ∧ 0 < m.M ∧ 0 ≤ m.qCohesion ∧ m.usePradhana = false ∨
    m.plastic = .vmVisc ∧ m.pMin ≤ 0 ∧ (0 ≤ m.qMin ∧ m.qMin ≤ m.qMax ∨ m.xi = 0 ∧ 0 ≤ m.qMax) ∨
    m.plastic = .dpVisc ∧ 0 < m.M ∧ 0 ≤ m.qCohesion ∧ m.usePradhana = false ∨
    m.plastic = .dpMui ∧ 0 < m.mu1 ∧ 0 ≤ m.qCohesion ∧ 0 ≤ m.stressTol ∧ m.usePradhana = false ∨
    (m.plastic = .mcc ∨ m.plastic = .mccVisc ∨ m.plastic = .mccMui) ∧ 0 ≤ m.beta)

/-- The stress-free state is inside of every Cam-Clay ellipse. -/
lemma mccReturn_zero {cabs : ℝ → ℝ} {m : Material} {allow : Bool} {slope eps : ℝ} {exit : Bool} {r : Option ℝ × Rma}
    (hb : 0 ≤ m.beta) (h : mccReturn cabs m d allow slope eps 0 0 exit = some r) : r.2.did = false := by
  have e1 : ∀ pc : ℝ, ¬ slope * slope * (0 - pc) * (0 + m.beta * pc) + 0 * 0 > 0 := by
    intro pc
    have := mul_nonneg (mul_self_nonneg slope) (mul_nonneg hb (mul_self_nonneg pc))
    nlinarith
  have e2 : ∀ pc : ℝ, slope * slope * (0 * 0 + (m.beta - 1) * pc * 0 - m.beta * pc * pc) + 1 * 0 * 0 ≤ 0 := by
    intro pc
    have := mul_nonneg (mul_self_nonneg slope) (mul_nonneg hb (mul_self_nonneg pc))
    nlinarith
  unfold mccReturn at h
  split at h
  · split_ifs at h
    simp only [mccRmaExplicit, if_neg (e1 _), Option.bind_eq_bind, Option.bind_some, Option.some.injEq] at h
    rw [← h]
  · simp only [mccRmaExplicit, if_neg (e1 _), Option.bind_eq_bind, Option.bind_some, Option.some.injEq] at h
    rw [← h]
  · simp only [mccRmaExplicit, if_neg (e1 _), Option.bind_eq_bind, Option.bind_some, Option.some.injEq] at h
    rw [← h]
  · simp only [mccRmaImplicitExponentialOnevar, if_pos (e2 _), Option.bind_eq_bind, Option.bind_some, Option.some.injEq] at h
    rw [← h]
  · simp only [mccRmaImplicitSinhOnevar, if_pos (e2 _), Option.bind_eq_bind, Option.bind_eq_some_iff] at h
    obtain ⟨x, ⟨_, -, hx⟩, h⟩ := h
    rw [← Option.some.inj h, ← Option.some.inj hx]

lemma unstrained_update {cabs} {svd : Matrix (Fin d) (Fin d) ℝ → Svd d} {m : Material} {dt : ℝ}
    {q : Particle d ℝ} {exit : Bool} {out : PState d} (hm : StressFreeOk m d) (hs : IsSvd q.F (svd q.F))
    (hF : Unstrained q.F) (h : plasticity cabs svd m dt q exit = some out) : out.q.F = q.F ∧ out.q.tau = 0 := by
  rcases hm with hm | ⟨ok, hm⟩
  · obtain ⟨out', h', e⟩ := C44_undeformed (cabs := cabs) (dt := dt) hm q exit hs hF.1 hF.2
    rw [h] at h'
    obtain rfl := Option.some.inj h'
    rw [e]; exact ⟨rfl, rfl⟩
  obtain ⟨st, h1, rfl⟩ := plasticity_some.mp h
  rw [unstrained_hencky hs hF.1] at h1
  obtain ⟨t1, t2⟩ := mkTrial_zero (d := d)
  have he := ok.eMu_pos
  suffices hst : st.q.F = q.F ∧ st.hencky = 0 by
    refine ⟨hst.1, ?_⟩
    show newTau m (svd q.F) st.hencky st.q.F = 0
    rw [newTau_hencky ok.hel, hst.2, henckyTau]
    simp
  rcases hm with ⟨hm, hq⟩ | ⟨hm, hc⟩ | ⟨hm, hM, hc, hpr⟩ | ⟨hm, hp, hq⟩ | ⟨hm, hM, hc, hpr⟩ | ⟨hm, hM, hc, htol, hpr⟩ |
    ⟨hm, hb⟩
  · simp only [plastModel, hm, Option.some.injEq] at h1
    rw [← h1, plastVM]
    simp only [t2]
    rw [if_neg (by have := div_nonneg hq he.le; linarith)]
    exact ⟨rfl, rfl⟩
  · simp only [plastModel, hm, Option.some.injEq] at h1
    rw [← h1, plastDP]
    simp only [t1, t2, mul_zero, zero_add, zero_sub]
    rcases hc with hc | hc
    · rw [if_pos (by rw [hc]; norm_num)]
      simp only [hc, neg_zero, zero_div]
      exact ⟨unstrained_expF hs hF.1, rfl⟩
    · have hc0 : 0 < m.qCohesion := lt_of_lt_of_le (by norm_num) hc
      rw [if_neg (not_lt.mpr hc)]
      have : ¬ m.dPre * -(m.qCohesion / m.eMu) > 0 := by
        have h1 := div_pos hc0 he
        have h2 := ok.dPre_pos
        nlinarith
      rw [if_neg this]
      exact ⟨rfl, rfl⟩
  · simp only [plastModel, hm, Option.some.injEq] at h1
    rw [← h1, plastDPSoft]
    simp only [t1, t2, mul_zero, hpr, Bool.false_eq_true, if_false, add_zero, zero_add]
    have hE := Real.exp_pos (-m.xi * q.epsPlDev)
    rcases hc.eq_or_lt with hc | hc
    · rw [if_pos (by simp [← hc])]
      simp only [← hc, neg_zero, zero_div, zero_mul]
      exact ⟨unstrained_expF hs hF.1, rfl⟩
    · have hneg : -m.qCohesion / m.M * Real.exp (-m.xi * q.epsPlDev) < 0 :=
        mul_neg_of_neg_of_pos (div_neg_of_neg_of_pos (by linarith) hM) hE
      rw [if_neg (not_le.mpr hneg), if_pos (by nlinarith)]
      exact ⟨rfl, rfl⟩
  · simp only [plastModel, hm, plastVMVisc, t1, t2, mul_zero] at h1
    have hE := Real.exp_pos (-m.xi * q.epsPlVol)
    have hE' := Real.exp_pos (-m.xi * q.epsPlDev)
    rw [if_neg (not_lt.mpr (mul_nonpos_of_nonpos_of_nonneg hp hE.le)), if_neg] at h1
    · rw [← Option.some.inj h1]
      exact ⟨rfl, rfl⟩
    · refine not_lt.mpr ?_
      rcases hq with ⟨h2, h3⟩ | ⟨h2, h3⟩
      · have := mul_nonneg (sub_nonneg.mpr h3) hE'.le
        linarith
      · rw [h2]; simpa using h3
  · simp only [plastModel, hm, plastDPVisc, t1, t2, mul_zero, hpr, Bool.false_eq_true, if_false, add_zero, zero_add] at h1
    have hneg : -m.qCohesion / m.M ≤ 0 := div_nonpos_of_nonpos_of_nonneg (by linarith) hM.le
    rw [if_neg (fun h => absurd h.2 (not_lt.mpr hc)), if_neg (not_lt.mpr hneg)] at h1
    rw [← Option.some.inj h1]
    constructor
    · show (ite _ _ _ : PState d).q.F = _
      split_ifs <;> rfl
    · show (ite _ _ _ : PState d).hencky = _
      split_ifs <;> rfl
  · simp only [plastModel, hm, plastDPMui, t1, t2, mul_zero, hpr, Bool.false_eq_true, if_false, add_zero, zero_add] at h1
    have hneg : -m.qCohesion / m.mu1 ≤ 0 := div_nonpos_of_nonpos_of_nonneg (by linarith) hM.le
    rw [if_neg (fun h => absurd h.2 (not_lt.mpr (by linarith))), if_neg (not_lt.mpr hneg)] at h1
    rw [← Option.some.inj h1]
    exact ⟨rfl, rfl⟩
  · rcases hm with hm | hm | hm
    · simp only [plastModel, hm, plastMCC, t1, t2, mul_zero, Option.bind_eq_bind, Option.bind_eq_some_iff] at h1
      obtain ⟨r, hr, h1⟩ := h1
      have h2 := mccReturn_zero hb hr
      simp only [h2, Bool.false_eq_true, if_false, Option.some.injEq] at h1
      rw [← h1]
      constructor
      · show (ite _ _ _ : PState d).q.F = _
        split_ifs <;> rfl
      · show (ite _ _ _ : PState d).hencky = _
        split_ifs <;> rfl
    · simp only [plastModel, hm, plastMCC, t1, t2, mul_zero, Option.bind_eq_bind, Option.bind_eq_some_iff] at h1
      obtain ⟨r, hr, h1⟩ := h1
      have h2 := mccReturn_zero hb hr
      simp only [h2, Bool.false_eq_true, if_false, Option.some.injEq] at h1
      rw [← h1]
      constructor
      · show (ite _ _ _ : PState d).q.F = _
        split_ifs <;> rfl
      · show (ite _ _ _ : PState d).hencky = _
        split_ifs <;> rfl
    · simp only [plastModel, hm, plastMCCMui, t1, t2, mul_zero, Option.bind_eq_bind, Option.bind_eq_some_iff] at h1
      obtain ⟨r, hr, h1⟩ := h1
      have h2 := mccReturn_zero hb hr
      simp only [h2, Bool.false_eq_true, if_false, Option.some.injEq] at h1
      rw [← h1]
      exact ⟨rfl, rfl⟩

/-- The Cam-Clay return map is defined for the stress-free state. -/
lemma mccReturn_zero_defined {cabs : ℝ → ℝ} {m : Material} {allow : Bool} {slope eps : ℝ} (hb : 0 ≤ m.beta)
    (hK : m.K d ≠ 0) (ha : allow = true ∨ m.hardening ≠ .noHard) :
    ∃ r, mccReturn cabs m d allow slope eps 0 0 false = some r ∧ r.2.did = false ∧ r.2.exit = false := by
  have e1 : ∀ pc : ℝ, ¬ slope * slope * (0 - pc) * (0 + m.beta * pc) + 0 * 0 > 0 := by
    intro pc
    have := mul_nonneg (mul_self_nonneg slope) (mul_nonneg hb (mul_self_nonneg pc))
    nlinarith
  have e2 : ∀ pc : ℝ, slope * slope * (0 * 0 + (m.beta - 1) * pc * 0 - m.beta * pc * pc) + 1 * 0 * 0 ≤ 0 := by
    intro pc
    have := mul_nonneg (mul_self_nonneg slope) (mul_nonneg hb (mul_self_nonneg pc))
    nlinarith
  unfold mccReturn
  cases hh : m.hardening with
  | noHard =>
    rw [hh] at ha
    simp only [ne_eq, not_true_eq_false, or_false] at ha
    simp only [ha, if_true, mccRmaExplicit, if_neg (e1 _), Option.bind_eq_bind, Option.bind_some]
    exact ⟨_, rfl, rfl, rfl⟩
  | expoExpl =>
    simp only [mccRmaExplicit, if_neg (e1 _), Option.bind_eq_bind, Option.bind_some]
    exact ⟨_, rfl, rfl, rfl⟩
  | sinhExpl =>
    simp only [mccRmaExplicit, if_neg (e1 _), Option.bind_eq_bind, Option.bind_some]
    exact ⟨_, rfl, rfl, rfl⟩
  | expoImpl =>
    simp only [mccRmaImplicitExponentialOnevar, if_pos (e2 _), Option.bind_eq_bind, Option.bind_some]
    exact ⟨_, rfl, rfl, rfl⟩
  | sinhImpl =>
    simp only [mccRmaImplicitSinhOnevar, if_pos (e2 _), fdiv, if_neg hK, Option.bind_eq_bind, Option.bind_some]
    exact ⟨_, rfl, rfl, rfl⟩

/-- The update of a stress-free state is defined and raises no error. -/
lemma unstrained_defined {cabs} {svd : Matrix (Fin d) (Fin d) ℝ → Svd d} {m : Material} {dt : ℝ}
    {q : Particle d ℝ} (hm : StressFreeOk m d) (hh : m.plastic = .mccMui → m.hardening ≠ .noHard)
    (hs : IsSvd q.F (svd q.F)) (hF : Unstrained q.F) :
    ∃ out, plasticity cabs svd m dt q false = some out ∧ out.exit = false := by
  suffices h : ∃ st, plastModel cabs m dt (svd q.F) (mkTrial (svd q.F).hencky)
      ⟨q, (svd q.F).hencky, 0, false⟩ = some st ∧ st.exit = false by
    obtain ⟨st, h1, h2⟩ := h
    exact ⟨_, plasticity_some.mpr ⟨st, h1, rfl⟩, h2⟩
  rw [unstrained_hencky hs hF.1]
  obtain ⟨t1, t2⟩ := mkTrial_zero (d := d)
  rcases hm with hm | ⟨ok, hm⟩
  · exact ⟨_, (plastModel_noPlasticity hm).mpr ⟨fun _ => by simp [hF.2], rfl⟩, rfl⟩
  rcases hm with ⟨hm, hq⟩ | ⟨hm, hc⟩ | ⟨hm, hM, hc, hpr⟩ | ⟨hm, hp, hq⟩ | ⟨hm, hM, hc, hpr⟩ | ⟨hm, hM, hc, htol, hpr⟩ |
    ⟨hm, hb⟩
  · simp only [plastModel, hm]
    refine ⟨_, rfl, ?_⟩
    rw [plastVM]; dsimp only; split_ifs <;> rfl
  · simp only [plastModel, hm]
    refine ⟨_, rfl, ?_⟩
    rw [plastDP]; dsimp only; split_ifs <;> rfl
  · simp only [plastModel, hm]
    refine ⟨_, rfl, ?_⟩
    rw [plastDPSoft]; dsimp only; split_ifs <;> rfl
  · simp only [plastModel, hm, plastVMVisc, t1, t2, mul_zero]
    have hE := Real.exp_pos (-m.xi * q.epsPlVol)
    have hE' := Real.exp_pos (-m.xi * q.epsPlDev)
    rw [if_neg (not_lt.mpr (mul_nonpos_of_nonpos_of_nonneg hp hE.le)), if_neg]
    · exact ⟨_, rfl, rfl⟩
    · refine not_lt.mpr ?_
      rcases hq with ⟨h2, h3⟩ | ⟨h2, h3⟩
      · have := mul_nonneg (sub_nonneg.mpr h3) hE'.le
        linarith
      · rw [h2]; simpa using h3
  · simp only [plastModel, hm, plastDPVisc, t1, t2, mul_zero, hpr, Bool.false_eq_true, if_false, add_zero, zero_add]
    have hneg : -m.qCohesion / m.M ≤ 0 := div_nonpos_of_nonpos_of_nonneg (by linarith) hM.le
    rw [if_neg (fun h => absurd h.2 (not_lt.mpr hc)), if_neg (not_lt.mpr hneg)]
    refine ⟨_, rfl, ?_⟩
    show (ite _ _ _ : PState d).exit = _
    split_ifs <;> rfl
  · simp only [plastModel, hm]
    refine ⟨_, rfl, ?_⟩
    rw [plastDPMui]; dsimp only; split_ifs <;> rfl
  · have hK := ok.hK.ne'
    rcases hm with hm | hm | hm
    · obtain ⟨r, h1, h2, h3⟩ := mccReturn_zero_defined (cabs := cabs) (allow := true) (slope := m.M) (eps := q.epsPlVol)
        hb hK (.inl rfl)
      simp only [plastModel, hm, plastMCC, t1, t2, mul_zero, Option.bind_eq_bind]
      have e : (if m.useMibf = true then { (⟨q, 0, 0, false⟩ : PState d) with q := { q with muI := m.M } }
        else ⟨q, 0, 0, false⟩ : PState d).q.epsPlVol = q.epsPlVol ∧ (if m.useMibf = true then { (⟨q, 0, 0, false⟩ : PState d) with q := { q with muI := m.M } }
        else ⟨q, 0, 0, false⟩ : PState d).exit = false := by split_ifs <;> exact ⟨rfl, rfl⟩
      rw [e.1, e.2, h1]
      simp only [Option.bind_some, h2, Bool.false_eq_true, if_false]
      exact ⟨_, rfl, h3⟩
    · obtain ⟨r, h1, h2, h3⟩ := mccReturn_zero_defined (cabs := cabs) (allow := true) (slope := m.M) (eps := q.epsPlVol)
        hb hK (.inl rfl)
      simp only [plastModel, hm, plastMCC, t1, t2, mul_zero, Option.bind_eq_bind]
      have e : (if m.useMibf = true then { (⟨q, 0, 0, false⟩ : PState d) with q := { q with muI := m.M } }
        else ⟨q, 0, 0, false⟩ : PState d).q.epsPlVol = q.epsPlVol ∧ (if m.useMibf = true then { (⟨q, 0, 0, false⟩ : PState d) with q := { q with muI := m.M } }
        else ⟨q, 0, 0, false⟩ : PState d).exit = false := by split_ifs <;> exact ⟨rfl, rfl⟩
      rw [e.1, e.2, h1]
      simp only [Option.bind_some, h2, Bool.false_eq_true, if_false]
      exact ⟨_, rfl, h3⟩
    · obtain ⟨r, h1, h2, h3⟩ := mccReturn_zero_defined (cabs := cabs) (allow := false) (slope := m.mu1) (eps := q.epsPlVol)
        hb hK (.inr (hh hm))
      simp only [plastModel, hm, plastMCCMui, t1, t2, mul_zero, Option.bind_eq_bind, h1, Option.bind_some, h2,
        Bool.false_eq_true, if_false]
      exact ⟨_, rfl, h3⟩

end rest

section run
variable {d : ℕ} {R : Setup (d + 2)} {i e : Bool} {fuel : ℕ}
  {s : LoopState (d + 2) (World (d + 2))}

/-- A step without walls and periodic boundaries is the step of `stepOnGrid` on the grid chosen. -/
lemma physStep_free {dt t : ℝ} {g : Fin (d + 2) → ℝ} {n : ℕ} {w w' : World (d + 2)} {ex : Bool}
    (hpbc : R.S.pbc = false) (hobj : R.objs = []) (hpl : w.plates = [])
    (h : physStep R w dt g t n = some (w', ex)) :
    w'.plates = [] ∧ ∃ fr, stepOnGrid R.S dt g (boundaryCollision R.ops R.S.P.useMibf fr dt R.objs w.plates)
      (plastTotal R dt) w'.g [] (R.sched n w.ps) w.ps = some w'.ps ∧
      Untouched w'.g (boundaryCollision R.ops R.S.P.useMibf fr dt R.objs w.plates) := by
  obtain ⟨fr', ha⟩ := physStep_advance h
  constructor
  · simp only [physStep, Option.bind_eq_bind, Option.bind_eq_some_iff] at h
    obtain ⟨bg, h1, h⟩ := h
    simp only [hpbc, Bool.false_eq_true, if_false, ne_eq, not_true_eq_false, and_false, Option.bind_some,
      Option.bind_eq_some_iff] at h
    obtain ⟨arr, h2, qs, h3, h⟩ := h
    by_cases hu : R.S.useMusl = true
    · simp only [if_pos hu, Option.bind_eq_some_iff] at h
      obtain ⟨r, h4, qv, h5m, h⟩ := h
      obtain ⟨qs', h5, rfl⟩ := Option.map_eq_some_iff.mp h5m
      obtain ⟨rfl, -⟩ := Prod.mk.inj (Option.some.inj h)
      simp [hpl]
    · simp only [if_neg hu, Option.bind_some] at h
      obtain ⟨rfl, -⟩ := Prod.mk.inj (Option.some.inj h)
      simp [hpl]
  simp only [advanceStep, hpbc, Bool.false_eq_true, if_false, List.append_nil, Option.bind_eq_bind,
    Option.bind_eq_some_iff] at ha
  obtain ⟨bg, hbg, qs, hqs, hσ⟩ := ha
  injection hσ with hσ
  injection hσ with hps _ hgg _
  refine ⟨fr', ?_, ?_⟩
  · rw [← hgg, ← hps]; exact hqs
  · intro i _ v; rw [hobj, hpl]; rfl

lemma StepOf.dt_le {s1 : LoopState (d + 2) (World (d + 2))} {dt : ℝ}
    {g : Fin (d + 2) → ℝ} {w : World (d + 2)} (h : StepOf R s s1 dt g w) :
    dt ≤ max R.C.dtMax R.C.minDt := by
  obtain ⟨k, hk⟩ := h
  have := hk.2.2.1
  simp only [updateDt, Option.map_eq_some_iff, Prod.mk.injEq] at this
  obtain ⟨sp, _, hdt, hg⟩ := this
  rw [← hdt, chooseDt]
  refine max_le_max ?_ le_rfl
  refine (min_le_left _ _).trans ((min_le_left _ _).trans ?_)
  split_ifs
  · exact min_le_right _ _
  · exact le_rfl

/-- The gravity used in a step is a fraction of the given one. -/
lemma StepOf.gravity {s1 : LoopState (d + 2) (World (d + 2))} {dt : ℝ}
    {g : Fin (d + 2) → ℝ} {w : World (d + 2)} (h : StepOf R s s1 dt g w) (ht : 0 ≤ s1.time)
    (hg : R.C.gravitySpecial = false → s1.gravity = s.gravity) :
    ∃ f : ℝ, 0 ≤ f ∧ f ≤ 1 ∧ (R.C.gravitySpecial = false → f = 1) ∧ g = f • s.gravity := by
  rw [h.dt_ge.2]
  unfold rampGravity
  cases hsp : R.C.gravitySpecial with
  | false => exact ⟨1, zero_le_one, le_rfl, fun _ => rfl, by simp [hg hsp]⟩
  | true =>
    simp only [if_true]
    split_ifs with hlt
    · have hpos : 0 < R.C.gravityTime := lt_of_le_of_lt ht hlt
      refine ⟨1 / R.C.gravityTime * s1.time, by positivity, ?_, fun h => (by cases h), by rw [smul_smul]⟩
      rw [one_div, inv_mul_le_iff₀ hpos]; linarith
    · exact ⟨1, zero_le_one, le_rfl, fun _ => rfl, by simp⟩

/-- The motion of a particle in free fall: velocity and displacement are those of the whole body. -/
def Fallen (c g : Fin (d + 2) → ℝ) (t τ u : ℝ) (p p' : Particle (d + 2) ℝ) : Prop :=
  p'.v = c + τ • g ∧ p'.x = p.x + t • c + u • g ∧ p'.Bmat = 0 ∧ p'.tau = 0 ∧ p'.F = p.F

/-- What is known of the state of a run of a body in free fall. -/
def FallInv (R : Setup (d + 2)) (s : LoopState (d + 2) (World (d + 2))) (c : Fin (d + 2) → ℝ)
    (w : World (d + 2)) (t : ℝ) (g : Fin (d + 2) → ℝ) : Prop :=
  w.plates = [] ∧ (R.C.gravitySpecial = false → g = s.gravity) ∧ 0 ≤ t ∧
    ∃ τ u, 0 ≤ τ ∧ τ ≤ t ∧ 0 ≤ u ∧
      (R.C.gravitySpecial = false → τ = t ∧ t ^ 2 / 2 ≤ u ∧ u ≤ t ^ 2 / 2 + t * max R.C.dtMax R.C.minDt / 2) ∧
      List.Forall₂ (Fallen c s.gravity t τ u) s.w.ps w.ps

/-- One step of a free fall. -/
lemma fall_step {deg : Deg} {dx fr m vol : ℝ} {mibf : Bool}
    (hS : R.S.P = mkTransferParams deg dx fr mibf m vol) (hd : deg ≠ .one) (hdx : 0 < dx) (hm : 0 < m)
    (hpbc : R.S.pbc = false) (hcp : R.S.changePos = false) (hobj : R.objs = [])
    (hsched : ∀ k ps, (R.sched k ps).flatten.Perm ps) (hmin : 0 ≤ R.C.minDt)
    (hmat : StressFreeOk R.m (d + 2)) (hsvd : ∀ F, IsSvd F (R.svd F)) {c : Fin (d + 2) → ℝ}
    (hini : ∀ p ∈ s.w.ps, p.v = c ∧ p.Bmat = 0 ∧ p.tau = 0 ∧ Unstrained p.F)
    {s1 : LoopState (d + 2) (World (d + 2))} {dt : ℝ} {g : Fin (d + 2) → ℝ} {w : World (d + 2)}
    (hst : StepOf R s s1 dt g w) (hf : FallInv R s c s1.w s1.time s1.gravity)
    (hn : NoTinyWeights deg dx w.g s1.w.ps) : FallInv R s c w (s1.time + dt) g := by
  have hPdx : R.S.P.dx = dx := by rw [hS]; rfl
  obtain ⟨i1, i2, i3, τ, u, t0, tt, u0, hu, i4⟩ := hf
  have hgood := physStep_goodGrid hpbc (by rw [hPdx]; exact hdx) (by rw [hS]; rfl) hst.phys
  rw [hPdx] at hgood
  have hdt0 : 0 ≤ dt := hmin.trans hst.dt_ge.1
  have hdt1 := hst.dt_le
  obtain ⟨hplates, fr', hqs, hbc⟩ := physStep_free hpbc hobj i1 hst.phys
  obtain ⟨f, f0, f1, fs, hf⟩ := hst.gravity i3 i2
  have hall : ∀ q ∈ s1.w.ps, ∃ p ∈ s.w.ps, Fallen c s.gravity s1.time τ u p q := by
    intro q hq
    obtain ⟨k, hk, rfl⟩ := List.mem_iff_getElem.mp hq
    have hk' : k < s.w.ps.length := by rw [i4.length_eq]; exact hk
    exact ⟨s.w.ps[k], List.getElem_mem _, by simpa using (List.forall₂_iff_get.mp i4).2 k hk' hk⟩
  obtain ⟨qs, h1, h2⟩ := C07_free_fall (dt := dt) (grav := g) (plast := plastTotal R dt) hS hd hm hpbc hcp hgood
    hn (hsched s1.step _) hbc (plastTotal_keeps R dt) (c := c + τ • s.gravity)
    (fun q hq => by obtain ⟨p, _, h⟩ := hall q hq; exact h.1)
    (fun q hq => by obtain ⟨p, _, h⟩ := hall q hq; exact h.2.2.1)
    (fun q hq => by obtain ⟨p, _, h⟩ := hall q hq; exact h.2.2.2.1)
  have hw : w.ps = qs := Option.some.inj (hqs.symm.trans h1)
  have hfd := mul_le_mul_of_nonneg_right f1 hdt0
  refine ⟨hplates, fun hsp => by rw [hf, fs hsp, one_smul], by linarith, τ + dt * f,
    u + dt * (τ + dt * f), by positivity, by linarith, by positivity, fun hsp => ?_, ?_⟩
  · obtain ⟨a1, a2, a3⟩ := hu hsp
    rw [fs hsp, a1]
    refine ⟨by ring, by nlinarith, ?_⟩
    have := mul_le_mul_of_nonneg_left hdt1 hdt0
    nlinarith
  · rw [hw]
    have h3 : List.Forall₂ (fun p q => Unstrained p.F ∧ Fallen c s.gravity s1.time τ u p q) s.w.ps s1.w.ps := by
      rw [List.forall₂_iff_get] at i4 ⊢
      refine ⟨i4.1, fun k hk hk' => ⟨(hini _ (List.get_mem _ _)).2.2.2, i4.2 k hk hk'⟩⟩
    refine (forall₂_trans (R := fun p q => Unstrained p.F ∧ Fallen c s.gravity s1.time τ u p q) h3 h2).imp ?_
    rintro p p' ⟨q, ⟨hF, a1, a2, a3, a4, a5⟩, b1, b2, b3, r, b4, b5, b6, b7, -⟩
    have hr : (plastTotal R dt r).F = r.F ∧ (plastTotal R dt r).tau = 0 := by
      cases hp : plasticUpdate R dt r with
      | none => simp [plastTotal, hp, b5]
      | some o =>
        rw [plastTotal_eq hp]
        obtain ⟨out, ho, rfl⟩ := plasticUpdate_some hp
        exact unstrained_update hmat (hsvd _) (by rw [b4, a5]; exact hF) ho
    refine ⟨?_, ?_, b3, by rw [b7, hr.2], by rw [b6, hr.1, b4, a5]⟩
    · rw [b1, hf, smul_smul, add_smul, add_assoc]
    · rw [b2, a2, hf]
      ext a
      simp only [Pi.add_apply, Pi.smul_apply, smul_eq_mul]
      ring

lemma fall_inv {deg : Deg} {dx fr m vol : ℝ} {mibf : Bool}
    (hS : R.S.P = mkTransferParams deg dx fr mibf m vol) (hd : deg ≠ .one) (hdx : 0 < dx) (hm : 0 < m)
    (hpbc : R.S.pbc = false) (hcp : R.S.changePos = false) (hobj : R.objs = []) (hpl : s.w.plates = [])
    (hsched : ∀ k ps, (R.sched k ps).flatten.Perm ps) (hmin : 0 ≤ R.C.minDt)
    (hmat : StressFreeOk R.m (d + 2)) (hsvd : ∀ F, IsSvd F (R.svd F)) {c : Fin (d + 2) → ℝ}
    (hn : ∀ s1 dt g w, StepOf R s s1 dt g w → FallInv R s c s1.w s1.time s1.gravity →
      NoTinyWeights deg dx w.g s1.w.ps)
    (hini : ∀ p ∈ s.w.ps, p.v = c ∧ p.Bmat = 0 ∧ p.tau = 0 ∧ Unstrained p.F) :
    FallInv R s c (begin R s).w 0 s.gravity ∧
    ∀ s1 dt g w, StepOf R s s1 dt g w → FallInv R s c s1.w s1.time s1.gravity →
      FallInv R s c w (s1.time + dt) g := by
  have hPdx : R.S.P.dx = dx := by rw [hS]; rfl
  let Inv : World (d + 2) → ℝ → ℕ → (Fin (d + 2) → ℝ) → Prop := fun w t _ g => FallInv R s c w t g
  have h0 : Inv (begin R s).w 0 s.step s.gravity := by
    have hb : (begin R s).w.plates = [] ∧ List.Forall₂ (Fallen c s.gravity 0 0 0) s.w.ps (begin R s).w.ps := by
      rw [begin_w]
      unfold fillMuI
      by_cases hmi : R.S.P.useMibf = true
      · rw [if_pos hmi]
        refine ⟨hpl, forall₂_map fun p hp => ?_⟩
        obtain ⟨h1, h2, h3, -⟩ := hini p hp
        exact ⟨by simp [h1], by simp, h2, h3, rfl⟩
      · rw [if_neg hmi]
        refine ⟨hpl, ?_⟩
        have := forall₂_map (f := id) (L := s.w.ps) (R := Fallen c s.gravity 0 0 0) fun p hp => by
          obtain ⟨h1, h2, h3, -⟩ := hini p hp
          exact ⟨by simp [h1], by simp, h2, h3, rfl⟩
        simpa using this
    exact ⟨hb.1, fun _ => rfl, le_rfl, 0, 0, le_rfl, le_rfl, le_rfl, fun _ => ⟨rfl, by simp, by simp⟩, hb.2⟩
  exact ⟨h0, fun s1 dt g w hst hf => fall_step hS hd hdx hm hpbc hcp hobj hsched hmin hmat hsvd hini hst hf
    (hn _ _ _ _ hst hf)⟩

/-- **C60** A stress-free body with uniform velocity `c`, no walls, no periodic boundaries: in every particle
file every particle still has the deformation gradient it started with and zero stress, and all particles
have the same velocity `c + τ g` and the same displacement `t c + u g`. Without the gravity ramp `τ` is the
time `t` of the file and `u` exceeds the exact `t²/2` by at most `t Δ/2` where `Δ` is the largest possible
time step; with the ramp `0 ≤ τ ≤ t`, `0 ≤ u`. -/
theorem C60_free_fall {deg : Deg} {dx fr m vol : ℝ} {mibf : Bool}
    (hS : R.S.P = mkTransferParams deg dx fr mibf m vol) (hd : deg ≠ .one) (hdx : 0 < dx) (hm : 0 < m)
    (hpbc : R.S.pbc = false) (hcp : R.S.changePos = false) (hobj : R.objs = []) (hpl : s.w.plates = [])
    (hsched : ∀ k ps, (R.sched k ps).flatten.Perm ps) (hmin : 0 ≤ R.C.minDt)
    (hmat : StressFreeOk R.m (d + 2)) (hsvd : ∀ F, IsSvd F (R.svd F)) {c : Fin (d + 2) → ℝ}
    (hn : ∀ s1 dt g w, StepOf R s s1 dt g w → FallInv R s c s1.w s1.time s1.gravity →
      NoTinyWeights deg dx w.g s1.w.ps)
    (hini : ∀ p ∈ s.w.ps, p.v = c ∧ p.Bmat = 0 ∧ p.tau = 0 ∧ Unstrained p.F)
    {n : ℕ} {t : ℝ} {w : World (d + 2)}
    (hev : .particles n t w ∈ filesOf (runProgram R i e fuel s)) (hnew : .particles n t w ∉ s.out) :
    ∃ τ u, 0 ≤ τ ∧ τ ≤ t ∧ 0 ≤ u ∧
      (R.C.gravitySpecial = false → τ = t ∧ t ^ 2 / 2 ≤ u ∧ u ≤ t ^ 2 / 2 + t * max R.C.dtMax R.C.minDt / 2) ∧
      List.Forall₂ (Fallen c s.gravity t τ u) s.w.ps w.ps := by
  obtain ⟨h0, hstep⟩ := fall_inv hS hd hdx hm hpbc hcp hobj hpl hsched hmin hmat hsvd hn hini
  rcases run_particles hev hnew with ⟨rfl, rfl, rfl⟩ | ⟨s1, dt, g, hst, rfl⟩
  · obtain ⟨-, -, -, h⟩ := h0
    exact h
  · obtain ⟨-, -, -, h⟩ := (run_inv (Inv := fun w t _ g => FallInv R s c w t g) h0 hstep hst).2
    exact h

/-! ### C61 -/

lemma updateDt_ge {d : ℕ} {C : TimeConfig d} {gf g0 : Fin d → ℝ} {n : ℕ} {t : ℝ} {vs : List (Fin d → ℝ)} {dt : ℝ}
    {g : Fin d → ℝ} (h : updateDt C gf n t vs g0 = some (dt, g)) : C.minDt ≤ dt := by
  simp only [updateDt, Option.map_eq_some_iff, Prod.mk.injEq] at h
  obtain ⟨sp, _, hdt, -⟩ := h
  exact hdt ▸ chooseDt_ge

/-- Models and parameters whose update never raises the error flag (for positive time steps): the
rate-independent and mu(I) ones, Cam-Clay with explicit hardening, and the viscous ones with
exponent one. -/
def NeverFails (m : Material) : Prop :=
  m.plastic = .noPlasticity ∨ m.plastic = .vm ∨ m.plastic = .dp ∨ m.plastic = .dpSoft ∨ m.plastic = .dpMui ∨
  (m.plastic = .mcc ∧ isImplicit m.hardening = false) ∨
  (0 < m.mu ∧ 0 < m.qPrefac ∧ m.viscExponent = 1 ∧ 0 ≤ m.viscTime ∧
    (m.plastic = .vmVisc ∧ m.xi = 0 ∧ 0 ≤ m.qMax ∨ m.plastic = .dpVisc ∧ 0 < m.M))

lemma closedForm_ok {m : Material} (hmu : 0 < m.mu) (hq : 0 < m.qPrefac) (hτ : 0 ≤ m.viscTime) {dt Q Y : ℝ}
    (hdt : 0 < dt) (hY : 0 ≤ Y) (h : Y < Q) : (closedForm m dt Q Y).2 = false :=
  (closedForm_spec (by unfold Material.fMu; positivity) hτ hdt hY h).2.1

lemma mccRmaExplicit_exit {cabs : ℝ → ℝ} {p q M p0 beta K f : ℝ} {exit : Bool} {r : Rma}
    (h : mccRmaExplicit cabs p q exit M p0 beta K f = some r) : r.exit = exit := by
  unfold mccRmaExplicit at h
  dsimp only at h
  split_ifs at h
  · simp only [Option.bind_eq_bind, Option.bind_eq_some_iff] at h
    obtain ⟨_, _, _, _, h⟩ := h
    rw [← Option.some.inj h]
  · rw [← Option.some.inj h]

lemma plasticUpdate_ok (hm : NeverFails R.m) {dt : ℝ} (hdt : 0 < dt) {q : Particle (d + 2) ℝ}
    {r : Particle (d + 2) ℝ × Bool} (h : plasticUpdate R dt q = some r) : r.2 = false := by
  obtain ⟨out, ho, rfl⟩ := plasticUpdate_some h
  obtain ⟨st, h1, rfl⟩ := plasticity_some.mp ho
  show st.exit = false
  rcases hm with hm | hm | hm | hm | hm | ⟨hm, hh⟩ | ⟨hmu, hq, hn, hτ, ⟨hm, hxi, hY⟩ | ⟨hm, hM⟩⟩ <;>
    simp only [plastModel, hm, Option.some.injEq, Option.ite_none_left_eq_some] at h1
  · rw [← h1.2]
  · rw [← h1, plastVM]; dsimp only; split_ifs <;> rfl
  · rw [← h1, plastDP]; dsimp only; split_ifs <;> rfl
  · rw [← h1, plastDPSoft]; dsimp only; split_ifs <;> rfl
  · rw [← h1, plastDPMui]; dsimp only; split_ifs <;> rfl
  · obtain ⟨pc, r, hr, hc⟩ := plastMCC_shape h1
    have hex : r.exit = false := by
      simp only [mccReturn] at hr
      cases hhd : R.m.hardening with
      | noHard =>
        simp only [hhd, if_true, Option.bind_eq_bind, Option.bind_eq_some_iff] at hr
        obtain ⟨_, h2, hr⟩ := hr
        rw [← (Prod.mk.inj (Option.some.inj hr)).2]; exact mccRmaExplicit_exit h2
      | expoExpl =>
        simp only [hhd, Option.bind_eq_bind, Option.bind_eq_some_iff] at hr
        obtain ⟨_, h2, hr⟩ := hr
        rw [← (Prod.mk.inj (Option.some.inj hr)).2]; exact mccRmaExplicit_exit h2
      | sinhExpl =>
        simp only [hhd, Option.bind_eq_bind, Option.bind_eq_some_iff] at hr
        obtain ⟨_, h2, hr⟩ := hr
        rw [← (Prod.mk.inj (Option.some.inj hr)).2]; exact mccRmaExplicit_exit h2
      | expoImpl => rw [hhd] at hh; simp [isImplicit] at hh
      | sinhImpl => rw [hhd] at hh; simp [isImplicit] at hh
    rcases hc with ⟨-, _, rfl⟩ | ⟨-, b, qs, e, muI, hv, rfl⟩
    · exact hex
    · rw [hm, if_neg (by simp)] at hv
      simp only [Option.some.injEq, Prod.mk.injEq] at hv
      show e = false
      rw [← hv.2.2, hex]
  · simp only [plastVMVisc, hn, hxi, neg_zero, zero_mul, Real.exp_zero, mul_one, add_sub_cancel, and_self,
      decide_true, viscIncrement, if_true, Bool.false_or, Option.bind_eq_bind, Option.bind_some] at h1
    split_ifs at h1 with h2 h3
    · rw [← Option.some.inj h1]
    · rw [← Option.some.inj h1]
      exact closedForm_ok hmu hq hτ hdt hY h3
    · rw [← Option.some.inj h1]
  · simp only [plastDPVisc, ite_muI, hn, decide_true, viscIncrement, if_true, Option.bind_eq_bind,
      Option.bind_some] at h1
    have key : ∀ P : ℝ, P > -R.m.qCohesion / R.m.M → 0 ≤ R.m.M * P + R.m.qCohesion := by
      intro P hP
      have := mul_lt_mul_of_pos_left hP hM
      have h2 : R.m.M * (-R.m.qCohesion / R.m.M) = -R.m.qCohesion := by field_simp
      linarith
    split_ifs at h1 with h2 h3 h4 h5
    all_goals rw [← Option.some.inj h1]
    all_goals first
      | rfl
      | (have hh := closedForm_ok hmu hq hτ hdt (key _ (And.left ‹_ ∧ _›)) (And.right ‹_ ∧ _›)
         simpa using hh)

lemma physStep_ok_of {dt t : ℝ} (hok : ∀ q r, plasticUpdate R dt q = some r → r.2 = false) {g : Fin (d + 2) → ℝ} {n : ℕ}
    {w w' : World (d + 2)} {ex : Bool} (h : physStep R w dt g t n = some (w', ex)) : ex = false := by
  simp only [physStep, Option.bind_eq_bind, Option.bind_eq_some_iff] at h
  obtain ⟨bg, h1, h⟩ := h
  by_cases hmi : R.S.P.useMibf = true ∧
      (if R.S.pbc = true then ghosts R.S.P.dx (R.S.L 0) 4 w.ps else []) ≠ []
  · rw [if_pos hmi] at h
    exact absurd h (by simp)
  rw [if_neg hmi] at h
  simp only [Option.bind_eq_bind, Option.bind_some, Option.bind_eq_some_iff] at h
  obtain ⟨arr, h2, qs, h3, h⟩ := h
  by_cases hu : R.S.useMusl = true
  · simp only [if_pos hu, Option.bind_eq_some_iff] at h
    obtain ⟨r, h4, qv, h5m, h⟩ := h
    obtain ⟨qs', h5, rfl⟩ := Option.map_eq_some_iff.mp h5m
    obtain ⟨-, rfl⟩ := Prod.mk.inj (Option.some.inj h)
    rw [List.any_eq_false]
    intro x hx
    simp only [deformFull, Option.bind_eq_bind, Option.bind_eq_some_iff] at h5
    obtain ⟨ss, -, h5⟩ := h5
    obtain ⟨a, _, ha⟩ := mapM_mem h5 x hx
    simp [hok _ _ ha]
  · simp only [if_neg hu, Option.bind_some, Option.bind_eq_some_iff] at h
    obtain ⟨-, rfl⟩ := Prod.mk.inj (Option.some.inj h)
    rw [List.any_eq_false]
    intro x hx
    simp only [g2pFull, Option.bind_eq_bind, Option.bind_eq_some_iff] at h3
    obtain ⟨ss, -, h3⟩ := h3
    obtain ⟨a, _, ha⟩ := mapM_mem h3 x hx
    simp only [g2pFullParticle, if_neg hu] at ha
    simp [hok _ _ ha]

lemma physStep_ok (hm : NeverFails R.m) {dt t : ℝ} (hdt : 0 < dt) {g : Fin (d + 2) → ℝ} {n : ℕ} {w w' : World (d + 2)} {ex : Bool}
    (h : physStep R w dt g t n = some (w', ex)) : ex = false :=
  physStep_ok_of (fun _ _ h => plasticUpdate_ok hm hdt h) h

/-- An accepted run without undefined behaviour and without failing steps ends normally and has written all files. -/
lemma completes_of (hok : ∀ k s1 dt g w, Reach R.C (physics R) s.gravity (begin R s) k s1 → 0 < dt →
      updateDt R.C s.gravity s1.frame s1.time ((physics R).velocities s1.w) s1.gravity = some (dt, g) →
      physStep R s1.w dt g s1.time s1.step ≠ some (w, true))
    (hacc : accepted i R.m.elastic R.m.plastic e = true)
    (hmin : 0 < R.C.minDt) (hfuel : 1 ≤ fuel) (hN : R.C.endFrame / R.C.fps ≤ fuel * R.C.minDt)
    (hfd : R.C.minDt * (11 / 10) ≤ 1 / R.C.fps) (hsave : R.C.saveSim = true) (hend : 1 ≤ R.C.endFrame)
    (hub : runProgram R i e fuel s ≠ .ub) :
    ∃ r, runProgram R i e fuel s = .finished r ∧ r.frame = R.C.endFrame ∧
      ∃ (t : ℕ → ℝ) (w : ℕ → World (d + 2)),
      r.out = s.out ++ [.info, .particles 0 0 (fillMuI R.m R.S.P.useMibf s.w)] ++
        (List.range R.C.endFrame).flatMap (fun n => frameFiles R.C (n + 1) (t (n + 1)) (w (n + 1))) ++
        frameFiles R.C R.C.endFrame (t R.C.endFrame) (w R.C.endFrame) ++ [.timing r.step] ∧
      ∀ n, 1 ≤ n → n ≤ R.C.endFrame → n / R.C.fps - R.C.minDt * (11 / 10) < t n ∧ t n ≤ n / R.C.fps := by
  have hrun : runProgram R i e fuel s = simulate R.C (physics R) i R.m.elastic R.m.plastic e fuel
      { s with w := fillMuI R.m R.S.P.useMibf s.w } := by
    rw [runProgram, if_pos hacc]
  cases hres : runProgram R i e fuel s with
  | refused r =>
    rw [hrun, simulate_eq hacc] at hres
    exact absurd hres (by
      clear hres
      have : ∀ (n : ℕ) (a b : LoopState (d + 2) (World (d + 2))) gf, loop R.C (physics R) gf n a ≠ .refused b := by
        intro n
        induction n with
        | zero => intro a b gf h; unfold loop at h; split_ifs at h
        | succ n ih =>
          intro a b gf h
          unfold loop at h
          split_ifs at h
          cases hb : loopBody R.C (physics R) gf a with
          | cont s' => rw [hb] at h; exact ih _ _ _ h
          | brk s' => rw [hb] at h; cases h
          | fail s' => rw [hb] at h; cases h
          | ub => rw [hb] at h; cases h
      exact this _ _ _ _)
  | ub =>
    exact absurd hres hub
  | outOfFuel r =>
    rw [hrun] at hres
    exact absurd hres (C20_terminates hmin fuel hfuel hN _ r)
  | failed r =>
    rw [hrun, simulate_eq hacc] at hres
    obtain ⟨k, s1, hr, dt, g, w, hu, h⟩ := loop_failed _ _ _ _ .start hres
    exact absurd h (hok k s1 dt g w hr (hmin.trans_le (updateDt_ge hu)) hu)
  | finished r =>
    rw [hrun] at hres
    obtain ⟨h1, h2⟩ := C19_files hmin hfd hsave hend fuel _ r hres
    exact ⟨r, rfl, h1, h2⟩

/-- A fresh accepted run without undefined behaviour ends normally and has written all files. -/
lemma completes_of_defined (hnf : NeverFails R.m)
    (hacc : accepted i R.m.elastic R.m.plastic e = true)
    (hmin : 0 < R.C.minDt) (hfuel : 1 ≤ fuel) (hN : R.C.endFrame / R.C.fps ≤ fuel * R.C.minDt)
    (hfd : R.C.minDt * (11 / 10) ≤ 1 / R.C.fps) (hsave : R.C.saveSim = true) (hend : 1 ≤ R.C.endFrame)
    (hub : runProgram R i e fuel s ≠ .ub) :
    ∃ r, runProgram R i e fuel s = .finished r ∧ r.frame = R.C.endFrame ∧
      ∃ (t : ℕ → ℝ) (w : ℕ → World (d + 2)),
      r.out = s.out ++ [.info, .particles 0 0 (fillMuI R.m R.S.P.useMibf s.w)] ++
        (List.range R.C.endFrame).flatMap (fun n => frameFiles R.C (n + 1) (t (n + 1)) (w (n + 1))) ++
        frameFiles R.C R.C.endFrame (t R.C.endFrame) (w R.C.endFrame) ++ [.timing r.step] ∧
      ∀ n, 1 ≤ n → n ≤ R.C.endFrame → n / R.C.fps - R.C.minDt * (11 / 10) < t n ∧ t n ≤ n / R.C.fps :=
  completes_of (fun k s1 dt g w _ hdt _ h => absurd (physStep_ok hnf hdt h) (by simp)) hacc hmin hfuel hN hfd hsave
    hend hub

/-- A fresh accepted simulation whose plastic update is always defined and raises no error ends normally, unless an
outermost particle gets into the critical window. -/
lemma completes_of_update {deg : Deg} {dx fr m vol : ℝ} {mibf : Bool}
    (hS : R.S.P = mkTransferParams deg dx fr mibf m vol) (hdx : 0 < dx)
    (hpbc : R.S.pbc = false) (hfresh : s.step = 0) (hne : s.w.ps ≠ [])
    (hsched : ∀ k ps, (R.sched k ps).flatten.Perm ps)
    (hpl : ∀ dt q, 0 < dt → ∃ q', plasticUpdate R dt q = some (q', false))
    (hacc : accepted i R.m.elastic R.m.plastic e = true)
    (hmin : 0 < R.C.minDt) (hfuel : 1 ≤ fuel) (hN : R.C.endFrame / R.C.fps ≤ fuel * R.C.minDt)
    (hfd : R.C.minDt * (11 / 10) ≤ 1 / R.C.fps) (hsave : R.C.saveSim = true) (hend : 1 ≤ R.C.endFrame)
    (hcrit : ∀ k s1, Reach R.C (physics R) s.gravity (begin R s) k s1 → 0 < k → ¬ Critical R s.w.ps s1.w.ps) :
    ∃ r, runProgram R i e fuel s = .finished r ∧ r.frame = R.C.endFrame ∧
      ∃ (t : ℕ → ℝ) (w : ℕ → World (d + 2)),
      r.out = s.out ++ [.info, .particles 0 0 (fillMuI R.m R.S.P.useMibf s.w)] ++
        (List.range R.C.endFrame).flatMap (fun n => frameFiles R.C (n + 1) (t (n + 1)) (w (n + 1))) ++
        frameFiles R.C R.C.endFrame (t R.C.endFrame) (w R.C.endFrame) ++ [.timing r.step] ∧
      ∀ n, 1 ≤ n → n ≤ R.C.endFrame → n / R.C.fps - R.C.minDt * (11 / 10) < t n ∧ t n ≤ n / R.C.fps := by
  have hP1 : R.S.P.oneOverDx = 1 / dx := by rw [hS]; rfl
  have hPdeg : R.S.P.deg = deg := by rw [hS]; rfl
  refine completes_of (fun k s1 dt g w _ hdt _ h => ?_) hacc hmin hfuel hN hfd hsave hend fun hres => ?_
  · have := physStep_ok_of (fun q r h => by obtain ⟨q', h'⟩ := hpl dt q hdt; rw [h'] at h; rw [← Option.some.inj h]) h
    cases this
  · obtain ⟨k, s1, h1, h2, -, h4⟩ := only_window_of hS hdx hpbc hfresh hne hmin (fun k s1 dt g bg _ hdt _ hbg hG => by
      refine physStep_isSome (fun q => by obtain ⟨q', h'⟩ := hpl dt q hdt; rw [h']; rfl) fun bc => ?_
      obtain ⟨F, hF, -⟩ := stepOnGrid_eq (S := R.S) (dt := dt) (grav := g) (bc := bc)
        (threads := R.sched s1.step s1.w.ps) hPdeg hP1 hG (hsched _ _) (plastTotal_keeps R dt)
      simp only [advanceStep, hbg, hpbc, Bool.false_eq_true, if_false, List.append_nil,
        Option.bind_eq_bind, Option.bind_some, hF]
      exact ⟨_, rfl⟩) hres
    exact hcrit k s1 h1 h2 h4

/-- **C61** Total correctness of `simulate` for the models in `NeverFails`: a fresh, accepted
simulation without periodic boundaries ends normally, having written exactly the files of all frames at
their nominal times, unless at the beginning of some step an outermost particle is in the critical window of the
re-meshing. `fuel` iterations with `fuel * min_dt ≥ end_frame / fps` are enough. -/
theorem C61_completes {deg : Deg} {dx fr m vol : ℝ} {mibf : Bool}
    (hS : R.S.P = mkTransferParams deg dx fr mibf m vol) (hdx : 0 < dx)
    (hpbc : R.S.pbc = false) (hfresh : s.step = 0) (hne : s.w.ps ≠ [])
    (hsched : ∀ k ps, (R.sched k ps).flatten.Perm ps) (hrob : Robust R) (hnf : NeverFails R.m)
    (hacc : accepted i R.m.elastic R.m.plastic e = true)
    (hmin : 0 < R.C.minDt) (hfuel : 1 ≤ fuel) (hN : R.C.endFrame / R.C.fps ≤ fuel * R.C.minDt)
    (hfd : R.C.minDt * (11 / 10) ≤ 1 / R.C.fps) (hsave : R.C.saveSim = true) (hend : 1 ≤ R.C.endFrame)
    (hcrit : ∀ k s1, Reach R.C (physics R) s.gravity (begin R s) k s1 → 0 < k → ¬ Critical R s.w.ps s1.w.ps) :
    ∃ r, runProgram R i e fuel s = .finished r ∧ r.frame = R.C.endFrame ∧
      ∃ (t : ℕ → ℝ) (w : ℕ → World (d + 2)),
      r.out = s.out ++ [.info, .particles 0 0 (fillMuI R.m R.S.P.useMibf s.w)] ++
        (List.range R.C.endFrame).flatMap (fun n => frameFiles R.C (n + 1) (t (n + 1)) (w (n + 1))) ++
        frameFiles R.C R.C.endFrame (t R.C.endFrame) (w R.C.endFrame) ++ [.timing r.step] ∧
      ∀ n, 1 ≤ n → n ≤ R.C.endFrame → n / R.C.fps - R.C.minDt * (11 / 10) < t n ∧ t n ≤ n / R.C.fps := by
  refine completes_of_update hS hdx hpbc hfresh hne hsched (fun dt q hdt => ?_) hacc hmin hfuel hN hfd hsave hend hcrit
  obtain ⟨r, hr⟩ := Option.isSome_iff_exists.mp (robust_defined hrob hdt q)
  exact ⟨r.1, by rw [hr, ← plasticUpdate_ok hnf hdt hr]⟩

/-- What is known of the grid: before the first step the particles are those at the start, later the box is that of
the first grid `r`, and all nodes lie on its lattice. -/
def BoxInv (R : Setup (d + 2)) (s : LoopState (d + 2) (World (d + 2))) (r : (Fin (d + 2) → AxisInit ℝ) × Axes (d + 2) ℝ)
    (w : World (d + 2)) (n : ℕ) : Prop :=
  (n = 0 → w.ps.map (fun p => p.x) = s.w.ps.map fun p => p.x) ∧
    (n ≠ 0 → w.box = some r.1 ∧ ∀ a, ∀ y ∈ w.g a, ∃ k : ℤ, y = (r.1 a).minInit + k * R.S.P.dx)

/-- The grid chosen for the next step lies on the lattice of the first one. -/
lemma box_choose (hdx : 0 < R.S.P.dx) (hpbc : R.S.pbc = false) (hne : s.w.ps ≠ [])
    {r : (Fin (d + 2) → AxisInit ℝ) × Axes (d + 2) ℝ}
    (hr : remeshInit R.S.P.dx R.S.ref (s.w.ps.map fun p => p.x) = some r)
    {w : World (d + 2)} {n : ℕ} (hi : BoxInv R s r w n) {bg : Option (Fin (d + 2) → AxisInit ℝ) × Axes (d + 2) ℝ}
    (hbg : chooseGrid R.S ⟨w.ps, w.box, w.g, n⟩ = some bg) :
    bg.1 = some r.1 ∧ ∀ a, ∀ y ∈ bg.2 a, ∃ k : ℤ, y = (r.1 a).minInit + k * R.S.P.dx := by
  have hlow : ∀ a, (r.1 a).lowInit = (r.1 a).minInit - 2 * R.S.P.dx := by
    intro a
    have h1 := hr
    simp only [remeshInit, Option.bind_eq_bind, Option.bind_eq_some_iff, Option.some.injEq] at h1
    obtain ⟨ai, h2, _, _, h3⟩ := h1
    have h2 := of_sequenceFin_some h2 a
    obtain ⟨ai', h4, h5⟩ := axisInit_spec R.S.P.dx (R.S.ref.map fun r => r a)
      (xs := (s.w.ps.map fun p => p.x).map fun x => x a) (by simpa using hne)
    rw [h4] at h2
    rw [← h3]
    show (ai a).lowInit = (ai a).minInit - _
    rw [← Option.some.inj h2]
    exact h5.low
  obtain ⟨i1, i2⟩ := hi
  simp only [chooseGrid, hpbc, Bool.false_eq_true, if_false] at hbg
  by_cases hz : n = 0
  · rw [if_pos hz, i1 hz, hr] at hbg
    simp only [Option.map_some, Option.some.injEq] at hbg
    rw [← hbg]
    refine ⟨rfl, fun a y hy => ?_⟩
    have h1 := hr
    simp only [remeshInit, Option.bind_eq_bind, Option.bind_eq_some_iff, Option.some.injEq] at h1
    obtain ⟨ai, -, nodes, h2, h3⟩ := h1
    have h2 := of_sequenceFin_some h2 a
    rw [axisInitNodes, arange_eq hdx] at h2
    have hn : r.2 a = nodes a := by rw [← h3]
    have ha : ai a = r.1 a := by rw [← h3]
    simp only at hy
    rw [hn, ← Option.some.inj h2] at hy
    simp only [List.mem_map, List.mem_range] at hy
    obtain ⟨k, -, rfl⟩ := hy
    refine ⟨k - 2, ?_⟩
    rw [ha, hlow]; push_cast; ring
  · rw [if_neg hz, (i2 hz).1] at hbg
    simp only [Option.bind_some, Option.map_eq_some_iff] at hbg
    obtain ⟨gg, hg, rfl⟩ := hbg
    refine ⟨rfl, fun a y hy => ?_⟩
    have h2 := of_sequenceFin_some hg a
    simp only [axisContNodes, Option.bind_eq_bind, Option.bind_eq_some_iff] at h2
    obtain ⟨mx, -, mn, -, h2⟩ := h2
    rw [arange_eq hdx] at h2
    simp only at hy
    rw [← Option.some.inj h2] at hy
    simp only [List.mem_map, List.mem_range] at hy
    obtain ⟨k, -, rfl⟩ := hy
    unfold contLow
    rw [hlow]
    split_ifs
    · exact ⟨k - 2 + cellCount R.S.P.dx (mn - (r.1 a).minInit), by push_cast; ring⟩
    · exact ⟨k - 2 - cellCount R.S.P.dx ((r.1 a).minInit - mn), by push_cast; ring⟩

lemma box_steps (hdx : 0 < R.S.P.dx) (hpbc : R.S.pbc = false) (hfresh : s.step = 0)
    (hne : s.w.ps ≠ []) {r : (Fin (d + 2) → AxisInit ℝ) × Axes (d + 2) ℝ}
    (hr : remeshInit R.S.P.dx R.S.ref (s.w.ps.map fun p => p.x) = some r) :
    BoxInv R s r (begin R s).w s.step ∧
    ∀ s1 dt g w, StepOf R s s1 dt g w → BoxInv R s r s1.w s1.step → BoxInv R s r w (s1.step + 1) := by
  have hbeg : (begin R s).w.ps.map (fun p => p.x) = s.w.ps.map fun p => p.x := by
    rw [begin_w]
    unfold fillMuI
    by_cases hmi : R.S.P.useMibf = true
    · rw [if_pos hmi]; simp [Function.comp_def]
    · rw [if_neg hmi]
  refine ⟨⟨fun _ => hbeg, fun h => absurd hfresh h⟩, fun s1 dt g w hst hi => ⟨fun h => absurd h (by omega), fun _ => ?_⟩⟩
  obtain ⟨fr', hadv⟩ := physStep_advance hst.phys
  simp only [advanceStep, Option.bind_eq_bind, Option.bind_eq_some_iff] at hadv
  obtain ⟨bg, hbg, ps, -, hσ⟩ := hadv
  injection hσ with hσ
  injection hσ with _ hbox hgg _
  rw [← hbox, ← hgg]
  exact box_choose hdx hpbc hne hr hi hbg

lemma box_inv (hdx : 0 < R.S.P.dx) (hpbc : R.S.pbc = false) (hfresh : s.step = 0)
    (hne : s.w.ps ≠ []) {r : (Fin (d + 2) → AxisInit ℝ) × Axes (d + 2) ℝ}
    (hr : remeshInit R.S.P.dx R.S.ref (s.w.ps.map fun p => p.x) = some r)
    {s1 : LoopState (d + 2) (World (d + 2))} {dt : ℝ}
    {g : Fin (d + 2) → ℝ} {w : World (d + 2)} (hst : StepOf R s s1 dt g w) :
    BoxInv R s r s1.w s1.step ∧ BoxInv R s r w (s1.step + 1) := by
  obtain ⟨h0, hstep⟩ := box_steps hdx hpbc hfresh hne hr
  exact run_inv (Inv := fun w _ n _ => BoxInv R s r w n) h0 hstep hst

/-- The grid chosen in a state reached lies on the lattice through the lower corner of the initial cloud. -/
lemma reach_lattice {dx : ℝ} (hPdx : R.S.P.dx = dx) (hdx : 0 < dx) (hpbc : R.S.pbc = false) (hfresh : s.step = 0)
    (hne : s.w.ps ≠ []) {k : ℕ} {s1 : LoopState (d + 2) (World (d + 2))}
    (hr : Reach R.C (physics R) s.gravity (begin R s) k s1)
    {bg : Option (Fin (d + 2) → AxisInit ℝ) × Axes (d + 2) ℝ}
    (hbg : chooseGrid R.S ⟨s1.w.ps, s1.w.box, s1.w.g, s1.step⟩ = some bg) :
    ∃ m0 : Fin (d + 2) → ℝ, (∀ a, IsLeast (coords R.S.ref (s.w.ps.map fun p => p.x) a) (m0 a)) ∧
      ∀ a, ∀ y ∈ bg.2 a, ∃ k : ℤ, y = m0 a + k * dx := by
  subst hPdx
  have hne' : s.w.ps.map (fun p => p.x) ≠ [] := by simpa using hne
  obtain ⟨r, hr', -⟩ := C13_first_step (ps := s.w.ps) .two hdx R.S.ref hne
  obtain ⟨h0, hstep⟩ := box_steps hdx hpbc hfresh hne hr'
  have hi := reach_inv (Inv := fun w _ n _ => BoxInv R s r w n) (by rw [begin_step]; exact h0)
    (fun k s2 dt g w hs => hstep s2 dt g w ⟨k, hs⟩) hr
  exact ⟨fun a => (r.1 a).minInit, fun a => (C13_box hne' hr' a).1, (box_choose hdx hpbc hne hr' hi hbg).2⟩

/-- All grids of a fresh run without periodic boundaries lie on the lattice with spacing `dx` through the
lower corner of the initial cloud (with the reference point). -/
lemma run_lattice {dx : ℝ} (hPdx : R.S.P.dx = dx) (hdx : 0 < dx) (hpbc : R.S.pbc = false) (hfresh : s.step = 0)
    (hne : s.w.ps ≠ []) {s1 : LoopState (d + 2) (World (d + 2))} {dt : ℝ}
    {g : Fin (d + 2) → ℝ} {w : World (d + 2)} (hst : StepOf R s s1 dt g w) :
    ∃ m0 : Fin (d + 2) → ℝ, (∀ a, IsLeast (coords R.S.ref (s.w.ps.map fun p => p.x) a) (m0 a)) ∧
      ∀ a, ∀ y ∈ w.g a, ∃ k : ℤ, y = m0 a + k * dx := by
  subst hPdx
  have hne' : s.w.ps.map (fun p => p.x) ≠ [] := by simpa using hne
  obtain ⟨r, hr, -⟩ := C13_first_step (ps := s.w.ps) .two hdx R.S.ref hne
  have := (box_inv hdx hpbc hfresh hne hr hst).2.2 (by omega)
  exact ⟨fun a => (r.1 a).minInit, fun a => (C13_box hne' hr a).1, this.2⟩

/-- Particles at rest keep the weights they have on the first grid. -/
lemma rest_noTiny_on {deg : Deg} {dx : ℝ} (hg : s.gravity = 0) {m0 : Fin (d + 2) → ℝ}
    (hn : ∀ p ∈ s.w.ps, ∀ k : Fin (d + 2) → ℤ, shape deg dx (fun a => m0 a + k a * dx) p.x = 0 ∨
        1 / 10 ^ 25 < shape deg dx (fun a => m0 a + k a * dx) p.x)
    {s1 : LoopState (d + 2) (World (d + 2))} (hf : FallInv R s 0 s1.w s1.time s1.gravity) {gr : Axes (d + 2) ℝ}
    (h1 : ∀ a, ∀ y ∈ gr a, ∃ k : ℤ, y = m0 a + k * dx) : NoTinyWeights deg dx gr s1.w.ps := by
  obtain ⟨-, -, -, τ, u, -, -, -, -, hF⟩ := hf
  intro p hp j hj
  choose k hk using fun a => h1 a _ (List.getElem_mem (hj a))
  obtain ⟨p0, hp0, e0⟩ : ∃ p0 ∈ s.w.ps, p.x = p0.x := by
    obtain ⟨k, hk, rfl⟩ := List.mem_iff_getElem.mp hp
    have hk' : k < s.w.ps.length := by rw [hF.length_eq]; exact hk
    refine ⟨s.w.ps[k], List.getElem_mem _, ?_⟩
    have : Fallen 0 s.gravity s1.time τ u s.w.ps[k] s1.w.ps[k] := by
      simpa using (List.forall₂_iff_get.mp hF).2 k hk' hk
    rw [this.2.1, hg]; simp
  have e1 : nodeAt gr j = fun a => m0 a + k a * dx := by
    funext a
    rw [← hk a, nodeAt]
    simp [List.getD_eq_getElem?_getD, List.getElem?_eq_getElem (hj a)]
  rw [e1, e0]
  exact hn p0 hp0 k

lemma rest_noTiny {deg : Deg} {dx fr m vol : ℝ} {mibf : Bool} (hS : R.S.P = mkTransferParams deg dx fr mibf m vol)
    (hdx : 0 < dx) (hpbc : R.S.pbc = false) (hfresh : s.step = 0) (hne : s.w.ps ≠ []) (hg : s.gravity = 0)
    (hn : ∀ m0 : Fin (d + 2) → ℝ, (∀ a, IsLeast (coords R.S.ref (s.w.ps.map fun p => p.x) a) (m0 a)) →
      ∀ p ∈ s.w.ps, ∀ k : Fin (d + 2) → ℤ, shape deg dx (fun a => m0 a + k a * dx) p.x = 0 ∨
        1 / 10 ^ 25 < shape deg dx (fun a => m0 a + k a * dx) p.x) :
    ∀ s1 dt g w, StepOf R s s1 dt g w → FallInv R s 0 s1.w s1.time s1.gravity → NoTinyWeights deg dx w.g s1.w.ps := by
  intro s1 dt g w hst hf
  obtain ⟨m0, h0, h1⟩ := run_lattice (by rw [hS]; rfl) hdx hpbc hfresh hne hst
  exact rest_noTiny_on hg (hn m0 h0) hf h1

/-- One step of a stress-free body in free fall is defined and raises no error. -/
lemma fall_defined {deg : Deg} {dx fr m vol : ℝ} {mibf : Bool}
    (hS : R.S.P = mkTransferParams deg dx fr mibf m vol) (hd : deg ≠ .one) (hm : 0 < m)
    (hpbc : R.S.pbc = false) (hcp : R.S.changePos = false) (hobj : R.objs = [])
    (hsched : ∀ k ps, (R.sched k ps).flatten.Perm ps)
    (hmat : StressFreeOk R.m (d + 2)) (hhard : R.m.plastic = .mccMui → R.m.hardening ≠ .noHard)
    (hsvd : ∀ F, IsSvd F (R.svd F)) {c : Fin (d + 2) → ℝ} {w : World (d + 2)} {dt t : ℝ} {g : Fin (d + 2) → ℝ} {n : ℕ}
    (hpl : w.plates = []) (hini : ∀ p ∈ w.ps, p.v = c ∧ p.Bmat = 0 ∧ p.tau = 0 ∧ Unstrained p.F)
    {bg : Option (Fin (d + 2) → AxisInit ℝ) × Axes (d + 2) ℝ}
    (hbg : chooseGrid R.S ⟨w.ps, w.box, w.g, n⟩ = some bg) (hgood : GoodGrid dx bg.2 w.ps)
    (hn : NoTinyWeights deg dx bg.2 w.ps) : ∃ w', physStep R w dt g t n = some (w', false) := by
  refine physStep_marked (ok := fun q => Unstrained q.F) (fun q hq => ?_) fun fr' => ?_
  · obtain ⟨out, h1, h2⟩ := unstrained_defined (cabs := R.cabs) (dt := dt) hmat hhard (hsvd q.F) hq
    exact ⟨out.q, by rw [plasticUpdate, h1, Option.map_some, h2]⟩
  · obtain ⟨qs, h1, h2⟩ := C07_free_fall (dt := dt) (grav := g) (plast := marked R dt fun q => Unstrained q.F) hS hd hm hpbc
      hcp hgood hn (hsched n w.ps) (bc := boundaryCollision R.ops R.S.P.useMibf fr' dt R.objs w.plates)
      (by intro i _ v; rw [hobj, hpl]; rfl) (marked_keeps _) (c := c) (fun p hp => (hini p hp).1)
      (fun p hp => (hini p hp).2.1) fun p hp => (hini p hp).2.2.1
    refine ⟨⟨qs, bg.1, bg.2, n + 1⟩, ?_, fun q hq => ?_⟩
    · simp only [advanceStep, hbg, hpbc, Bool.false_eq_true, if_false, List.append_nil, Option.bind_eq_bind,
        Option.bind_some, h1]
    · obtain ⟨j, hj, rfl⟩ := List.mem_iff_getElem.mp hq
      have hj' : j < w.ps.length := by rw [h2.length_eq]; exact hj
      have hp := List.getElem_mem hj'
      obtain ⟨-, -, -, r, e1, -, e2, -⟩ := (List.forall₂_iff_get.mp h2).2 j hj' hj
      simp only [List.get_eq_getElem] at e1 e2
      have hF : Unstrained r.F := by rw [e1]; exact (hini _ hp).2.2.2
      have e3 : (marked R dt (fun q => Unstrained q.F) r).F = r.F := by
        rw [marked, if_pos hF]
        cases hp : plasticUpdate R dt r with
        | none => simp [plastTotal, hp]
        | some o =>
          rw [plastTotal_eq hp]
          obtain ⟨out, ho, rfl⟩ := plasticUpdate_some hp
          exact (unstrained_update hmat (hsvd _) hF ho).1
      rw [e2, e3]
      intro h0
      have := hF.1
      rw [h0] at this
      simp at this

/-- **C61** A body at rest, free of stress, without gravity and walls: the run ends normally, all frames are
written, and in all files all particles are where they were, at rest and free of stress. The hypothesis on the
weights concerns the lattice with spacing `dx` through the lower corner of the initial cloud. -/
theorem C61_rest {deg : Deg} {dx fr m vol : ℝ} {mibf : Bool}
    (hS : R.S.P = mkTransferParams deg dx fr mibf m vol) (hd : deg ≠ .one) (hdx : 0 < dx) (hm : 0 < m)
    (hpbc : R.S.pbc = false) (hcp : R.S.changePos = false) (hobj : R.objs = []) (hpl : s.w.plates = [])
    (hfresh : s.step = 0) (hne : s.w.ps ≠ []) (hg : s.gravity = 0)
    (hsched : ∀ k ps, (R.sched k ps).flatten.Perm ps)
    (hmat : StressFreeOk R.m (d + 2)) (hhard : R.m.plastic = .mccMui → R.m.hardening ≠ .noHard)
    (hacc : accepted i R.m.elastic R.m.plastic e = true)
    (hn : ∀ m0 : Fin (d + 2) → ℝ, (∀ a, IsLeast (coords R.S.ref (s.w.ps.map fun p => p.x) a) (m0 a)) →
      ∀ p ∈ s.w.ps, ∀ k : Fin (d + 2) → ℤ, shape deg dx (fun a => m0 a + k a * dx) p.x = 0 ∨
        1 / 10 ^ 25 < shape deg dx (fun a => m0 a + k a * dx) p.x)
    (hmin : 0 < R.C.minDt) (hfuel : 1 ≤ fuel) (hN : R.C.endFrame / R.C.fps ≤ fuel * R.C.minDt)
    (hfd : R.C.minDt * (11 / 10) ≤ 1 / R.C.fps) (hsave : R.C.saveSim = true) (hend : 1 ≤ R.C.endFrame)
    (hsvd : ∀ F, IsSvd F (R.svd F)) (hout : s.out = [])
    (hini : ∀ p ∈ s.w.ps, p.v = 0 ∧ p.Bmat = 0 ∧ p.tau = 0 ∧ Unstrained p.F) :
    ∃ r, runProgram R i e fuel s = .finished r ∧
      (∀ n ≤ R.C.endFrame, ∃ t w, .particles n t w ∈ r.out) ∧
      ∀ n t w, .particles n t w ∈ r.out →
        List.Forall₂ (fun p p' => p'.x = p.x ∧ p'.v = 0 ∧ p'.tau = 0 ∧ p'.F = p.F) s.w.ps w.ps := by
  have hPdx : R.S.P.dx = dx := by rw [hS]; rfl
  have hn' := rest_noTiny (s := s) hS hdx hpbc hfresh hne hg hn
  have hfall : ∀ k s1, Reach R.C (physics R) s.gravity (begin R s) k s1 → FallInv R s 0 s1.w s1.time s1.gravity := by
    obtain ⟨h0, hstep⟩ := fall_inv hS hd hdx hm hpbc hcp hobj hpl hsched hmin.le hmat hsvd hn' hini
    intro k s1 hr
    exact reach_inv (Inv := fun w t _ g => FallInv R s 0 w t g) (by rw [begin_time, begin_gravity]; exact h0)
      (fun k s2 dt g w hs => hstep s2 dt g w ⟨k, hs⟩) hr
  have hcrit : ∀ k s1, Reach R.C (physics R) s.gravity (begin R s) k s1 → 0 < k → ¬ Critical R s.w.ps s1.w.ps := by
    intro k s1 hr hk
    obtain ⟨-, -, -, τ, u, -, -, -, -, hF⟩ := hfall k s1 hr
    have hx : ∀ q ∈ s1.w.ps, ∃ p ∈ s.w.ps, q.x = p.x := by
      intro q hq
      obtain ⟨k, hk, rfl⟩ := List.mem_iff_getElem.mp hq
      have hk' : k < s.w.ps.length := by rw [hF.length_eq]; exact hk
      refine ⟨s.w.ps[k], List.getElem_mem _, ?_⟩
      have : Fallen 0 s.gravity s1.time τ u s.w.ps[k] s1.w.ps[k] := by
        simpa using (List.forall₂_iff_get.mp hF).2 k hk' hk
      rw [this.2.1, hg]; simp
    rintro ⟨a, y, y0, ⟨⟨⟨q, hq, rfl⟩, -⟩, ⟨-, h0⟩, hw, -⟩ | ⟨⟨⟨q, hq, rfl⟩, -⟩, ⟨-, h0⟩, hw, -⟩⟩
    all_goals
      obtain ⟨p, hp, e⟩ := hx q hq
      have hmem : q.x a ∈ coords R.S.ref (s.w.ps.map fun p => p.x) a := by
        exact .inl ⟨p.x, List.mem_map.mpr ⟨p, hp, rfl⟩, by rw [e]⟩
      have := h0 hmem
      rw [hPdx, le_div_iff₀ hdx] at hw
      linarith
  have hdef : ∀ k s1 dt g bg, Reach R.C (physics R) s.gravity (begin R s) k s1 →
      chooseGrid R.S ⟨s1.w.ps, s1.w.box, s1.w.g, s1.step⟩ = some bg → GoodGrid dx bg.2 s1.w.ps →
      ∃ w', physStep R s1.w dt g s1.time s1.step = some (w', false) := by
    intro k s1 dt g bg hr hbg hG
    have hf := hfall k s1 hr
    obtain ⟨m0, h0, h1⟩ := reach_lattice hPdx hdx hpbc hfresh hne hr hbg
    have hnt := rest_noTiny_on hg (hn m0 h0) hf h1
    obtain ⟨hp, -, -, τ, u, -, -, -, -, hF⟩ := hf
    refine fall_defined (c := 0) hS hd hm hpbc hcp hobj hsched hmat hhard hsvd hp (fun q hq => ?_) hbg hG hnt
    obtain ⟨k, hk, rfl⟩ := List.mem_iff_getElem.mp hq
    have hk' : k < s.w.ps.length := by rw [hF.length_eq]; exact hk
    have : Fallen 0 s.gravity s1.time τ u s.w.ps[k] s1.w.ps[k] := by
      simpa using (List.forall₂_iff_get.mp hF).2 k hk' hk
    obtain ⟨a1, a2, a3, a4, a5⟩ := this
    exact ⟨by rw [a1, hg]; simp, a3, a4, by rw [a5]; exact (hini _ (List.getElem_mem _)).2.2.2⟩
  obtain ⟨r, h1, -, t, w, h2, -⟩ := completes_of (e := e) (i := i) (fuel := fuel) (R := R) (s := s)
    (fun k s1 dt g w hr hdt hu h => by
      have hst : ∃ bg, chooseGrid R.S ⟨s1.w.ps, s1.w.box, s1.w.g, s1.step⟩ = some bg ∧ GoodGrid dx bg.2 s1.w.ps := by
        have hG := physStep_goodGrid hpbc (by rw [hPdx]; exact hdx) (by rw [hS]; rfl) h
        rw [hPdx] at hG
        obtain ⟨fr', hadv⟩ := physStep_advance h
        simp only [advanceStep, Option.bind_eq_bind, Option.bind_eq_some_iff] at hadv
        obtain ⟨bg, hbg, ps, -, hσ⟩ := hadv
        injection hσ with hσ
        injection hσ with _ _ hgg _
        exact ⟨bg, hbg, by rw [hgg]; exact hG⟩
      obtain ⟨bg, hbg, hG⟩ := hst
      obtain ⟨w', h'⟩ := hdef k s1 dt g bg hr hbg hG
      rw [h] at h'
      simp at h')
    hacc hmin hfuel hN hfd hsave hend fun hres => by
      obtain ⟨k, s1, h1, h2, -, h4⟩ := only_window_of hS hdx hpbc hfresh hne hmin
        (fun k s1 dt g bg hr _ _ hbg hG => by
          obtain ⟨w', h⟩ := hdef k s1 dt g bg hr hbg hG
          exact ⟨_, h⟩) hres
      exact hcrit k s1 h1 h2 h4
  refine ⟨r, h1, fun n hn'' => ?_, fun n t w hw => ?_⟩
  · rcases Nat.eq_zero_or_pos n with rfl | hpos
    · exact ⟨0, fillMuI R.m R.S.P.useMibf s.w, by rw [h2]; simp⟩
    · refine ⟨t n, w n, ?_⟩
      rw [h2]
      simp only [List.mem_append, List.mem_flatMap, List.mem_range]
      refine .inl (.inl (.inr ⟨n - 1, by omega, ?_⟩))
      rw [Nat.sub_add_cancel hpos]
      simp [frameFiles]
  · obtain ⟨τ, u, -, -, -, -, h⟩ := C60_free_fall (e := e) (i := i) (fuel := fuel) hS hd hdx hm hpbc hcp hobj hpl hsched
      hmin.le hmat hsvd (c := 0) hn' hini (n := n) (t := t) (w := w) (by rw [h1]; exact hw) (by rw [hout]; simp)
    refine h.imp fun p p' hp => ?_
    obtain ⟨a1, a2, a3, a4, a5⟩ := hp
    exact ⟨by rw [a2, hg]; simp, by rw [a1, hg]; simp, a4, a5⟩

end run
end
end Verif.Props
