import Verif.Props.FreeFall
import Verif.Props.Mui
import Verif.Props.CamClayMui

set_option linter.unusedSectionVars false
set_option linter.unusedSimpArgs false
set_option linter.unusedVariables false

/-!
# C71: yield conditions in the particle files, for the models with memory
-/

namespace Verif.Props
open Verif Matrix
noncomputable section
variable {d : ℕ} {R : Setup (d + 2)} {i e : Bool} {fuel : ℕ} {s : LoopState (d + 2) (World (d + 2))}

/-- The plastic update of `q`, a state with the history of `p`, gave `p'` (up to position and velocity),
without error. -/
def PlasticStep (R : Setup (d + 2)) (dt : ℝ) (p p' : Particle (d + 2) ℝ) : Prop :=
  ∃ q out x v, Carried p q ∧ plasticity R.cabs R.svd R.m dt q false = some out ∧ out.exit = false ∧
    p' = { out.q with x := x, v := v }

lemma plasticStep_of {dt : ℝ} {p p' : Particle (d + 2) ℝ} (h : Updated R dt p p') : PlasticStep R dt p p' := by
  obtain ⟨q, r, x, v, hq, hu, rfl, hr, -⟩ := h
  obtain ⟨out, ho, rfl⟩ := plasticUpdate_some hu
  exact ⟨q, out, x, v, hq, ho, hr, rfl⟩

/-- All particles of a file but the initial one satisfy a relation to their previous state which follows from
the plastic update and an invariant. -/
lemma saved_history {P : Particle (d + 2) ℝ → Prop} {Rel : Particle (d + 2) ℝ → Particle (d + 2) ℝ → Prop}
    (hmin : 0 < R.C.minDt) (hini : ∀ p ∈ (begin R s).w.ps, P p)
    (hstep : ∀ dt p p', 0 < dt → P p → PlasticStep R dt p p' → P p' ∧ Rel p p')
    {n : ℕ} {t : ℝ} {w : World (d + 2)}
    (hev : .particles n t w ∈ filesOf (runProgram R i e fuel s)) (hnew : .particles n t w ∉ s.out) :
    (n = 0 ∧ t = 0 ∧ w = (begin R s).w) ∨
      ∃ s1 dt g, StepOf R s s1 dt g w ∧ List.Forall₂ Rel s1.w.ps w.ps := by
  rcases run_particles hev hnew with h | ⟨s1, dt, g, hst, -⟩
  · exact .inl h
  right
  refine ⟨s1, dt, g, hst, ?_⟩
  have key : ∀ (l l' : List (Particle (d + 2) ℝ)) (dt : ℝ), 0 < dt → (∀ p ∈ l, P p) → List.Forall₂ (Updated R dt) l l' →
      List.Forall₂ Rel l l' ∧ ∀ p ∈ l', P p := by
    intro l l' dt hdt hP h
    induction h with
    | nil => exact ⟨.nil, by simp⟩
    | cons h1 _ ih =>
      obtain ⟨a1, a2⟩ := hstep dt _ _ hdt (hP _ (by simp)) (plasticStep_of h1)
      obtain ⟨b1, b2⟩ := ih fun p hp => hP p (by simp [hp])
      exact ⟨.cons a2 b1, by simpa using ⟨a1, b2⟩⟩
  have hinv := (run_inv (Inv := fun w _ _ _ => ∀ p ∈ w.ps, P p) hini (fun s1 dt g w h hP =>
    (key _ _ dt (hmin.trans_le h.dt_ge.1) hP (physStep_forall₂ h.phys)).2) hst).1
  exact (key _ _ dt (hmin.trans_le hst.dt_ge.1) hinv (physStep_forall₂ hst.phys)).1

lemma begin_keeps {P : Particle (d + 2) ℝ → Prop} (hP : ∀ p x, P p → P { p with muI := x })
    (h : ∀ p ∈ s.w.ps, P p) : ∀ p ∈ (begin R s).w.ps, P p := by
  rw [begin_w]
  unfold fillMuI
  by_cases hu : R.S.P.useMibf = true
  · rw [if_pos hu]
    intro p hp
    simp only [List.mem_map] at hp
    obtain ⟨q, hq, rfl⟩ := hp
    exact hP _ _ (h q hq)
  · rw [if_neg hu]
    exact h

lemma shift_nonpos {m : Material} {n : ℕ} (hK : 0 < m.K n) {p : Particle n ℝ} (h : 0 ≤ p.epsPlVolPradhana) :
    pressureShift m n p ≤ 0 := by
  unfold pressureShift
  split_ifs
  · have := mul_nonneg hK.le h; linarith
  · exact le_rfl

/-- Volume kept by the correction is never negative. -/
lemma pradhana_tip {m : Material} {n : ℕ} (hK : 0 < m.K n) {p : Particle n ℝ} (h : 0 ≤ p.epsPlVolPradhana) {P tip : ℝ}
    (ht : P + pressureShift m n p ≤ tip) : 0 ≤ p.epsPlVolPradhana + (tip - P) / m.K n := by
  unfold pressureShift at ht
  have h1 : (p.epsPlVolPradhana + (tip - P) / m.K n) * m.K n = p.epsPlVolPradhana * m.K n + (tip - P) := by
    field_simp
  refine nonneg_of_mul_nonneg_left ?_ hK
  rw [h1]
  split_ifs at ht
  · linarith
  · have := mul_nonneg h hK.le; linarith

/-- Viscous Drucker-Prager material with exponent one. -/
structure ViscDP (m : Material) (n : ℕ) : Prop where
  ok : MatOk m n
  model : m.plastic = .dpVisc
  expo : m.viscExponent = 1
  hM : 0 < m.M
  hc : 0 ≤ m.qCohesion
  hτ : 0 ≤ m.viscTime

/-- **C71** Viscous Drucker-Prager material (exponent one) in files: `p` is the particle in the file, `p0` the same
particle at the beginning of the last step before it. No tension beyond the tip; the shear stress is on
or below the yield line, or it exceeds the line, shifted to the right by the volume correction, by the viscous
overstress belonging to the shear rate in the file; or the trial state was exactly at the shifted tip. -/
theorem C71_viscousDruckerPrager_partial (v : ViscDP R.m (d + 2)) (hsvd : ∀ F, IsSvd F (R.svd F))
    (hmin : 0 < R.C.minDt) (hini : ∀ p ∈ s.w.ps, 0 ≤ p.epsPlVolPradhana) {n : ℕ} {t : ℝ} {w : World (d + 2)}
    (hev : .particles n t w ∈ filesOf (runProgram R i e fuel s)) (hnew : .particles n t w ∉ s.out) :
    (n = 0 ∧ t = 0 ∧ w = (begin R s).w) ∨
      ∃ s1 dt g, StepOf R s s1 dt g w ∧ List.Forall₂ (fun p0 p =>
        -R.m.qCohesion / R.m.M ≤ savedP p.tau ∧ p.tauᵀ = p.tau ∧ pressureShift R.m (d + 2) p0 ≤ 0 ∧
        (savedQ R.m.qPrefac p.tau ≤ R.m.M * savedP p.tau + R.m.qCohesion ∨
          0 < p.deltaGamma ∧ FlowEq R.m (R.m.M * (savedP p.tau + pressureShift R.m (d + 2) p0) + R.m.qCohesion)
            (savedQ R.m.qPrefac p.tau) p.deltaGamma ∨
          savedP p.tau + pressureShift R.m (d + 2) p0 = -R.m.qCohesion / R.m.M)) s1.w.ps w.ps := by
  obtain ⟨ok, hm, hn, hM, hc, hτ⟩ := v
  refine saved_history (P := fun p => 0 ≤ p.epsPlVolPradhana) hmin
    (begin_keeps (fun p x h => h) hini) (fun dt p p' hdt hP h => ?_) hev hnew
  obtain ⟨q, out, x, vv, ⟨_, _, _, _, _, _, hq⟩, ho, hx, rfl⟩ := h
  have hq0 : 0 ≤ q.epsPlVolPradhana := by rw [hq]; exact hP
  have hS : pressureShift R.m (d + 2) q = pressureShift R.m (d + 2) p := by rw [hq]; rfl
  obtain ⟨out', h', a1, a2, a3, a4, a5, -, -, a6, -⟩ := C38_viscousDruckerPrager (cabs := R.cabs) ok hm hn hM hc hτ hdt q false
    (hsvd q.F) (P := _) (Q := _) (S := _) (Y := _) rfl rfl rfl rfl
  rw [ho] at h'
  obtain rfl := Option.some.inj h'
  have hle := shift_nonpos ok.hK hP
  rw [hS] at a1 a2 a3 a4 a5 a6
  simp only [newP, newQ] at a1 a2 a3 a4 a5 a6
  set P := trialP R.m (R.svd q.F)
  set S := pressureShift R.m (d + 2) p
  set tip := -R.m.qCohesion / R.m.M with htip
  have hMt : R.m.M * tip = -R.m.qCohesion := by rw [htip]; field_simp
  refine ⟨?_, ?_⟩
  · show 0 ≤ out.q.epsPlVolPradhana
    rw [a6]
    split_ifs with h1 h2
    · rw [(a1 h2).1]
      exact pradhana_tip ok.hK hq0 (by rw [hS]; exact h2.le)
    · exact le_rfl
    · exact hq0
  · show tip ≤ savedP out.q.tau ∧ out.q.tauᵀ = out.q.tau ∧ S ≤ 0 ∧ (_ ≤ _ ∨ _ ∨ _)
    rcases lt_trichotomy (P + S) tip with h1 | h1 | h1
    · obtain ⟨b1, b2⟩ := a1 h1
      refine ⟨b1.ge, C44_symmetric ho, hle, .inl ?_⟩
      show savedQ R.m.qPrefac out.q.tau ≤ R.m.M * savedP out.q.tau + R.m.qCohesion
      rw [b1, b2]; linarith
    · have b1 := a2 h1.ge
      refine ⟨by rw [b1]; linarith, C44_symmetric ho, hle, .inr (.inr ?_)⟩
      show savedP out.q.tau + S = tip
      rw [b1, h1]
    · have b1 := a2 h1.le
      refine ⟨by rw [b1]; linarith, C44_symmetric ho, hle, ?_⟩
      show savedQ R.m.qPrefac out.q.tau ≤ R.m.M * savedP out.q.tau + R.m.qCohesion ∨ 0 < out.q.deltaGamma ∧
        FlowEq R.m (R.m.M * (savedP out.q.tau + S) + R.m.qCohesion) (savedQ R.m.qPrefac out.q.tau) out.q.deltaGamma ∨
        savedP out.q.tau + S = tip
      rcases le_or_gt (trialQ R.m (R.svd q.F)) (R.m.M * (P + S) + R.m.qCohesion) with h2 | h2
      · left
        obtain ⟨-, b2, -⟩ := a3 h1 h2
        have b3 : savedQ R.m.qPrefac out.q.tau = trialQ R.m (R.svd q.F) := by
          rw [b2]
          obtain ⟨e1, e2⟩ := trial_eq ok (hsvd q.F)
          rw [elasticTau_eq (hsvd q.F), e2]
          exact (saved_trial' ok (hsvd q.F).orthU (t := mkTrial (R.svd q.F).hencky) _ rfl).2
        rw [b1, b3]
        have := mul_le_mul_of_nonneg_left hle hM.le
        linarith
      · right; left
        obtain ⟨-, b2, b3, b4, -⟩ := a4 h1 h2
        refine ⟨?_, by rw [b1]; exact b4⟩
        have h3 : 0 < R.m.fMu * (out.q.deltaGamma * dt) := by rw [b3]; linarith
        exact (mul_pos_iff_of_pos_right hdt).mp ((mul_pos_iff_of_pos_left ok.fMu_pos).mp h3)

lemma trialP_det {m : Material} {n : ℕ} (ok : MatOk m n) {F : Matrix (Fin n) (Fin n) ℝ} {σ : Svd n} (hs : IsSvd F σ)
    (hb : ∀ a, 1e-4 ≤ σ.sig a) : trialP m σ = -m.K n * Real.log |F.det| := by
  rw [(trial_eq ok hs).1]
  congr 1
  have hd : |F.det| = ∏ a, σ.sig a := by
    have hU : |σ.U.det| = 1 := by
      have := congrArg Matrix.det hs.orthU
      rw [det_mul, det_transpose, det_one] at this
      rcases mul_self_eq_one_iff.mp this with h | h <;> rw [h] <;> simp
    have hV : |σ.V.det| = 1 := by
      have := congrArg Matrix.det hs.orthV
      rw [det_mul, det_transpose, det_one] at this
      rcases mul_self_eq_one_iff.mp this with h | h <;> rw [h] <;> simp
    rw [hs.eq, det_mul, det_mul, det_transpose, det_diagonal, abs_mul, abs_mul, hU, hV, one_mul, mul_one,
      abs_of_nonneg (Finset.prod_nonneg fun a _ => hs.nonneg a)]
  have hpos : ∀ a, 0 < σ.sig a := fun a => lt_of_lt_of_le (by norm_num) (hb a)
  rw [hd, Real.log_prod fun a _ => (hpos a).ne']
  simp only [mkTrial, Svd.hencky]
  refine Finset.sum_congr rfl fun a _ => ?_
  rw [abs_of_pos (hpos a), max_eq_left (hb a)]

/-- **C71** The exception is not a rare one: without cohesion, a deformation of unchanged volume of a particle which
has not been expanded is at the tip, so shear stress of any size is accepted although the yield stress at that
pressure is zero. -/
theorem C71_isochoric_shear {cabs} {n : ℕ} {svd : Matrix (Fin n) (Fin n) ℝ → Svd n} {m : Material} (v : ViscDP m n)
    (hc0 : m.qCohesion = 0) {dt : ℝ} (hdt : 0 < dt) (q : Particle n ℝ) (hq : q.epsPlVolPradhana = 0)
    (hs : IsSvd q.F (svd q.F)) (hb : ∀ a, 1e-4 ≤ (svd q.F).sig a) (hdet : |q.F.det| = 1) :
    ∃ out, plasticity cabs svd m dt q false = some out ∧ newQ m out = trialQ m (svd q.F) ∧
      m.M * newP out + m.qCohesion = 0 := by
  obtain ⟨ok, hm, hn, hM, hc, hτ⟩ := v
  obtain ⟨out, h', a1, a2, a3, a4, a5, -⟩ := C38_viscousDruckerPrager (cabs := cabs) ok hm hn hM hc hτ hdt q false
    hs (P := _) (Q := _) (S := _) (Y := _) rfl rfl rfl rfl
  have hP : trialP m (svd q.F) = 0 := by rw [trialP_det ok hs hb, hdet]; simp
  have hS : pressureShift m n q = 0 := by unfold pressureShift; rw [hq]; simp
  rw [hP, hS, hc0] at a2 a5
  exact ⟨out, h', a5 (by simp), by rw [a2 (by simp), hc0]; simp⟩

/-- Stress reached at shear rate `rate` by a viscous material with yield stress `y`. -/
def overstress (m : Material) (y rate : ℝ) : ℝ :=
  if m.useDuvautLions then y + m.fMu * m.viscTime * rate else y * (1 + m.viscTime * rate)

/-- **C71** The same without reference to the previous state. -/
theorem C71_viscousDruckerPrager_bound_partial (v : ViscDP R.m (d + 2)) (hsvd : ∀ F, IsSvd F (R.svd F))
    (hmin : 0 < R.C.minDt) (hini : ∀ p ∈ s.w.ps, 0 ≤ p.epsPlVolPradhana) {n : ℕ} {t : ℝ} {w : World (d + 2)}
    (hev : .particles n t w ∈ filesOf (runProgram R i e fuel s)) (hnew : .particles n t w ∉ s.out) :
    (n = 0 ∧ t = 0 ∧ w = (begin R s).w) ∨ ∀ p ∈ w.ps,
      -R.m.qCohesion / R.m.M ≤ savedP p.tau ∧
      (R.m.usePradhana = false → -R.m.qCohesion / R.m.M < savedP p.tau →
        savedQ R.m.qPrefac p.tau ≤ R.m.M * savedP p.tau + R.m.qCohesion ∨ 0 < p.deltaGamma ∧
        savedQ R.m.qPrefac p.tau = overstress R.m (R.m.M * savedP p.tau + R.m.qCohesion) p.deltaGamma) := by
  rcases C71_viscousDruckerPrager_partial v hsvd hmin hini hev hnew with h | ⟨s1, dt, g, -, h⟩
  · exact .inl h
  right
  clear hev hnew hini
  generalize s1.w.ps = l at h
  generalize w.ps = l' at h
  induction h with
  | nil => simp
  | @cons p0 p l1 l2 h1 _ ih =>
    intro p' hp
    rcases List.mem_cons.mp hp with rfl | hp
    swap
    · exact ih p' hp
    obtain ⟨a1, -, -, a2⟩ := h1
    refine ⟨a1, fun hu hlt => ?_⟩
    have hS : pressureShift R.m (d + 2) p0 = 0 := by simp [pressureShift, hu]
    rw [hS, add_zero] at a2
    rcases a2 with a2 | a2 | a2
    · exact .inl a2
    · right
      refine ⟨a2.1, ?_⟩
      have := a2.2
      unfold FlowEq at this
      unfold overstress
      split_ifs at this ⊢ <;> exact this
    · exact absurd a2 hlt.ne'

/-- **C71** mu(I) Drucker-Prager material in files: no tension beyond the tip; the friction coefficient in the file is
between `mu_1` and `mu_2`, and the ratio of shear stress and pressure is not above it (up to cohesion and
stress tolerance), unless the pressure is negative or the trial state was exactly at the shifted tip. -/
theorem C71_muI_partial (ok : MatOk R.m (d + 2)) (hm : R.m.plastic = .dpMui) (hmu : 0 < R.m.mu1)
    (h12 : R.m.mu1 < R.m.mu2) (hfq : 0 < R.m.facQ) (hc : 0 ≤ R.m.qCohesion) (htol : 0 ≤ R.m.stressTol)
    (hsvd : ∀ F, IsSvd F (R.svd F))
    (hmin : 0 < R.C.minDt) (hini : ∀ p ∈ s.w.ps, 0 ≤ p.epsPlVolPradhana) {n : ℕ} {t : ℝ} {w : World (d + 2)}
    (hev : .particles n t w ∈ filesOf (runProgram R i e fuel s)) (hnew : .particles n t w ∉ s.out) :
    (n = 0 ∧ t = 0 ∧ w = (begin R s).w) ∨
      ∃ s1 dt g, StepOf R s s1 dt g w ∧ List.Forall₂ (fun p0 p =>
        -R.m.qCohesion / R.m.mu1 ≤ savedP p.tau ∧ p.tauᵀ = p.tau ∧ R.m.mu1 ≤ p.muI ∧ p.muI < R.m.mu2 ∧
        (0 ≤ savedP p.tau →
          savedQ R.m.qPrefac p.tau ≤ p.muI * savedP p.tau + R.m.qCohesion + R.m.stressTol ∨
          savedP p.tau + pressureShift R.m (d + 2) p0 = -R.m.qCohesion / R.m.mu1)) s1.w.ps w.ps := by
  refine saved_history (P := fun p => 0 ≤ p.epsPlVolPradhana) hmin
    (begin_keeps (fun p x h => h) hini) (fun dt p p' hdt hP h => ?_) hev hnew
  obtain ⟨q, out, x, vv, ⟨_, _, _, _, _, _, hq⟩, ho, hx, rfl⟩ := h
  have hq0 : 0 ≤ q.epsPlVolPradhana := by rw [hq]; exact hP
  have hS : pressureShift R.m (d + 2) q = pressureShift R.m (d + 2) p := by rw [hq]; rfl
  have hle := shift_nonpos ok.hK hP
  have hsym := C44_symmetric ho
  have htipeq : R.m.mu1 * (-R.m.qCohesion / R.m.mu1) = -R.m.qCohesion := by field_simp
  show 0 ≤ out.q.epsPlVolPradhana ∧ -R.m.qCohesion / R.m.mu1 ≤ savedP out.q.tau ∧ out.q.tauᵀ = out.q.tau ∧
    R.m.mu1 ≤ out.q.muI ∧ out.q.muI < R.m.mu2 ∧ (0 ≤ savedP out.q.tau →
      savedQ R.m.qPrefac out.q.tau ≤ out.q.muI * savedP out.q.tau + R.m.qCohesion + R.m.stressTol ∨
      savedP out.q.tau + pressureShift R.m (d + 2) p = -R.m.qCohesion / R.m.mu1)
  by_cases hcase : trialP R.m (R.svd q.F) + pressureShift R.m (d + 2) q ≤ -R.m.qCohesion / R.m.mu1 ∨
      trialQ R.m (R.svd q.F) ≤ R.m.mu1 * (trialP R.m (R.svd q.F) + pressureShift R.m (d + 2) q) + R.m.qCohesion +
        R.m.stressTol
  · obtain ⟨out', h', a1, -, a2, a3, -⟩ := C39_other (cabs := R.cabs) ok hm dt q false (hsvd q.F) rfl rfl rfl rfl hcase
    rw [ho] at h'
    obtain rfl := Option.some.inj h'
    rcases lt_or_ge (trialP R.m (R.svd q.F) + pressureShift R.m (d + 2) q) (-R.m.qCohesion / R.m.mu1) with h1 | h1
    · obtain ⟨b1, b2, -, b3⟩ := a2 h1
      simp only [newP, newQ] at b1 b2 b3
      refine ⟨?_, b1.ge, hsym, a1.ge, by rw [a1]; exact h12, fun _ => .inl ?_⟩
      · rw [b3, b1]; exact pradhana_tip ok.hK hq0 h1.le
      · rw [a1, b1, b2]; linarith
    · obtain ⟨-, b1, -, b3⟩ := a3 h1
      obtain ⟨e1, e2⟩ := trial_eq ok (hsvd q.F)
      have hp : savedP out.q.tau = trialP R.m (R.svd q.F) ∧ savedQ R.m.qPrefac out.q.tau = trialQ R.m (R.svd q.F) := by
        rw [b1, elasticTau_eq (hsvd q.F), e2, e1]
        exact saved_trial' ok (hsvd q.F).orthU (t := mkTrial (R.svd q.F).hencky) _ rfl
      rw [b3, hp.1, hp.2, a1]
      refine ⟨le_rfl, by rw [hS] at h1; linarith, hsym, le_rfl, h12, fun _ => ?_⟩
      rcases hcase with hcase | hcase
      · right; rw [← hS]; exact le_antisymm hcase h1
      · left
        have := mul_le_mul_of_nonneg_left hle hmu.le
        rw [hS] at hcase
        linarith
  · push Not at hcase
    obtain ⟨out', h', a1, a2, -, a3, a4, -, -, ⟨qn, -, a5, a6, a7, -⟩, -⟩ := C39_muI (cabs := R.cabs) ok hm hmu h12 hfq hc
      htol hdt q false (hsvd q.F) rfl rfl rfl rfl rfl hcase.1 hcase.2
    rw [ho] at h'
    obtain rfl := Option.some.inj h'
    simp only [newP, newQ] at a1 a5 a7
    have h0 : out.q.epsPlVolPradhana = 0 := by
      obtain ⟨st, h1, h2⟩ := plasticity_some.mp ho
      have e : out.q.epsPlVolPradhana = st.q.epsPlVolPradhana := by rw [h2]
      simp only [plastModel, hm, Option.some.injEq] at h1
      obtain ⟨e1, e2⟩ := trial_eq ok (hsvd q.F)
      have hn : ¬ -R.m.K (d + 2) * (mkTrial (R.svd q.F).hencky).trace +
          (if R.m.usePradhana = true then -R.m.K (d + 2) * q.epsPlVolPradhana else 0) < -R.m.qCohesion / R.m.mu1 := by
        rw [← e1]; exact not_lt.mpr hcase.1.le
      rw [e, ← h1]
      simp only [plastDPMui]
      rw [if_neg hn]
      split_ifs <;> rfl
    refine ⟨h0.ge, by rw [a1]; rw [hS] at hcase; linarith [hcase.1], hsym, a3.le, a4, fun hp => .inl ?_⟩
    rw [a1] at hp
    obtain ⟨b1, b2⟩ := a7 hp
    have := mul_le_mul_of_nonneg_left hle hmu.le
    rw [a1, b2, a6, hS]
    linarith

/-- One step of a Drucker-Prager material with softening cohesion. -/
lemma softening_step (ok : MatOk R.m (d + 2)) (hm : R.m.plastic = .dpSoft) (hM : 0 < R.m.M)
    (hc : 0 ≤ R.m.qCohesion) (hxi : 0 ≤ R.m.xi) (hsvd : ∀ F, IsSvd F (R.svd F)) {dt : ℝ} {p p' : Particle (d + 2) ℝ}
    (hP : 0 ≤ p.epsPlVolPradhana) (h : PlasticStep R dt p p') :
    0 ≤ p'.epsPlVolPradhana ∧ p'.tauᵀ = p'.tau ∧ ∃ eps, p.epsPlDev ≤ eps ∧ eps ≤ p'.epsPlDev ∧
        savedQ R.m.qPrefac p'.tau ≤ R.m.M * savedP p'.tau + softCohesion R.m eps ∧
        -softCohesion R.m eps / R.m.M ≤ savedP p'.tau := by
  obtain ⟨q, out, x, vv, ⟨_, _, _, _, _, _, hq⟩, ho, hx, rfl⟩ := h
  have hq0 : 0 ≤ q.epsPlVolPradhana := by rw [hq]; exact hP
  have hS : pressureShift R.m (d + 2) q = pressureShift R.m (d + 2) p := by rw [hq]; rfl
  have hle := shift_nonpos ok.hK hP
  have hqe : q.epsPlDev = p.epsPlDev := by rw [hq]
  obtain ⟨out', h', ⟨eps, a1, a2, -, a3⟩, a4, -⟩ := C36_softening (cabs := R.cabs) ok hm hM hc hxi dt q false (hsvd q.F)
  rw [ho] at h'
  obtain rfl := Option.some.inj h'
  simp only [newP, newQ] at a3
  show 0 ≤ out.q.epsPlVolPradhana ∧ out.q.tauᵀ = out.q.tau ∧ ∃ eps, p.epsPlDev ≤ eps ∧ eps ≤ out.q.epsPlDev ∧
    savedQ R.m.qPrefac out.q.tau ≤ R.m.M * savedP out.q.tau + softCohesion R.m eps ∧
    -softCohesion R.m eps / R.m.M ≤ savedP out.q.tau
  have hMt : R.m.M * (-softCohesion R.m eps / R.m.M) = -softCohesion R.m eps := by field_simp
  rw [hqe] at a1
  rcases a3 with ⟨b1, b2, b3, b4⟩ | ⟨b1, b2, b3, b4⟩
  · refine ⟨?_, C44_symmetric ho, eps, a1, a2, ?_, ?_⟩
    · cases hu : R.m.usePradhana with
      | true => exact (b4 hu).ge
      | false => rw [a4 hu]; exact hq0
    · rw [b1]
      refine (min_le_right _ _).trans ?_
      have := mul_le_mul_of_nonneg_left hle hM.le
      rw [hS]; linarith
    · rw [hS] at b3; linarith
  · refine ⟨?_, C44_symmetric ho, eps, a1, a2, ?_, b2.ge⟩
    · cases hu : R.m.usePradhana with
      | true => rw [b4 hu, b2]; exact pradhana_tip ok.hK hq0 b3
      | false => rw [a4 hu]; exact hq0
    · rw [b1, b2]; linarith

/-- **C71** Drucker-Prager material with softening cohesion: the shear stress and pressure in a file satisfy the yield
condition for the cohesion at a plastic strain between those before and after the last step. -/
theorem C71_softening (ok : MatOk R.m (d + 2)) (hm : R.m.plastic = .dpSoft) (hM : 0 < R.m.M)
    (hc : 0 ≤ R.m.qCohesion) (hxi : 0 ≤ R.m.xi) (hsvd : ∀ F, IsSvd F (R.svd F))
    (hmin : 0 < R.C.minDt) (hini : ∀ p ∈ s.w.ps, 0 ≤ p.epsPlVolPradhana) {n : ℕ} {t : ℝ} {w : World (d + 2)}
    (hev : .particles n t w ∈ filesOf (runProgram R i e fuel s)) (hnew : .particles n t w ∉ s.out) :
    (n = 0 ∧ t = 0 ∧ w = (begin R s).w) ∨
      ∃ s1 dt g, StepOf R s s1 dt g w ∧ List.Forall₂ (fun p0 p =>
        p.tauᵀ = p.tau ∧ ∃ eps, p0.epsPlDev ≤ eps ∧ eps ≤ p.epsPlDev ∧
        savedQ R.m.qPrefac p.tau ≤ R.m.M * savedP p.tau + softCohesion R.m eps ∧
        -softCohesion R.m eps / R.m.M ≤ savedP p.tau) s1.w.ps w.ps := by
  exact saved_history (P := fun p => 0 ≤ p.epsPlVolPradhana) hmin
    (begin_keeps (fun p x h => h) hini) (fun dt p p' hdt hP h => softening_step ok hm hM hc hxi hsvd hP h) hev hnew

/-- **C71** Modified Cam-Clay in files: pressure and shear stress are inside the ellipse belonging to the plastic
volumetric strain in the file (implicit hardening; or at an end point of an ellipse), or belonging to the one
before the last step (explicit hardening); without hardening this is the initial ellipse. -/
theorem C71_camClay (ok : MatOk R.m (d + 2)) (cam : CamOk R.m) (hm : R.m.plastic = .mcc) (hM : 0 ≤ R.m.M)
    (hsvd : ∀ F, IsSvd F (R.svd F)) (hmin : 0 < R.C.minDt) {n : ℕ} {t : ℝ} {w : World (d + 2)}
    (hev : .particles n t w ∈ filesOf (runProgram R i e fuel s)) (hnew : .particles n t w ∉ s.out) :
    (n = 0 ∧ t = 0 ∧ w = (begin R s).w) ∨
      ∃ s1 dt g, StepOf R s s1 dt g w ∧ List.Forall₂ (fun p0 p =>
        p.tauᵀ = p.tau ∧
        ((∃ pc, (pc = hardeningPc R.m (d + 2) p.epsPlVol ∧ isImplicit R.m.hardening = true ∨
            pc = hardeningPc R.m (d + 2) p0.epsPlVol ∧ isImplicit R.m.hardening = false) ∧
            ¬ OutsideEllipse R.m.M pc R.m.beta (savedP p.tau) (savedQ R.m.qPrefac p.tau)) ∨
          isImplicit R.m.hardening = true ∧ ∃ pc, 0 < pc ∧
            AtEnd pc R.m.beta (savedP p.tau) (savedQ R.m.qPrefac p.tau))) s1.w.ps w.ps := by
  refine saved_history (P := fun _ => True) hmin (by simp) (fun dt p p' hdt hP h => ⟨trivial, ?_⟩) hev hnew
  obtain ⟨q, out, x, vv, ⟨_, _, _, _, _, _, hq⟩, ho, hx, rfl⟩ := h
  have hqe : q.epsPlVol = p.epsPlVol := by rw [hq]
  have hout := C40_camClay ok cam hm hM dt q false (hsvd q.F) ho
  refine ⟨C44_symmetric ho, ?_⟩
  show (∃ pc, (pc = hardeningPc R.m (d + 2) out.q.epsPlVol ∧ isImplicit R.m.hardening = true ∨
            pc = hardeningPc R.m (d + 2) p.epsPlVol ∧ isImplicit R.m.hardening = false) ∧
            ¬ OutsideEllipse R.m.M pc R.m.beta (newP out) (newQ R.m out)) ∨
          isImplicit R.m.hardening = true ∧ ∃ pc, 0 < pc ∧ AtEnd pc R.m.beta (newP out) (newQ R.m out)
  have hnn : 0 ≤ newQ R.m out := by
    unfold newQ savedQ; have := ok.hq; positivity
  rcases hout with ⟨h1, h2, -, h3, h4⟩ | ⟨qy, ⟨-, pc, hpc, h2, h3⟩, -, -, h4, h5, -⟩
  · left
    rw [hqe] at h1
    rw [h3, h4]
    have e1 : out.q.epsPlVol = p.epsPlVol := by rw [h2]; exact hqe
    refine ⟨_, ?_, h1⟩
    cases hi : isImplicit R.m.hardening with
    | true => left; exact ⟨by rw [e1], rfl⟩
    | false => right; exact ⟨rfl, rfl⟩
  · have hin : ¬ OutsideEllipse R.m.M pc R.m.beta (newP out) (newQ R.m out) := by
      obtain ⟨o1, o2, o3, o4⟩ := h2
      unfold OutsideEllipse
      have := mul_le_mul h4 h4 hnn o1
      nlinarith
    rcases h3 with ⟨i1, rfl⟩ | ⟨i1, rfl⟩ | ⟨i1, i2⟩
    · left; exact ⟨_, .inr ⟨by rw [hqe], i1⟩, hin⟩
    · left; exact ⟨_, .inl ⟨by rw [h5], i1⟩, hin⟩
    · right
      refine ⟨i1, pc, hpc, ?_⟩
      obtain ⟨rfl, i3⟩ := i2
      exact ⟨le_antisymm h4 hnn, i3⟩

/-- **C71** Viscous von Mises material (exponent one, no softening) in files: the shear stress is at most the yield
stress or has the overstress belonging to the shear rate in the file, unless the pressure is below `p_min`. -/
theorem C71_viscousVonMises (ok : MatOk R.m (d + 2)) (hm : R.m.plastic = .vmVisc) (hn : R.m.viscExponent = 1)
    (hxi : R.m.xi = 0) (hq : 0 ≤ R.m.qMax) (hτ : 0 ≤ R.m.viscTime) (hsvd : ∀ F, IsSvd F (R.svd F))
    (hmin : 0 < R.C.minDt) {n : ℕ} {t : ℝ} {w : World (d + 2)}
    (hev : .particles n t w ∈ filesOf (runProgram R i e fuel s)) (hnew : .particles n t w ∉ s.out) :
    (n = 0 ∧ t = 0 ∧ w = (begin R s).w) ∨ ∀ p ∈ w.ps, p.tauᵀ = p.tau ∧ (R.m.pMin ≤ savedP p.tau →
      savedQ R.m.qPrefac p.tau ≤ R.m.qMax ∨
      0 < p.deltaGamma ∧ savedQ R.m.qPrefac p.tau = overstress R.m R.m.qMax p.deltaGamma) := by
  refine saved_particle (P := fun p => p.tauᵀ = p.tau ∧ (R.m.pMin ≤ savedP p.tau →
      savedQ R.m.qPrefac p.tau ≤ R.m.qMax ∨
      0 < p.deltaGamma ∧ savedQ R.m.qPrefac p.tau = overstress R.m R.m.qMax p.deltaGamma))
    (fun p x v h => h) (fun dt q r hdt h _ => ?_) hev hnew
  obtain ⟨out, ho, rfl⟩ := plasticUpdate_some h
  have hdt0 := hmin.trans_le hdt
  refine ⟨C44_symmetric ho, fun hp => ?_⟩
  obtain ⟨e1, e2⟩ := trial_eq ok (hsvd q.F)
  have hcap : R.m.pMin ≤ trialP R.m (R.svd q.F) := by
    by_contra hlt
    push Not at hlt
    have : savedP out.q.tau = trialP R.m (R.svd q.F) := by
      obtain ⟨st, h1, h2⟩ := plasticity_some.mp ho
      rw [e1] at hlt
      simp only [plastModel, hm, plastVMVisc, hxi, neg_zero, zero_mul, Real.exp_zero, mul_one] at h1
      rw [if_pos hlt] at h1
      rw [h2, ← Option.some.inj h1, e1]
      simp only [newTau_hencky ok.hel]
      exact (saved_trial' ok (hsvd q.F).orthU (t := mkTrial (R.svd q.F).hencky) _ rfl).1
    have hp' : R.m.pMin ≤ savedP out.q.tau := hp
    linarith
  obtain ⟨out', h', a1, a2, a3, -⟩ := C37_viscousVonMises (cabs := R.cabs) ok hm hn hxi hq hτ hdt0 q false (hsvd q.F) hcap
  rw [ho] at h'
  obtain rfl := Option.some.inj h'
  rcases le_or_gt (trialQ R.m (R.svd q.F)) R.m.qMax with h1 | h1
  · left
    have : savedQ R.m.qPrefac out.q.tau = trialQ R.m (R.svd q.F) := by
      rw [a2 h1, e2]
      simp only [elasticTau_eq (hsvd q.F)]
      exact (saved_trial' ok (hsvd q.F).orthU (t := mkTrial (R.svd q.F).hencky) _ rfl).2
    show savedQ R.m.qPrefac out.q.tau ≤ R.m.qMax
    rw [this]; exact h1
  · right
    obtain ⟨-, b2, b3, b4, -⟩ := a3 h1
    show 0 < out.q.deltaGamma ∧ newQ R.m out = overstress R.m R.m.qMax out.q.deltaGamma
    refine ⟨?_, ?_⟩
    · have h3 : 0 < R.m.fMu * (out.q.deltaGamma * dt) := by rw [b3]; linarith
      exact (mul_pos_iff_of_pos_right hdt0).mp ((mul_pos_iff_of_pos_left ok.fMu_pos).mp h3)
    · unfold FlowEq at b4
      unfold overstress
      split_ifs at b4 ⊢ <;> exact b4

end
end Verif.Props
