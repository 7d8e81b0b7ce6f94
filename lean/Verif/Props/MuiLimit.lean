import Verif.Props.Kept

set_option linter.unusedSectionVars false
set_option linter.unusedSimpArgs false
set_option linter.unusedVariables false

/-!
# C128: the mu(I) rheology with equal coefficients is Drucker-Prager
-/

namespace Verif.Props
open Verif Matrix
noncomputable section

variable {d : ℕ}

/-! ### Specification -/

/-- mu(I) Drucker-Prager material with `mu_1 = mu_2 = M` and `stress_tolerance = 0`. -/
def muiDP (m : Material) : Material := { m with plastic := .dpMui, mu1 := m.M, mu2 := m.M, stressTol := 0 }

/-- A particle without the saved rate, viscosity and friction coefficient, and without the accumulated volume if it is not
used (`b = false`). -/
def bare (b : Bool) (p : Particle d ℝ) : Particle d ℝ :=
  { p with deltaGamma := 0, viscosity := 0, muI := 0, epsPlVolPradhana := if b then p.epsPlVolPradhana else 0 }

/-- A world whose particles are `bare`. -/
def bareWorld (b : Bool) (w : World d) : World d := { w with ps := w.ps.map (bare b) }

/-! ### one update -/

lemma posRoot_product {a A D : ℝ} (ha : 0 < a) (hA : 0 ≤ A) (hD : 0 < D) : posRoot a (a * A - D) (-D * A) = D / a := by
  unfold posRoot
  have : (a * A - D) * (a * A - D) - 4 * a * (-D * A) = (a * A + D) ^ 2 := by ring
  rw [this, Real.sqrt_sq (by positivity)]
  field_simp
  ring

section update
variable {m : Material} {cabs : ℝ → ℝ} {svd : Matrix (Fin d) (Fin d) ℝ → Svd d} {dt : ℝ} {q q' : Particle d ℝ}

lemma bare_fields {b : Bool} (h : bare b q' = bare b q) : ∃ g v i e, q' =
    { q with deltaGamma := g, viscosity := v, muI := i, epsPlVolPradhana := if b then q.epsPlVolPradhana else e } := by
  obtain ⟨x, v, pic, fl, F, B, tau, e1, e2, e3, g, vi, mu⟩ := q
  obtain ⟨x', v', pic', fl', F', B', tau', e1', e2', e3', g', vi', mu'⟩ := q'
  simp only [bare, Particle.mk.injEq] at h
  obtain ⟨rfl, rfl, rfl, rfl, rfl, rfl, rfl, rfl, rfl, h, -⟩ := h
  refine ⟨g', vi', mu', e3', ?_⟩
  cases b <;> simp_all

lemma mui_self (h : bare m.usePradhana q' = bare m.usePradhana q) :
    (updated cabs svd (muiDP m) dt q').map (Prod.map (bare m.usePradhana) id) =
      (updated cabs svd (muiDP m) dt q).map (Prod.map (bare m.usePradhana) id) := by
  obtain ⟨g, v, i, e, rfl⟩ := bare_fields h
  clear h
  have e1 : (muiDP m).plastic = .dpMui := rfl
  have e2 : (muiDP m).usePradhana = m.usePradhana := rfl
  simp only [updated, plasticity, plastModel, e1, e2, Option.bind_eq_bind, Option.bind_some, Option.map_some, plastDPMui,
    Option.some.injEq]
  cases m.usePradhana <;> simp only [Bool.false_eq_true, if_false, if_true]
  all_goals
    split_ifs <;> simp [bare, Prod.map]

lemma visc_self (h : bare m.usePradhana q' = bare m.usePradhana q) :
    (updated cabs svd (inviscidDP m) dt q').map (Prod.map (bare m.usePradhana) id) =
      (updated cabs svd (inviscidDP m) dt q).map (Prod.map (bare m.usePradhana) id) := by
  obtain ⟨g, v, i, e, rfl⟩ := bare_fields h
  clear h
  have e1 : (inviscidDP m).plastic = .dpVisc := rfl
  have e2 : (inviscidDP m).usePradhana = m.usePradhana := rfl
  have e3 : (inviscidDP m).viscExponent = 1 := rfl
  have e4 : (inviscidDP m).useMibf = m.useMibf := rfl
  simp only [updated, plasticity, plastModel, e1, e2, e3, e4, Option.bind_eq_bind, plastDPVisc, decide_true, viscIncrement,
    if_true, Option.bind_some]
  cases m.usePradhana <;> cases m.useMibf <;> simp only [Bool.false_eq_true, if_false, if_true]
  all_goals
    split_ifs <;> simp [bare, Prod.map]

/-- The updates agree except for what `bare` leaves out. -/
lemma mui_visc (ok : MatOk m d) (hQ : 0 ≤ m.facQ) (hM : m.M ≠ 0) (hdt : 0 < dt) :
    (updated cabs svd (muiDP m) dt q).map (Prod.map (bare m.usePradhana) id) =
      (updated cabs svd (inviscidDP m) dt q).map (Prod.map (bare m.usePradhana) id) := by
  have e1 : (muiDP m).plastic = .dpMui := rfl
  have e2 : (muiDP m).usePradhana = m.usePradhana := rfl
  have e3 : (muiDP m).K d = m.K d := rfl
  have e4 : (muiDP m).eMu = m.eMu := rfl
  have e5 : (muiDP m).dPre = m.dPre := rfl
  have e6 : (muiDP m).fMu = m.fMu := rfl
  have e7 : (muiDP m).facQ = m.facQ := rfl
  have e8 : (muiDP m).mu1 = m.M := rfl
  have e9 : (muiDP m).mu2 = m.M := rfl
  have e10 : (muiDP m).stressTol = 0 := rfl
  have e11 : (muiDP m).qCohesion = m.qCohesion := rfl
  have f1 : (inviscidDP m).plastic = .dpVisc := rfl
  have f2 : (inviscidDP m).usePradhana = m.usePradhana := rfl
  have f3 : (inviscidDP m).viscExponent = 1 := rfl
  have f4 : (inviscidDP m).useMibf = m.useMibf := rfl
  have f5 : (inviscidDP m).K d = m.K d := rfl
  have f6 : (inviscidDP m).eMu = m.eMu := rfl
  have f7 : (inviscidDP m).dPre = m.dPre := rfl
  have f8 : (inviscidDP m).fMu = m.fMu := rfl
  have f9 : (inviscidDP m).M = m.M := rfl
  have f10 : (inviscidDP m).qCohesion = m.qCohesion := rfl
  have f11 : (inviscidDP m).viscTime = 0 := rfl
  have ht : ∀ s h F, newTau (muiDP m) (d := d) s h F = newTau (inviscidDP m) s h F := fun _ _ _ => rfl
  have hf := ok.fMu_pos
  simp only [updated, plasticity, plastModel, e1, e2, e3, e4, e5, e6, e7, e8, e9, e10, e11, f1, f2, f3, f4, f5, f6, f7, f8, f9,
    f10, f11, ht, Option.bind_eq_bind, plastDPVisc, plastDPMui, decide_true, viscIncrement, closedForm, if_true,
    Option.bind_some, Option.map_some, zero_div, mul_zero, add_zero, mul_one, sub_self, zero_add, ite_self]
  set t := mkTrial (svd q.F).hencky with htd
  generalize (if m.usePradhana = true then -m.K d * q.epsPlVolPradhana else 0) = S
  by_cases hc : -m.K d * t.trace + S > -m.qCohesion / m.M ∧ m.eMu * t.norm > m.M * (-m.K d * t.trace + S) + m.qCohesion
  · have hD : 0 < m.eMu * t.norm - (m.M * (-m.K d * t.trace + S) + m.qCohesion) := by linarith [hc.2]
    have hA : 0 ≤ m.facQ * Real.sqrt (-m.K d * t.trace + S - -m.qCohesion / m.M) := mul_nonneg hQ (Real.sqrt_nonneg _)
    have hr := posRoot_product (mul_pos hf hdt) hA hD
    have hn : ¬ (-m.K d * t.trace + S < -m.qCohesion / m.M) := not_lt.mpr hc.1.le
    have hneg : ¬ ((m.eMu * t.norm - (m.M * (-m.K d * t.trace + S) + m.qCohesion)) / m.fMu < 0) := not_lt.mpr (div_pos hD hf).le
    simp only [← mul_assoc] at hr
    simp only [if_pos hc, if_neg hn, hr]
    have hdg : (m.eMu * t.norm - (m.M * (-m.K d * t.trace + S) + m.qCohesion)) / (m.fMu * dt) * dt =
        (m.eMu * t.norm - (m.M * (-m.K d * t.trace + S) + m.qCohesion)) / m.fMu := by field_simp
    simp only [hdg, decide_eq_false hneg, Bool.or_false]
    cases m.useMibf <;> cases m.usePradhana <;> simp [bare, Prod.map]
  · simp only [if_neg hc]
    cases m.useMibf <;> cases m.usePradhana <;> simp only [Bool.false_eq_true, if_false, if_true] <;> split_ifs <;>
      simp [bare, Prod.map]

end update

/-! ### whole runs -/

section run
variable {R : Setup (d + 2)} {m : Material} {s : LoopState (d + 2) (World (d + 2))} {i e : Bool} {fuel : ℕ} {b : Bool}

lemma bare_eq : bare b (d := d) = kept ⟨true, true, b, false⟩ := rfl

lemma bareWorld_eq : bareWorld b (d := d) = keptWorld ⟨true, true, b, false⟩ := rfl

/-- **C128** The mu(I) rheology of Drucker-Prager type with `mu_1 = mu_2 = M` and `stress_tolerance = 0` is the
Drucker-Prager material without viscosity (and without softening, see `C95_druckerPrager`): the runs end in the same way,
after the same steps, with the same files, and in the files and at the end all particles have the same positions,
velocities, deformation gradients, stresses and accumulated plastic strains; only the saved rate, viscosity and friction
coefficient can differ, and the accumulated volume if `use_pradhana` is off. -/
theorem C128_run (ok : MatOk m (d + 2)) (hM : 0 < m.M) (hI : 0 ≤ m.iRef) (hgrain : 0 < m.grainDiameter) (hrho : 0 < m.rhoS)
    (hmin : 0 < R.C.minDt) (hR : ∀ k ps, (R.sched k ps).flatten.Perm ps) (hmi : R.S.P.useMibf = false) :
    (runProgram (withMaterial R (muiDP m)) i e fuel s).map (bareWorld m.usePradhana) id =
      (runProgram (withMaterial R (inviscidDP m)) i e fuel s).map (bareWorld m.usePradhana) id := by
  have hQ : 0 ≤ m.facQ := by unfold Material.facQ; positivity
  by_cases ha : accepted i m.elastic .dpVisc e = true
  swap
  · have h1 : runProgram (withMaterial R (muiDP m)) i e fuel s = .refused s := if_neg ha
    have h2 : runProgram (withMaterial R (inviscidDP m)) i e fuel s = .refused s := if_neg ha
    rw [h1, h2]
  rw [bareWorld_eq]
  have H1 : ∀ dt, KeptSame ⟨true, true, m.usePradhana, false⟩ (withMaterial R (muiDP m)) (withMaterial R (muiDP m)) dt :=
    fun dt q q' h => mui_self h
  have H2 : ∀ dt, KeptSame ⟨true, true, m.usePradhana, false⟩ (withMaterial R (inviscidDP m)) (withMaterial R (inviscidDP m)) dt :=
    fun dt q q' h => visc_self h
  have hmi' : ∀ m', (withMaterial R m').S.P.useMibf = true → (⟨true, true, m.usePradhana, false⟩ : Keep).mu = true :=
    fun m' h => absurd (hmi.symm.trans h) (by decide)
  have hf : ∀ m', ({ s with w := fillMuI m' (withMaterial R m').S.P.useMibf s.w } : LoopState (d + 2) (World (d + 2))) = s := by
    intro m'
    have : (withMaterial R m').S.P.useMibf = false := hmi
    rw [this]
    rfl
  have h1 := run_kept (R := withMaterial R (muiDP m)) (s := s) (fuel := fuel) hR (hmi' _) H1 ha
  have h2 := run_kept (R := withMaterial R (inviscidDP m)) (s := s) (fuel := fuel) hR (hmi' _) H2 ha
  have e1 := hf (muiDP m)
  have e2 := hf (inviscidDP m)
  have k1 : (withMaterial R (muiDP m)).m = muiDP m := rfl
  have k2 : (withMaterial R (inviscidDP m)).m = inviscidDP m := rfl
  rw [k1, e1] at h1
  rw [k2, e2] at h2
  rw [h1, h2]
  refine loop_congr (C := R.C) (gf := s.gravity) (ph := keptPhysics ⟨true, true, m.usePradhana, false⟩ (withMaterial R (inviscidDP m)))
    (ph' := keptPhysics ⟨true, true, m.usePradhana, false⟩ (withMaterial R (muiDP m)))
    (s0 := (startState R.C s).map (keptWorld ⟨true, true, m.usePradhana, false⟩) id) (fun w => rfl)
    (fun k s1 hr hf dt g hu => ?_) fuel 0 _ .start
  have hdt : 0 < dt := lt_of_lt_of_le hmin (updateDt_ge hu)
  exact physStep_kept (κ := ⟨true, true, m.usePradhana, false⟩) (R := withMaterial R (inviscidDP m)) (m' := muiDP m) hR (hmi' _)
    (fun q q' h => (mui_visc ok hQ hM.ne' hdt).trans (visc_self h)) rfl g _ _

end run

end
end Verif.Props
