import Verif.Props.Input
import Verif.Props.Mui

set_option linter.unusedSectionVars false
set_option linter.unusedSimpArgs false
set_option linter.unusedVariables false

/-!
# C89: the strength parameters of the input file mean what they say

The members a user sets before calling `simulate` (`q_max`, `M`, `q_cohesion`, `mu_1`, `mu_2`, `xi`, ...) bound the
stresses in the particle files. All formulas are spelled out in these members.
-/

namespace Verif.Props
open Verif Matrix
noncomputable section
variable {d : ℕ} {s : Sim (d + 2)} {b : Build (d + 2)} {fuel : ℕ}

/-- An elastic solid in 2D or 3D, and a correct singular value decomposition. -/
structure Solid (s : Sim (d + 2)) (b : Build (d + 2)) : Prop where
  dim : d = 0 ∨ d = 1
  hE : 0 < s.E
  nu1 : -1 < s.nu
  nu2 : s.nu < 1 / 2
  hq : 0 < s.qPrefac
  hel : s.elasticModel = .hencky
  svd : ∀ F, IsSvd F (b.svd F)
  minDt : 0 < s.minDt

lemma Solid.ok (h : Solid s b) (dx m vol : ℝ) : MatOk (s.setup b (Nat.succ_pos _) dx m vol).m (d + 2) :=
  MatOk.of_elastic (by have := h.dim; omega) h.hE h.nu1 h.nu2 h.hq h.hel

lemma forall₂_right {α β : Type*} {R : α → β → Prop} {l : List α} {l' : List β} (h : List.Forall₂ R l l') :
    ∀ p ∈ l', ∃ q ∈ l, R q p := by
  induction h with
  | nil => simp
  | cons h1 _ ih =>
    intro p hp
    rcases List.mem_cons.mp hp with rfl | hp
    · exact ⟨_, by simp, h1⟩
    · obtain ⟨q, hq, h⟩ := ih p hp
      exact ⟨q, by simp [hq], h⟩

/-- `saved_history` for a simulation object. -/
lemma sim_history (hb : Solid s b) {P : Particle (d + 2) ℝ → Prop}
    {Rel : Particle (d + 2) ℝ → Particle (d + 2) ℝ → Prop} (hP : ∀ p x, P p → P { p with muI := x })
    (hini : ∀ p ∈ s.particles, P p)
    (hstep : ∀ dx m vol dt p p', 0 < dt → P p → PlasticStep (s.setup b (Nat.succ_pos _) dx m vol) dt p p' →
      P p' ∧ Rel p p')
    {n : ℕ} {t : ℝ} {w : World (d + 2)} (hev : .particles n t w ∈ filesOf (s.simulate b fuel)) (hn : n ≠ 0) :
    ∀ p ∈ w.ps, ∃ p0, Rel p0 p := by
  obtain ⟨dx, m, vol, -, -, -, hev⟩ := sim_files hev
  rcases saved_history (R := s.setup b (Nat.succ_pos _) dx m vol) hb.minDt
    (begin_keeps hP hini) (hstep dx m vol) hev
    (by simp [Sim.fresh]) with ⟨h, -⟩ | ⟨s1, dt, g, -, h⟩
  · exact absurd h hn
  · exact fun p hp => (forall₂_right h p hp).imp fun _ h => h.2

/-- **C89** Von Mises: `q_max` bounds the shear stress. -/
theorem C89_vonMises (hb : Solid s b) (hm : s.plasticModel = .vm) (hq : 0 ≤ s.qMax) {n : ℕ} {t : ℝ}
    {w : World (d + 2)} (hev : .particles n t w ∈ filesOf (s.simulate b fuel)) (hn : n ≠ 0) :
    ∀ p ∈ w.ps, savedQ s.qPrefac p.tau ≤ s.qMax := by
  obtain ⟨dx, m, vol, -, -, -, hev⟩ := sim_files hev
  rcases C56_vonMises (hb.ok dx m vol) hm hq hb.svd hev (by simp [Sim.fresh]) with ⟨h, -⟩ | h
  · exact absurd h hn
  · exact fun p hp => (h p hp).1

/-- **C89** Drucker-Prager: `M` is the slope of the yield line, `q_cohesion` its value at zero pressure; no tension
beyond `q_cohesion / M`. -/
theorem C89_druckerPrager (hb : Solid s b) (hm : s.plasticModel = .dp) (hM : 0 < s.M) (hc : 0 ≤ s.qCohesion) {n : ℕ}
    {t : ℝ} {w : World (d + 2)} (hev : .particles n t w ∈ filesOf (s.simulate b fuel)) (hn : n ≠ 0) :
    ∀ p ∈ w.ps, savedQ s.qPrefac p.tau ≤ s.M * savedP p.tau + s.qCohesion ∧ -s.qCohesion / s.M ≤ savedP p.tau := by
  obtain ⟨dx, m, vol, -, -, -, hev⟩ := sim_files hev
  rcases C56_druckerPrager (hb.ok dx m vol) hm hM hc hb.svd hev (by simp [Sim.fresh]) with ⟨h, -⟩ | h
  · exact absurd h hn
  · exact fun p hp => ⟨(h p hp).1, (h p hp).2.1⟩

/-- **C89** Drucker-Prager with softening: as before with the cohesion `q_cohesion * exp(-xi e)`, where `e` is a plastic
shear strain not above that in the file, and not below `e0` if no particle began with less. -/
theorem C89_softening (hb : Solid s b) (hm : s.plasticModel = .dpSoft) (hM : 0 < s.M) (hc : 0 ≤ s.qCohesion)
    (hxi : 0 ≤ s.xi) {e0 : ℝ} (hini : ∀ p ∈ s.particles, 0 ≤ p.epsPlVolPradhana ∧ e0 ≤ p.epsPlDev) {n : ℕ} {t : ℝ}
    {w : World (d + 2)} (hev : .particles n t w ∈ filesOf (s.simulate b fuel)) (hn : n ≠ 0) :
    ∀ p ∈ w.ps, ∃ e, e0 ≤ e ∧ e ≤ p.epsPlDev ∧
      savedQ s.qPrefac p.tau ≤ s.M * savedP p.tau + s.qCohesion * Real.exp (-s.xi * e) ∧
      -(s.qCohesion * Real.exp (-s.xi * e)) / s.M ≤ savedP p.tau := by
  have := sim_history hb (P := fun p => 0 ≤ p.epsPlVolPradhana ∧ e0 ≤ p.epsPlDev) (Rel := fun p0 p => e0 ≤ p0.epsPlDev ∧
    ∃ eps, p0.epsPlDev ≤ eps ∧ eps ≤ p.epsPlDev ∧
        savedQ s.material.qPrefac p.tau ≤ s.material.M * savedP p.tau + softCohesion s.material eps ∧
        -softCohesion s.material eps / s.material.M ≤ savedP p.tau) (fun p x h => h) hini
    (fun dx m vol dt p p' hdt hP h => by
      obtain ⟨a1, -, e, a2, a3, a4⟩ := softening_step (hb.ok dx m vol) hm hM hc hxi hb.svd hP.1 h
      exact ⟨⟨a1, hP.2.trans (a2.trans a3)⟩, hP.2, e, a2, a3, a4⟩) hev hn
  intro p hp
  obtain ⟨p0, h0, e, h1, h2, h3⟩ := this p hp
  exact ⟨e, h0.trans h1, h2, h3⟩

/-- Away from the tip the mu(I) model resets the volume correction. -/
lemma mui_volume {n : ℕ} {cabs : ℝ → ℝ} {svd : Matrix (Fin n) (Fin n) ℝ → Svd n} {m : Material} (ok : MatOk m n)
    (hm : m.plastic = .dpMui) {q : Particle n ℝ} (hs : IsSvd q.F (svd q.F)) {dt : ℝ}
    (htip : -m.qCohesion / m.mu1 ≤ trialP m (svd q.F) + pressureShift m n q) {out : PState n}
    (ho : plasticity cabs svd m dt q false = some out) : out.q.epsPlVolPradhana = 0 := by
  obtain ⟨st, h1, h2⟩ := plasticity_some.mp ho
  have e : out.q.epsPlVolPradhana = st.q.epsPlVolPradhana := by rw [h2]
  simp only [plastModel, hm, Option.some.injEq] at h1
  obtain ⟨e1, e2⟩ := trial_eq ok hs
  have hn : ¬ -m.K n * (mkTrial (svd q.F).hencky).trace +
      (if m.usePradhana = true then -m.K n * q.epsPlVolPradhana else 0) < -m.qCohesion / m.mu1 := by
    rw [← e1]; exact not_lt.mpr htip
  rw [e, ← h1]
  simp only [plastDPMui]
  rw [if_neg hn]
  split_ifs <;> rfl

/-- The mu(I) law: friction for the shear rate `rate` at the effective pressure `ps`. -/
def muiLaw (s : Sim d) (ps rate : ℝ) : ℝ :=
  s.mu1 + (s.mu2 - s.mu1) / (s.iRef / (rate * s.grainDiameter / √(ps / s.rhoS)) + 1)

/-- The stress of the particle `p` in a file obeys the mu(I) rheology with the parameters of `s`. -/
def ObeysMuI (s : Sim d) (p : Particle d ℝ) : Prop :=
  -s.qCohesion / s.mu1 ≤ savedP p.tau ∧ s.mu1 ≤ p.muI ∧ p.muI < s.mu2 ∧
    ∃ S ≤ 0, (s.usePradhana = false → S = 0) ∧
      (p.muI = s.mu1 ∧ (savedQ s.qPrefac p.tau ≤ s.mu1 * (savedP p.tau + S) + s.qCohesion + s.stressTolerance ∨
          savedQ s.qPrefac p.tau = 0 ∨ savedP p.tau + S = -s.qCohesion / s.mu1) ∨
        0 < p.deltaGamma ∧
          p.muI = muiLaw s (savedP p.tau + S + s.qCohesion / s.mu1 + s.stressTolerance) p.deltaGamma ∧
          (0 ≤ savedP p.tau → savedQ s.qPrefac p.tau =
            s.mu1 * (savedP p.tau + S) + s.qCohesion + (p.muI - s.mu1) * savedP p.tau))

/-- **C89** mu(I) rheology: `mu_1` and `mu_2` bound the friction coefficient of a particle. It is `mu_1` while the shear
stress is below the static yield line (or the particle is at its tip), and otherwise follows the mu(I) law with reference
number `I_ref`, grain diameter and grain density at the saved shear rate; the shear stress is then the static one plus
what the law adds. `S` is the pressure shift of the volume correction. -/
theorem C89_muI (hb : Solid s b) (hm : s.plasticModel = .dpMui) (hmu : 0 < s.mu1) (h12 : s.mu1 < s.mu2)
    (hI : 0 < s.iRef) (hg : 0 < s.grainDiameter) (hr : 0 < s.rhoS) (hc : 0 ≤ s.qCohesion) (htol : 0 ≤ s.stressTolerance)
    (hini : ∀ p ∈ s.particles, 0 ≤ p.epsPlVolPradhana) {n : ℕ} {t : ℝ}
    {w : World (d + 2)} (hev : .particles n t w ∈ filesOf (s.simulate b fuel)) (hn : n ≠ 0) :
    ∀ p ∈ w.ps, ObeysMuI s p := by
  intro p hp
  have hfq : 0 < s.material.facQ := by
    unfold Material.facQ
    exact div_pos hI (mul_pos hg (Real.sqrt_pos.mpr hr))
  refine (sim_history hb (P := fun p => 0 ≤ p.epsPlVolPradhana) (Rel := fun _ p => ObeysMuI s p) (fun p x h => h) hini
    (fun dx m vol dt p p' hdt hP h => ?_) hev hn p hp).choose_spec
  have ok := hb.ok dx m vol
  obtain ⟨q, out, x, vv, ⟨_, _, _, _, _, _, hq⟩, ho, hx, rfl⟩ := h
  have hq0 : 0 ≤ q.epsPlVolPradhana := by rw [hq]; exact hP
  have hle : pressureShift s.material (d + 2) q ≤ 0 := shift_nonpos ok.hK hq0
  have htipeq : s.mu1 * (-s.qCohesion / s.mu1) = -s.qCohesion := by field_simp
  have hS0 : s.usePradhana = false → pressureShift s.material (d + 2) q = 0 := by
    intro hu; simp [pressureShift, Sim.material, hu]
  by_cases hcase : trialP s.material (b.svd q.F) + pressureShift s.material (d + 2) q ≤ -s.qCohesion / s.mu1 ∨
      trialQ s.material (b.svd q.F) ≤ s.mu1 * (trialP s.material (b.svd q.F) + pressureShift s.material (d + 2) q) +
        s.qCohesion + s.stressTolerance
  · obtain ⟨out', h', a1, -, a2, a3, -⟩ := C39_other (cabs := b.cabs) ok hm dt q false (hb.svd q.F) rfl rfl rfl rfl hcase
    have := h'.symm.trans ho
    obtain rfl := Option.some.inj this
    rcases lt_or_ge (trialP s.material (b.svd q.F) + pressureShift s.material (d + 2) q) (-s.qCohesion / s.mu1) with h1 | h1
    · obtain ⟨b1, b2, -, b3⟩ := a2 h1
      refine ⟨?_, b1.ge, a1.ge, lt_of_eq_of_lt a1 h12, _, hle, hS0, .inl ⟨a1, .inr (.inl b2)⟩⟩
      show 0 ≤ out'.q.epsPlVolPradhana
      rw [b3, b1]; exact pradhana_tip ok.hK hq0 h1.le
    · obtain ⟨-, b1, -, b3⟩ := a3 h1
      obtain ⟨e1, e2⟩ := trial_eq ok (hb.svd q.F)
      have hp : savedP out'.q.tau = trialP s.material (b.svd q.F) ∧
          savedQ s.qPrefac out'.q.tau = trialQ s.material (b.svd q.F) := by
        rw [b1]
        simp only [elasticTau_eq (hb.svd q.F)]
        exact ⟨(saved_trial' ok (hb.svd q.F).orthU (t := mkTrial (b.svd q.F).hencky) _ rfl).1.trans e1.symm,
          (saved_trial' ok (hb.svd q.F).orthU (t := mkTrial (b.svd q.F).hencky) _ rfl).2.trans e2.symm⟩
      refine ⟨b3.ge, ?_, a1.ge, lt_of_eq_of_lt a1 h12, _, hle, hS0, .inl ⟨a1, ?_⟩⟩
      · show _ ≤ savedP out'.q.tau
        rw [hp.1]; linarith
      · show savedQ s.qPrefac out'.q.tau ≤ s.mu1 * (savedP out'.q.tau + _) + _ + _ ∨ savedQ s.qPrefac out'.q.tau = 0 ∨
          savedP out'.q.tau + _ = _
        rw [hp.1, hp.2]
        rcases hcase with hcase | hcase
        · exact .inr (.inr (le_antisymm hcase h1))
        · exact .inl hcase
  · push Not at hcase
    obtain ⟨out', h', a1, a0, a2, a3, a4, -, -, ⟨qn, -, a5, a6, a7, -⟩, -⟩ := C39_muI (cabs := b.cabs) ok hm hmu h12 hfq hc
      htol hdt q false (hb.svd q.F) rfl rfl rfl rfl rfl hcase.1 hcase.2
    have := h'.symm.trans ho
    obtain rfl := Option.some.inj this
    simp only [newP, newQ] at a1 a5 a7
    have h0 := mui_volume (m := s.material) ok hm (hb.svd q.F) hcase.1.le ho
    refine ⟨h0.ge, ?_, a3.le, a4, _, hle, hS0, .inr ⟨a0, ?_, fun hp => ?_⟩⟩
    · exact (by linarith [hcase.1] : -s.qCohesion / s.mu1 ≤ trialP s.material (b.svd q.F)).trans_eq a1.symm
    · refine a2.trans ?_
      show muOfRate s.material _ _ = muiLaw s (savedP out'.q.tau + _ + _ + _) out'.q.deltaGamma
      rw [a1]
      simp only [muOfRate, muiLaw, inertialNumber, Sim.setup, Sim.material, neg_div, sub_neg_eq_add]
    · have hp' : 0 ≤ trialP s.material (b.svd q.F) := hp.trans_eq a1
      obtain ⟨b1, b2⟩ := a7 hp'
      refine b2.trans (a6.trans ?_)
      show _ = s.mu1 * (savedP out'.q.tau + _) + _ + (out'.q.muI - s.mu1) * savedP out'.q.tau
      rw [a1]
      simp only [Sim.setup, Sim.material]
      ring

/-- **C89** Viscous Drucker-Prager with exponent one: `M` and `q_cohesion` as before, above the yield line the stress is
that of the shear rate in the file with `visc_time` (for the Duvaut-Lions form times the shear modulus). -/
theorem C89_viscousDruckerPrager (hb : Solid s b) (hm : s.plasticModel = .dpVisc) (hx : s.viscExponent = 1)
    (hM : 0 < s.M) (hc : 0 ≤ s.qCohesion) (hτ : 0 ≤ s.viscTime) (hu : s.usePradhana = false) {n : ℕ} {t : ℝ}
    (hini : ∀ p ∈ s.particles, 0 ≤ p.epsPlVolPradhana)
    {w : World (d + 2)} (hev : .particles n t w ∈ filesOf (s.simulate b fuel)) (hn : n ≠ 0) :
    ∀ p ∈ w.ps, -s.qCohesion / s.M ≤ savedP p.tau ∧ (-s.qCohesion / s.M < savedP p.tau → ∀ y,
      y = s.M * savedP p.tau + s.qCohesion → savedQ s.qPrefac p.tau ≤ y ∨ 0 < p.deltaGamma ∧
        savedQ s.qPrefac p.tau =
          if s.useDuvautLions then y + 2 * s.qPrefac ^ 2 * (s.E / (2 * (1 + s.nu))) * s.viscTime * p.deltaGamma
          else y * (1 + s.viscTime * p.deltaGamma)) := by
  obtain ⟨dx, m, vol, -, -, -, hev⟩ := sim_files hev
  rcases C71_viscousDruckerPrager_bound_partial ⟨hb.ok dx m vol, hm, hx, hM, hc, hτ⟩ hb.svd hb.minDt hini hev
    (by simp [Sim.fresh]) with ⟨h, -⟩ | h
  · exact absurd h hn
  · rintro p hp
    obtain ⟨h1, h2⟩ := h p hp
    refine ⟨h1, fun hlt y hy => ?_⟩
    rcases h2 hu hlt with h3 | ⟨h3, h4⟩
    · exact .inl (by rw [hy]; exact h3)
    · refine .inr ⟨h3, h4.trans ?_⟩
      subst hy
      show (if s.useDuvautLions = true then s.M * savedP p.tau + s.qCohesion + 2 * s.qPrefac * s.qPrefac *
        (s.E / (2 * (1 + s.nu))) * s.viscTime * p.deltaGamma else _) = _
      by_cases hD : s.useDuvautLions = true
      · rw [if_pos hD, if_pos hD]; ring
      · rw [if_neg hD, if_neg hD]; rfl

/-- Pre-consolidation pressure of the hardening laws which are integrated implicitly or constant. -/
def consolidation (s : Sim d) (K eps : ℝ) : ℝ :=
  match s.hardeningLaw with
  | .expoImpl => s.p0 * Real.exp (-s.xi * eps)
  | .sinhImpl => max 0.01 (K * Real.sinh (-s.xi * eps + Real.arsinh (s.p0 / K)))
  | _ => s.p0

/-- **C89** Modified Cam-Clay: a sheared particle is inside the ellipse of slope `M` from `-beta pc` to `pc`, where `pc`
is the consolidation pressure of the plastic volume strain in the file; it begins at `p0`. -/
theorem C89_camClay (hb : Solid s b) (hm : s.plasticModel = .mcc) (hM : 0 ≤ s.M) (hbeta : 0 ≤ s.beta) (hp0 : 0 < s.p0)
    (htol : 0 < s.stressTolerance)
    (hl : s.hardeningLaw = .noHard ∨ s.hardeningLaw = .expoImpl ∨ s.hardeningLaw = .sinhImpl) {n : ℕ} {t : ℝ}
    {w : World (d + 2)} (hev : .particles n t w ∈ filesOf (s.simulate b fuel)) (hn : n ≠ 0) :
    ∀ p ∈ w.ps, ∀ K pc, K = s.E / (2 * (1 + s.nu)) * (2 / ↑(d + 2)) + s.nu * s.E / ((1 + s.nu) * (1 - 2 * s.nu)) →
      pc = consolidation s K p.epsPlVol →
      savedQ s.qPrefac p.tau ≠ 0 ∨ s.hardeningLaw = .noHard →
      savedQ s.qPrefac p.tau ^ 2 ≤ s.M ^ 2 * (pc - savedP p.tau) * (savedP p.tau + s.beta * pc) := by
  obtain ⟨dx, m, vol, -, -, -, hev⟩ := sim_files hev
  rcases C71_camClay (hb.ok dx m vol) ⟨hbeta, hp0, htol⟩ hm hM hb.svd hb.minDt hev (by simp [Sim.fresh]) with
    ⟨h, -⟩ | ⟨s1, dt, g, -, h⟩
  · exact absurd h hn
  · rintro p hp K pc hK hpc hne
    obtain ⟨q, -, -, h | h⟩ := forall₂_right h p hp
    · obtain ⟨pc', h1, h2⟩ := h
      have hpc' : pc' = pc := by
        have hK' : s.material.K (d + 2) = K := by
          rw [hK]; simp only [Material.K, Material.lam, Material.mu, Sim.material]; ring
        rcases h1 with ⟨h1, h3⟩ | ⟨h1, h3⟩ <;> rcases hl with hl | hl | hl <;>
          simp only [Sim.setup, Sim.material, isImplicit, hl, Bool.false_eq_true, Bool.true_eq_false] at h3 <;>
          rw [h1, hpc] <;> simp only [hardeningPc, consolidation, Sim.setup, show s.material.hardening = _ from hl, hl] <;>
          first | rfl | (rw [hK']; rfl)
      rw [← hpc']
      have : ¬ 0 < s.M * s.M * (savedP p.tau - pc') * (savedP p.tau + s.beta * pc') + savedQ s.qPrefac p.tau *
        savedQ s.qPrefac p.tau := h2
      nlinarith
    · obtain ⟨h1, pc', -, h2, -⟩ := h
      rcases hne with hne | hne
      · exact absurd h2 hne
      · simp [Sim.setup, Sim.material, isImplicit, hne] at h1

/-- **C89** Viscous von Mises: `q_max` is the yield stress of the virgin material, `q_min` that after much shearing, `xi` the
rate between them in terms of the plastic shear strain in the file. A particle above the tension cutoff
`p_min exp(-xi eps_vol)` is below this yield stress, or satisfies the viscous flow law with `visc_time` and
`visc_exponent` at the shear rate in the file, up to 0.01. -/
theorem C89_viscousVonMises (hb : Solid s b) (hm : s.plasticModel = .vmVisc) (hx : 0 ≤ s.viscExponent)
    (hτ : 0 ≤ s.viscTime) (hmin : 0 ≤ s.qMin) (hmax : s.qMin ≤ s.qMax) (hpm : s.pMin ≤ 0) (hxi : 0 ≤ s.xi) {n : ℕ} {t : ℝ}
    {w : World (d + 2)} (hev : .particles n t w ∈ filesOf (s.simulate b fuel)) (hn : n ≠ 0) :
    ∀ p ∈ w.ps, ∀ Y, Y = s.qMin + (s.qMax - s.qMin) * Real.exp (-s.xi * p.epsPlDev) →
      s.pMin * Real.exp (-s.xi * p.epsPlVol) ≤ savedP p.tau →
      savedQ s.qPrefac p.tau ≤ Y ∨ 0 ≤ p.deltaGamma ∧ ∃ q, savedQ s.qPrefac p.tau = |q| ∧ (1e-2 ≤ Y → q = |q|) ∧
        |if s.useDuvautLions then
            q - Y - 2 * s.qPrefac ^ 2 * (s.E / (2 * (1 + s.nu))) * (s.viscTime * p.deltaGamma) ^ s.viscExponent
          else q * (1 / (1 + s.viscTime * p.deltaGamma)) ^ s.viscExponent - Y| < 1e-2 := by
  obtain ⟨dx, m, vol, -, -, -, hev⟩ := sim_files hev
  have ok : MatOk s.material (d + 2) := hb.ok dx m vol
  have key := saved_particle (R := s.setup b (Nat.succ_pos _) dx m vol) (P := fun p =>
    s.pMin * Real.exp (-s.xi * p.epsPlVol) ≤ savedP p.tau → savedQ s.qPrefac p.tau ≤ vmYield s.material p.epsPlDev ∨
      0 ≤ p.deltaGamma ∧ ∃ q, savedQ s.qPrefac p.tau = |q| ∧ (1e-2 ≤ vmYield s.material p.epsPlDev → q = |q|) ∧
        |flowResidual s.material (vmYield s.material p.epsPlDev) q p.deltaGamma| < 1e-2)
    (fun p x v h => h) (fun dt q r hdt h hr => ?_) hev (by simp [Sim.fresh])
  · rcases key with ⟨h, -⟩ | key
    · exact absurd h hn
    rintro p hp Y rfl hcap
    rcases key p hp hcap with h | ⟨h1, q, h2, h3, h4⟩
    · exact .inl h
    · refine .inr ⟨h1, q, h2, h3, ?_⟩
      refine lt_of_eq_of_lt ?_ h4
      congr 1
      show _ = if s.useDuvautLions = true then q - (s.qMin + (s.qMax - s.qMin) * Real.exp (-s.xi * p.epsPlDev)) -
        2 * s.qPrefac * s.qPrefac * (s.E / (2 * (1 + s.nu))) * (s.viscTime * p.deltaGamma) ^ s.viscExponent else _
      by_cases hD : s.useDuvautLions = true
      · rw [if_pos hD, if_pos hD]; ring
      · rw [if_neg hD, if_neg hD]; rfl
  · have hdt0 : 0 < dt := hb.minDt.trans_le hdt
    obtain ⟨out, ho, rfl⟩ := plasticUpdate_some h
    have ho : plasticity b.cabs b.svd s.material dt q false = some out := ho
    have hm : s.material.plastic = .vmVisc := hm
    intro hp
    obtain ⟨e1, e2⟩ := trial_eq ok (hb.svd q.F)
    have hy0 : ∀ e, 0 ≤ vmYield s.material e := fun e => by
      show 0 ≤ s.qMin + (s.qMax - s.qMin) * Real.exp (-s.xi * e)
      have := mul_nonneg (sub_nonneg.mpr hmax) (Real.exp_pos (-s.xi * e)).le
      linarith
    have hcap : s.pMin * Real.exp (-s.xi * q.epsPlVol) ≤ trialP s.material (b.svd q.F) := by
      by_contra hlt
      push Not at hlt
      have e1' : trialP s.material (b.svd q.F) = -s.material.K (d + 2) * (mkTrial (b.svd q.F).hencky).trace := e1
      have hneg : trialP s.material (b.svd q.F) < 0 :=
        hlt.trans_le (mul_nonpos_of_nonpos_of_nonneg hpm (Real.exp_pos _).le)
      obtain ⟨st, h1, h2⟩ := plasticity_some.mp ho
      simp only [plastModel, hm, plastVMVisc] at h1
      rw [if_pos (show -s.material.K (d + 2) * (mkTrial (b.svd q.F).hencky).trace <
        s.material.pMin * Real.exp (-s.material.xi * q.epsPlVol) by rw [← e1']; exact hlt)] at h1
      have hP : savedP out.q.tau = trialP s.material (b.svd q.F) := by
        rw [h2, ← Option.some.inj h1, e1']
        simp only [newTau_hencky ok.hel]
        exact (saved_trial' ok (hb.svd q.F).orthU (t := mkTrial (b.svd q.F).hencky) _ rfl).1
      have hE : q.epsPlVol ≤ out.q.epsPlVol := by
        rw [h2, ← Option.some.inj h1]
        show q.epsPlVol ≤ q.epsPlVol + -(-s.material.K (d + 2) * (mkTrial (b.svd q.F).hencky).trace) / s.material.K (d + 2)
        rw [← e1']
        have := div_pos (neg_pos.mpr hneg) ok.hK
        have h3 : 0 < -trialP s.material (b.svd q.F) / s.material.K (d + 2) := this
        linarith
      have hexp : Real.exp (-s.xi * out.q.epsPlVol) ≤ Real.exp (-s.xi * q.epsPlVol) := by
        apply Real.exp_le_exp.mpr
        have := mul_le_mul_of_nonneg_left hE hxi
        linarith
      have := mul_le_mul_of_nonpos_left hexp hpm
      have hp' : s.pMin * Real.exp (-s.xi * out.q.epsPlVol) ≤ savedP out.q.tau := hp
      rw [hP] at hp'
      linarith
    rcases le_or_gt (trialQ s.material (b.svd q.F)) (vmYield s.material q.epsPlDev) with h1 | h1
    · left
      obtain ⟨st, h2, h3⟩ := plasticity_some.mp ho
      simp only [plastModel, hm, plastVMVisc] at h2
      rw [if_neg (show ¬ -s.material.K (d + 2) * (mkTrial (b.svd q.F).hencky).trace <
          s.material.pMin * Real.exp (-s.material.xi * q.epsPlVol) from not_lt.mpr (hcap.trans_eq e1)),
        if_neg (show ¬ s.material.eMu * (mkTrial (b.svd q.F).hencky).norm >
          s.material.qMin + (s.material.qMax - s.material.qMin) * Real.exp (-s.material.xi * q.epsPlDev) from not_lt.mpr (e2.symm.trans_le h1))] at h2
      show savedQ s.qPrefac out.q.tau ≤ vmYield s.material out.q.epsPlDev
      have hq : savedQ s.qPrefac out.q.tau = trialQ s.material (b.svd q.F) := by
        rw [h3, ← Option.some.inj h2]
        simp only [newTau_hencky ok.hel]
        exact (saved_trial' ok (hb.svd q.F).orthU (t := mkTrial (b.svd q.F).hencky) _ rfl).2.trans e2.symm
      have hee : out.q.epsPlDev = q.epsPlDev := by rw [h3, ← Option.some.inj h2]
      rw [hq, hee]; exact h1
    right
    by_cases hcl : s.viscExponent = 1 ∧ s.xi = 0
    · obtain ⟨hx1, hx0⟩ := hcl
      have hY : ∀ e, vmYield s.material e = s.qMax := fun e => by
        show s.qMin + (s.qMax - s.qMin) * Real.exp (-s.xi * e) = _
        rw [hx0]; simp
      have hcap' : s.pMin ≤ trialP s.material (b.svd q.F) := by rw [hx0] at hcap; simpa using hcap
      rw [hY] at h1
      obtain ⟨out', h', a1, a2, a3, -⟩ := C37_viscousVonMises (cabs := b.cabs) ok hm hx1 hx0 (hmin.trans hmax) hτ hdt0 q
        false (hb.svd q.F) hcap'
      have := h'.symm.trans ho
      obtain rfl := Option.some.inj this
      obtain ⟨b1, b2, b3, b4, -⟩ := a3 h1
      have hg : 0 < out'.q.deltaGamma := by
        have h3 : 0 < s.material.fMu * (out'.q.deltaGamma * dt) := b3 ▸ sub_pos.mpr b2
        exact (mul_pos_iff_of_pos_right hdt0).mp ((mul_pos_iff_of_pos_left ok.fMu_pos).mp h3)
      have hnn : 0 ≤ newQ s.material out' := (hmin.trans hmax).trans b1
      refine ⟨hg.le, newQ s.material out', (abs_of_nonneg hnn).symm, fun _ => (abs_of_nonneg hnn).symm, ?_⟩
      show |flowResidual s.material (vmYield s.material out'.q.epsPlDev) (newQ s.material out') out'.q.deltaGamma| < 1e-2
      have : flowResidual s.material (vmYield s.material out'.q.epsPlDev) (newQ s.material out') out'.q.deltaGamma = 0 := by
        have hx1' : s.material.viscExponent = 1 := hx1
        have hpos : 0 < 1 + s.material.viscTime * out'.q.deltaGamma := by
          have : 0 ≤ s.material.viscTime * out'.q.deltaGamma := mul_nonneg hτ hg.le
          linarith
        have b4' : FlowEq s.material s.material.qMax (newQ s.material out') out'.q.deltaGamma := b4
        rw [hY, flowResidual, hx1', Real.rpow_one, Real.rpow_one]
        unfold FlowEq at b4'
        by_cases hD : s.material.useDuvautLions = true
        · rw [if_pos hD] at b4' ⊢
          rw [b4']; show s.qMax + _ - s.qMax - _ = 0; ring
        · rw [if_neg hD] at b4' ⊢
          rw [b4']; show s.qMax * _ * _ - s.qMax = 0; field_simp; ring
      rw [this]; norm_num
    · obtain ⟨-, a1, -, -, qn, -, a3, a4, a5⟩ := C51_vonMises ok hm hcl hx hτ hdt0 q false (hb.svd q.F) hcap (hy0 _) h1 ho hr
      refine ⟨a1, qn, a3, fun h => ?_, a4⟩
      have := (a5 h).1
      exact this.symm.trans a3

end
end Verif.Props
