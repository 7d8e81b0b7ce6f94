import Verif.Props.FreeFall
import Verif.Props.Order
import Verif.Props.Shift
import Verif.Props.Bookkeeping
import Verif.Props.PeriodicRun
import Verif.Props.WallMomentum
import Verif.Props.Containment
import Verif.Props.Yield
import Verif.Lemmas.Svd
import Verif.Lemmas.PlasticEx

set_option linter.unusedSectionVars false
set_option linter.unusedSimpArgs false
set_option linter.unusedVariables false

/-!
# Concrete runs meeting the hypotheses of C56 - C61
-/

namespace Verif.Props.RunEx
open Verif Matrix
noncomputable section

/-- `n` frames of length 1, minimal step 1/10. -/
def cfg (n : ℕ) : TimeConfig 2 := { exConfig (1 / 10) n with gravitySpecial := false }

/-- A von Mises material, quadratic splines, spacing 1, AFLIP, with or without MUSL, no walls. -/
def setup (musl : Bool) (n : ℕ) (pm : PlasticModel) : Setup 2 where
  C := cfg n
  S := ⟨mkTransferParams .two 1 (-19 / 20) false 3 1, musl, false, false, 1, none⟩
  m := Ex.mat pm
  objs := []
  ops := plateOps2
  cabs := abs
  svd := someSvd
  sched := fun _ ps => [ps]

/-- A new simulation with the given particles, gravity and plates. -/
def start (ps : List (Particle 2 ℝ)) (g : Fin 2 → ℝ) (pl : List (Plate 2) := []) : LoopState 2 (World 2) :=
  ⟨⟨ps, none, fun _ => [], pl, fun _ => 0, fun _ => 0, fun _ => 0⟩, 0, 0, 0, g, []⟩

/-- Two particles at rest, one of them rotated by 90 degrees. -/
def pair : List (Particle 2 ℝ) :=
  [Particle.init, { Particle.init with x := ![1, 0], F := !![0, -1; 1, 0] }]

/-- A particle at rest, stretched far beyond yield. -/
def stretched : List (Particle 2 ℝ) :=
  [{ Particle.init with x := ![1 / 3, 0], F := diagonal ![Real.exp 1, Real.exp (-1)] }]

lemma N2_int (k : ℤ) : N2 (k : ℝ) = 0 ∨ 1 / 8 ≤ N2 (k : ℝ) := by
  rcases lt_trichotomy k 0 with h | h | h
  · rcases eq_or_lt_of_le (show k ≤ -1 by omega) with h | h
    · subst h; right; norm_num [N2, abs_of_nonneg]
    · left
      have : (k : ℝ) ≤ -2 := by exact_mod_cast (show k ≤ -2 by omega)
      simp only [N2, abs_of_nonpos (show (k : ℝ) ≤ 0 by linarith)]
      rw [if_neg (by linarith), if_neg (by linarith)]
  · subst h; right; norm_num [N2]
  · rcases eq_or_lt_of_le (show 1 ≤ k by omega) with h | h
    · subst h; right; norm_num [N2]
    · left
      have : (2 : ℝ) ≤ k := by exact_mod_cast (show 2 ≤ k by omega)
      simp only [N2, abs_of_nonneg (show (0 : ℝ) ≤ k by linarith)]
      rw [if_neg (by linarith), if_neg (by linarith)]

lemma pair_pos : ∀ p ∈ pair, ∀ a, ∃ k : ℤ, p.x a = k := by
  intro p hp a
  simp only [pair, List.mem_cons, List.not_mem_nil, or_false] at hp
  rcases hp with rfl | rfl
  · exact ⟨0, by simp [Particle.init]⟩
  · fin_cases a
    · exact ⟨1, by simp⟩
    · exact ⟨0, by simp⟩

lemma pair_noTiny (m0 : Fin 2 → ℝ)
    (h : ∀ a, IsLeast (coords (none : Option (Fin 2 → ℝ)) (pair.map fun p => p.x) a) (m0 a)) :
    ∀ p ∈ pair, ∀ k : Fin 2 → ℤ, shape .two 1 (fun a => m0 a + k a * 1) p.x = 0 ∨
      1 / 10 ^ 25 < shape .two 1 (fun a => m0 a + k a * 1) p.x := by
  intro p hp k
  have hm : ∀ a, ∃ j : ℤ, m0 a = j := by
    intro a
    rcases (h a).1 with ⟨x, hx, e⟩ | ⟨r, hr, _⟩
    · obtain ⟨q, hq, rfl⟩ := List.mem_map.mp hx
      obtain ⟨j, hj⟩ := pair_pos q hq a
      exact ⟨j, by rw [← e, hj]⟩
    · cases hr
  have hN : ∀ a, N .two ((p.x a - (m0 a + k a * 1)) / 1) = 0 ∨ 1 / 8 ≤ N .two ((p.x a - (m0 a + k a * 1)) / 1) := by
    intro a
    obtain ⟨i, hi⟩ := pair_pos p hp a
    obtain ⟨j, hj⟩ := hm a
    have : (p.x a - (m0 a + k a * 1)) / 1 = ((i - (j + k a) : ℤ) : ℝ) := by rw [hi, hj]; push_cast; ring
    rw [this]
    exact N2_int _
  simp only [shape, Fin.prod_univ_two]
  rcases hN 0 with h0 | h0
  · left; rw [h0, zero_mul]
  rcases hN 1 with h1 | h1
  · left; rw [h1, mul_zero]
  right
  have := mul_le_mul h0 h1 (by norm_num) (by linarith)
  refine lt_of_lt_of_le ?_ this
  norm_num

lemma pair_rest : ∀ p ∈ pair, p.v = 0 ∧ p.Bmat = 0 ∧ p.tau = 0 ∧ Unstrained p.F := by
  intro p hp
  simp only [pair, List.mem_cons, List.not_mem_nil, or_false] at hp
  rcases hp with rfl | rfl
  · exact ⟨rfl, rfl, rfl, by simp [Unstrained, Particle.init]⟩
  · refine ⟨rfl, rfl, rfl, ?_, ?_⟩
    · ext i j; fin_cases i <;> fin_cases j <;> simp [Matrix.mul_apply, Fin.sum_univ_two]
    · simp [Matrix.det_fin_two]

lemma setup_robust (musl : Bool) (n : ℕ) : Robust (setup musl n .vm) :=
  .inl (.inr (.inl ⟨Ex.mat_ok _, rfl⟩))

/-- The stress-free state is admissible in the examples of all models. -/
lemma mat_stressFree (pm : PlasticModel) : StressFreeOk (Ex.mat pm) 2 := by
  cases pm
  all_goals first
    | exact .inl rfl
    | exact .inr ⟨Ex.mat_ok _, by simp [Ex.mat] <;> norm_num⟩

/-- `C61`: three frames of the resting pair are written, all alike, for every material. -/
lemma rest_run (musl : Bool) (pm : PlasticModel) :
    ∃ r, runProgram (setup musl 3 pm) true false 30 (start pair 0) = .finished r ∧
    (∀ n ≤ 3, ∃ t w, .particles n t w ∈ r.out) ∧
    ∀ n t w, .particles n t w ∈ r.out →
      List.Forall₂ (fun p p' => p'.x = p.x ∧ p'.v = 0 ∧ p'.tau = 0 ∧ p'.F = p.F) pair w.ps :=
  C61_rest (R := setup musl 3 pm) (s := start pair 0) (deg := .two) (dx := 1) (fr := -19 / 20) (m := 3) (vol := 1)
    rfl (by simp) one_pos (by norm_num) rfl rfl rfl rfl rfl (by simp [start, pair]) rfl
    (fun _ _ => by simp [setup]) (mat_stressFree pm) (fun _ => by simp [setup, Ex.mat]) rfl
    (fun m0 h => by simpa [start] using pair_noTiny m0 h)
    (by norm_num [setup, cfg, exConfig]) (by norm_num) (by norm_num [setup, cfg, exConfig])
    (by norm_num [setup, cfg, exConfig]) rfl (by norm_num [setup, cfg, exConfig])
    someSvd_isSvd rfl pair_rest

/-- In a run of one frame with particles at rest only the first step is ever taken. -/
lemma only_begin_of {R : Setup 2} (hC : R.C = cfg 1) {ps : List (Particle 2 ℝ)}
    (hne : ps ≠ []) (hv : ∀ p ∈ ps, p.v = 0) (g : Fin 2 → ℝ) {pl : List (Plate 2)} :
    ∀ k s1, Reach R.C (physics R) g (begin R (start ps g pl)) k s1 →
      k = 0 := by
  intro k s1 hr
  induction hr with
  | start => rfl
  | @next k s1 s2 hr hlt hb ih =>
    subst ih
    exfalso
    cases hr
    have hw : (begin R (start ps g pl)).w.ps.map (fun p => p.v) = ps.map fun p => p.v := by
      rw [begin_w]
      unfold fillMuI
      by_cases hmi : R.S.P.useMibf = true
      · rw [if_pos hmi]; simp [start, Function.comp_def]
      · rw [if_neg hmi]; rfl
    have hfr : (begin R (start ps g pl)).frame = 0 := start_frame _
    have hsp : maxSpeed ((physics R).velocities (begin R (start ps g pl)).w) = some 0 := by
      simp only [physics, hw]
      cases ps with
      | nil => exact absurd rfl hne
      | cons p ps =>
        simp only [maxSpeed, List.map_cons]
        have : ∀ v, maxElement (p.v :: ps.map fun p => p.v) = some v → v = 0 := by
          intro v h
          obtain ⟨h1, -⟩ := maxElement_spec h
          rw [← List.map_cons (f := fun p : Particle 2 ℝ => p.v), List.mem_map] at h1
          obtain ⟨q, hq, rfl⟩ := h1
          exact hv q hq
        obtain ⟨v, hv'⟩ : ∃ v, maxElement (p.v :: ps.map fun p => p.v) = some v := ⟨_, rfl⟩
        rw [hv', this v hv']
        simp
    rcases loopBody_cases (C := R.C) (ph := physics R) (gf := g)
      (begin R (start ps g pl)) with h | ⟨_, _, _, _, _, h⟩ | ⟨dt, g', w, hu, hmin, -, hg, hst, h⟩
    · rw [h] at hb; cases hb
    · rw [h] at hb; cases hb
    simp only [updateDt, hsp, Option.map_some, Option.some.injEq, Prod.mk.injEq, begin_time, hfr] at hu
    have hdt : dt = 1 := by
      rw [← hu.1, hC]
      exact ex_dt (m := 1 / 10) (by norm_num) (n := 1) le_rfl
    simp only at h
    rw [if_pos] at h
    · rw [h] at hb; cases hb
    · left
      rw [endOfFrame_time, begin_time, hdt, hC]
      have : (cfg 1).finalTime = 1 := by
        show (exConfig (1 / 10) 1).finalTime = 1
        rw [ex_final]; simp
      rw [this]
      norm_num [cfg, exConfig]

lemma only_begin (musl : Bool) {pm : PlasticModel} {ps : List (Particle 2 ℝ)} (hne : ps ≠ [])
    (hv : ∀ p ∈ ps, p.v = 0) (g : Fin 2 → ℝ) {pl : List (Plate 2)} :
    ∀ k s1, Reach (setup musl 1 pm).C (physics (setup musl 1 pm)) g (begin (setup musl 1 pm) (start ps g pl)) k s1 →
      k = 0 :=
  only_begin_of rfl hne hv g

/-- A run of one frame with particles at rest takes a single step, hence ends normally if that does. -/
lemma one_step_run_upd {R : Setup 2} {musl : Bool} (hC : R.C = cfg 1) (hS : R.S = (setup musl 1 .vm).S)
    (hsched : ∀ k ps, (R.sched k ps).flatten.Perm ps)
    (hpl : ∀ dt q, 0 < dt → ∃ q', plasticUpdate R dt q = some (q', false)) (hel : R.m.elastic = .hencky)
    {ps : List (Particle 2 ℝ)} (hne : ps ≠ []) (hv : ∀ p ∈ ps, p.v = 0) (g : Fin 2 → ℝ) (pl : List (Plate 2) := []) :
    ∃ r, runProgram R true false 10 (start ps g pl) = .finished r ∧ ∃ t w, .particles 1 t w ∈ r.out := by
  have hcrit := only_begin_of (R := R) hC hne hv g (pl := pl)
  obtain ⟨r, h1, -, t, w, h2, -⟩ := completes_of_update (R := R) (s := start ps g pl) (deg := .two) (dx := 1)
    (fr := -19 / 20) (m := 3) (vol := 1) (i := true) (e := false) (fuel := 10)
    (by rw [hS]; rfl) one_pos (by rw [hS]; rfl) rfl hne hsched hpl
    (by rw [hel]; rfl)
    (by rw [hC]; norm_num [cfg, exConfig]) (by norm_num) (by rw [hC]; norm_num [cfg, exConfig])
    (by rw [hC]; norm_num [cfg, exConfig]) (by rw [hC]; rfl) (by rw [hC]; norm_num [cfg, exConfig])
    (fun k s1 hr hk => absurd (hcrit k s1 hr) hk.ne')
  refine ⟨r, h1, t 1, w 1, ?_⟩
  rw [h2, hC]
  simp [frameFiles, cfg, exConfig]

lemma one_step_run_of {R : Setup 2} {musl : Bool} (hC : R.C = cfg 1) (hS : R.S = (setup musl 1 .vm).S)
    (hsched : ∀ k ps, (R.sched k ps).flatten.Perm ps) (hrob : Robust R) (hnf : NeverFails R.m)
    (hel : R.m.elastic = .hencky)
    {ps : List (Particle 2 ℝ)} (hne : ps ≠ []) (hv : ∀ p ∈ ps, p.v = 0) (g : Fin 2 → ℝ) (pl : List (Plate 2) := []) :
    ∃ r, runProgram R true false 10 (start ps g pl) = .finished r ∧ ∃ t w, .particles 1 t w ∈ r.out := by
  refine one_step_run_upd hC hS hsched (fun dt q hdt => ?_) hel hne hv g pl
  obtain ⟨r, hr⟩ := Option.isSome_iff_exists.mp (robust_defined hrob hdt q)
  exact ⟨r.1, by rw [hr, ← plasticUpdate_ok hnf hdt hr]⟩

lemma one_step_run (musl : Bool) {pm : PlasticModel} (hpm : pm = .vm ∨ pm = .dp ∨ pm = .dpSoft ∨ pm = .dpVisc)
    {ps : List (Particle 2 ℝ)} (hne : ps ≠ []) (hv : ∀ p ∈ ps, p.v = 0) (g : Fin 2 → ℝ) (pl : List (Plate 2) := []) :
    ∃ r, runProgram (setup musl 1 pm) true false 10 (start ps g pl) = .finished r ∧
      ∃ t w, .particles 1 t w ∈ r.out := by
  have hrob : Robust (setup musl 1 pm) := by
    rcases hpm with rfl | rfl | rfl | rfl
    · exact .inl (.inr (.inl ⟨Ex.mat_ok _, rfl⟩))
    · exact .inl (.inr (.inr (.inl ⟨Ex.mat_ok _, by norm_num [setup, Ex.mat], .inl rfl⟩)))
    · exact .inl (.inr (.inr (.inl ⟨Ex.mat_ok _, by norm_num [setup, Ex.mat], .inr rfl⟩)))
    · exact .inr (.inl ⟨Ex.mat_ok _, .inr rfl, by norm_num [setup, Ex.mat], by norm_num [setup, Ex.mat]⟩)
  have hnf : NeverFails (setup musl 1 pm).m := by
    rcases hpm with rfl | rfl | rfl | rfl
    · exact .inr (.inl rfl)
    · exact .inr (.inr (.inl rfl))
    · exact .inr (.inr (.inr (.inl rfl)))
    · exact .inr (.inr (.inr (.inr (.inr (.inr ⟨(Ex.mat_ok .dpVisc).hmu, (Ex.mat_ok .dpVisc).hq,
        by norm_num [setup, Ex.mat], by norm_num [setup, Ex.mat], .inr ⟨rfl, by norm_num [setup, Ex.mat]⟩⟩)))))
  exact one_step_run_of (R := setup musl 1 pm) (musl := musl) rfl rfl (fun _ _ => by simp [setup]) hrob hnf rfl hne hv g pl

lemma stretched_run (musl : Bool) {pm : PlasticModel} (hpm : pm = .vm ∨ pm = .dp ∨ pm = .dpSoft ∨ pm = .dpVisc) :
    ∃ r, runProgram (setup musl 1 pm) true false 10 (start stretched ![0, -10]) = .finished r ∧
      ∃ t w, .particles 1 t w ∈ r.out :=
  one_step_run musl hpm (by simp [stretched]) (by simp [stretched, Particle.init]) _

/-- `C56` for the file of frame 1 of the stretched particle. -/
example (musl : Bool) : ∃ t w, .particles 1 t w ∈ filesOf (runProgram (setup musl 1 .vm) true false 10 (start stretched ![0, -10])) ∧
    ∀ p ∈ w.ps, savedQ (1 / √2) p.tau ≤ 1 / 4 ∧ p.tauᵀ = p.tau := by
  obtain ⟨r, h, t, w, hw⟩ := stretched_run musl (.inl rfl)
  have hev : .particles 1 t w ∈ filesOf (runProgram (setup musl 1 .vm) true false 10 (start stretched ![0, -10])) := by
    rw [h]; exact hw
  refine ⟨t, w, hev, ?_⟩
  exact (C56_vonMises (Ex.mat_ok _) rfl (by norm_num [setup, Ex.mat]) someSvd_isSvd hev (by simp [start])).resolve_left
    (by simp)

example (musl : Bool) : ∃ t w, .particles 1 t w ∈ filesOf (runProgram (setup musl 1 .dp) true false 10 (start stretched ![0, -10])) ∧
    ∀ p ∈ w.ps, savedQ (1 / √2) p.tau ≤ 1 * savedP p.tau + 1 / 8 ∧ -(1 / 8) / 1 ≤ savedP p.tau ∧ p.tauᵀ = p.tau := by
  obtain ⟨r, h, t, w, hw⟩ := stretched_run musl (.inr (.inl rfl))
  have hev : .particles 1 t w ∈ filesOf (runProgram (setup musl 1 .dp) true false 10 (start stretched ![0, -10])) := by
    rw [h]; exact hw
  refine ⟨t, w, hev, ?_⟩
  exact (C56_druckerPrager (Ex.mat_ok _) rfl (by norm_num [setup, Ex.mat]) (by norm_num [setup, Ex.mat]) someSvd_isSvd hev
    (by simp [start])).resolve_left (by simp)

example (musl : Bool) : ∃ t w, .particles 1 t w ∈ filesOf (runProgram (setup musl 1 .dpSoft) true false 10 (start stretched ![0, -10])) ∧
    ∀ p ∈ w.ps, p.tauᵀ = p.tau ∧ ((∀ σ, IsSvd p.F σ → ∀ a, 1e-4 ≤ σ.sig a) →
        IsHenckyStress (Ex.mat .dpSoft).lam (Ex.mat .dpSoft).mu p.F p.tau) := by
  obtain ⟨r, h, t, w, hw⟩ := stretched_run musl (.inr (.inr (.inl rfl)))
  have hev : .particles 1 t w ∈ filesOf (runProgram (setup musl 1 .dpSoft) true false 10 (start stretched ![0, -10])) := by
    rw [h]; exact hw
  refine ⟨t, w, hev, ?_⟩
  exact (C56_elastic (Ex.mat_ok _) (by simp [setup, Ex.mat]) someSvd_isSvd hev (by simp [start])).resolve_left (by simp)

lemma viscDP : ViscDP (Ex.mat .dpVisc) 2 :=
  ⟨Ex.mat_ok _, rfl, by norm_num [Ex.mat], by norm_num [Ex.mat], by norm_num [Ex.mat], by norm_num [Ex.mat]⟩

/-- `C71` for the stretched particle made of viscous Drucker-Prager material. -/
example (musl : Bool) : ∃ t w, .particles 1 t w ∈ filesOf (runProgram (setup musl 1 .dpVisc) true false 10 (start stretched ![0, -10])) ∧
    ∀ p ∈ w.ps, -(1 / 8) / 1 ≤ savedP p.tau ∧ (true = true → -(1 / 8) / 1 < savedP p.tau →
      savedQ (1 / √2) p.tau ≤ 1 * savedP p.tau + 1 / 8 ∨ 0 < p.deltaGamma ∧
      savedQ (1 / √2) p.tau = overstress (Ex.mat .dpVisc) (1 * savedP p.tau + 1 / 8) p.deltaGamma) := by
  obtain ⟨r, h, t, w, hw⟩ := stretched_run musl (.inr (.inr (.inr rfl)))
  have hev : .particles 1 t w ∈ filesOf (runProgram (setup musl 1 .dpVisc) true false 10 (start stretched ![0, -10])) := by
    rw [h]; exact hw
  refine ⟨t, w, hev, fun p hp => ?_⟩
  obtain ⟨h1, h2⟩ := (C71_viscousDruckerPrager_bound_partial (R := setup musl 1 .dpVisc) viscDP someSvd_isSvd
    (by norm_num [setup, cfg, exConfig]) (by simp [start, stretched, Particle.init]) hev (by simp [start])).resolve_left
    (by simp) p hp
  exact ⟨h1, fun _ => h2 rfl⟩

/-- `C71` for softening. -/
example (musl : Bool) : ∃ t w, .particles 1 t w ∈ filesOf (runProgram (setup musl 1 .dpSoft) true false 10 (start stretched ![0, -10])) ∧
    ∃ s1 dt g, StepOf (setup musl 1 .dpSoft) (start stretched ![0, -10]) s1 dt g w ∧ List.Forall₂ (fun p0 p =>
        p.tauᵀ = p.tau ∧ ∃ eps, p0.epsPlDev ≤ eps ∧ eps ≤ p.epsPlDev ∧
        savedQ (1 / √2) p.tau ≤ 1 * savedP p.tau + softCohesion (Ex.mat .dpSoft) eps ∧
        -softCohesion (Ex.mat .dpSoft) eps / 1 ≤ savedP p.tau) s1.w.ps w.ps := by
  obtain ⟨r, h, t, w, hw⟩ := stretched_run musl (.inr (.inr (.inl rfl)))
  have hev : .particles 1 t w ∈ filesOf (runProgram (setup musl 1 .dpSoft) true false 10 (start stretched ![0, -10])) := by
    rw [h]; exact hw
  exact ⟨t, w, hev, (C71_softening (R := setup musl 1 .dpSoft) (Ex.mat_ok _) rfl (by norm_num [setup, Ex.mat])
    (by norm_num [setup, Ex.mat]) (by norm_num [setup, Ex.mat]) someSvd_isSvd
    (by norm_num [setup, cfg, exConfig]) (by simp [start, stretched, Particle.init]) hev (by simp [start])).resolve_left
    (by simp)⟩

/-- The stretched particle made of another material. -/
def made (musl : Bool) (m : Material) : Setup 2 := { setup musl 1 .vm with m := m }

lemma made_run (musl : Bool) {m : Material} (hrob : Robust (made musl m)) (hnf : NeverFails m) (hel : m.elastic = .hencky) :
    ∃ t w, .particles 1 t w ∈ filesOf (runProgram (made musl m) true false 10 (start stretched ![0, -10])) := by
  obtain ⟨r, h, t, w, hw⟩ := one_step_run_of (R := made musl m) (musl := musl) rfl rfl
    (fun _ _ => by simp [made, setup]) hrob hnf hel (ps := stretched) (by simp [stretched])
    (by simp [stretched, Particle.init]) ![0, -10]
  exact ⟨t, w, by rw [h]; exact hw⟩

/-- `C71` for mu(I) rheology. -/
example (musl : Bool) : ∃ t w, .particles 1 t w ∈ filesOf (runProgram (made musl (Ex.mat .dpMui)) true false 10 (start stretched ![0, -10])) ∧
    ∃ s1 dt g, StepOf (made musl (Ex.mat .dpMui)) (start stretched ![0, -10]) s1 dt g w := by
  have a1 : 0 < (Ex.mat .dpMui).mu1 := by norm_num [Ex.mat]
  have a2 : (Ex.mat .dpMui).mu1 < (Ex.mat .dpMui).mu2 := by norm_num [Ex.mat]
  have a3 : 0 < (Ex.mat .dpMui).facQ := by norm_num [Ex.mat, Material.facQ]
  have a4 : 0 ≤ (Ex.mat .dpMui).qCohesion := by norm_num [Ex.mat]
  have a5 : 0 ≤ (Ex.mat .dpMui).stressTol := by norm_num [Ex.mat]
  obtain ⟨t, w, hev⟩ := made_run musl (m := Ex.mat .dpMui)
    (.inl (.inr (.inr (.inr ⟨⟨Ex.mat_ok _, a1, a2, a3, a4, a5⟩, rfl⟩)))) (.inr (.inr (.inr (.inr (.inl rfl))))) rfl
  obtain ⟨s1, dt, g, h, -⟩ := (C71_muI_partial (R := made musl (Ex.mat .dpMui)) (Ex.mat_ok _) rfl a1 a2 a3 a4 a5
    someSvd_isSvd (by norm_num [made, setup, cfg, exConfig]) (by simp [start, stretched, Particle.init]) hev
    (by simp [start])).resolve_left (by simp)
  exact ⟨t, w, hev, s1, dt, g, h⟩

/-- A Cam-Clay material without hardening. -/
def clay : Material := { Ex.mat .mcc with hardening := .noHard }

lemma clay_ok : MatOk clay 2 := ⟨(Ex.mat_ok .mcc).hd, (Ex.mat_ok .mcc).hK, (Ex.mat_ok .mcc).hmu, (Ex.mat_ok .mcc).hq, rfl⟩
lemma clay_cam : CamOk clay := ⟨by norm_num [clay, Ex.mat], by norm_num [clay, Ex.mat], by norm_num [clay, Ex.mat]⟩

/-- `C71` for Cam-Clay. -/
example (musl : Bool) : ∃ t w, .particles 1 t w ∈ filesOf (runProgram (made musl clay) true false 10 (start stretched ![0, -10])) ∧
    ∃ s1 dt g, StepOf (made musl clay) (start stretched ![0, -10]) s1 dt g w := by
  obtain ⟨t, w, hev⟩ := made_run musl (m := clay)
    (.inr (.inr ⟨clay_cam, rfl, rfl, by norm_num [made, clay, Ex.mat], .inl rfl, abs_zero⟩))
    (.inr (.inr (.inr (.inr (.inr (.inl ⟨rfl, rfl⟩)))))) rfl
  obtain ⟨s1, dt, g, h, -⟩ := (C71_camClay (R := made musl clay) clay_ok clay_cam rfl (by norm_num [made, clay, Ex.mat])
    someSvd_isSvd (by norm_num [made, setup, cfg, exConfig]) hev (by simp [start])).resolve_left (by simp)
  exact ⟨t, w, hev, s1, dt, g, h⟩

/-- `C71` for viscous von Mises. -/
example (musl : Bool) : ∃ t w, .particles 1 t w ∈ filesOf (runProgram (made musl (Ex.mat .vmVisc)) true false 10 (start stretched ![0, -10])) ∧
    ∀ p ∈ w.ps, p.tauᵀ = p.tau ∧ (-10 ≤ savedP p.tau → savedQ (1 / √2) p.tau ≤ 1 / 4 ∨
      0 < p.deltaGamma ∧ savedQ (1 / √2) p.tau = overstress (Ex.mat .vmVisc) (1 / 4) p.deltaGamma) := by
  have a1 : (Ex.mat .vmVisc).viscExponent = 1 := by norm_num [Ex.mat]
  have a2 : 0 ≤ (Ex.mat .vmVisc).viscTime := by norm_num [Ex.mat]
  have a3 : 0 ≤ (Ex.mat .vmVisc).qMax := by norm_num [Ex.mat]
  obtain ⟨t, w, hev⟩ := made_run musl (m := Ex.mat .vmVisc)
    (.inr (.inl ⟨Ex.mat_ok _, .inl rfl, a1.ge, a2⟩))
    (.inr (.inr (.inr (.inr (.inr (.inr ⟨(Ex.mat_ok .vmVisc).hmu, (Ex.mat_ok .vmVisc).hq, a1, a2, .inl ⟨rfl, rfl, a3⟩⟩)))))) rfl
  exact ⟨t, w, hev, (C71_viscousVonMises (R := made musl (Ex.mat .vmVisc)) (Ex.mat_ok _) rfl a1 rfl a3 a2
    someSvd_isSvd (by norm_num [made, setup, cfg, exConfig]) hev (by simp [start])).resolve_left (by simp)⟩

/-- `C59` for the same runs. -/
example (musl : Bool) := C59_same_particles (R := setup musl 1 .vm) (s := start stretched ![0, -10]) (i := true) (e := false)
  (fuel := 10) (by norm_num [setup, cfg, exConfig]) rfl
example (musl : Bool) := C59_plastic_strain (R := setup musl 1 .vm) (s := start stretched ![0, -10]) (i := true) (e := false)
  (fuel := 10) ⟨Ex.mat_ok _, .inl ⟨rfl, by norm_num [setup, Ex.mat]⟩⟩ someSvd_isSvd rfl

/-- The weights of the only step of the pair. -/
lemma pair_step (musl : Bool) {g : Fin 2 → ℝ} {pl : List (Plate 2)} {s1 : LoopState 2 (World 2)} {dt : ℝ} {g' : Fin 2 → ℝ} {w : World 2}
    (hst : StepOf (setup musl 1 .vm) (start pair g pl) s1 dt g' w) : NoTinyWeights .two 1 w.g s1.w.ps := by
  obtain ⟨m0, h0, h1⟩ := run_lattice (R := setup musl 1 .vm) (dx := 1) rfl one_pos rfl rfl (by simp [start, pair]) hst
  obtain ⟨k, hr, -⟩ := hst
  have hk := only_begin musl (by simp [pair]) (fun p hp => (pair_rest p hp).1) g k s1 hr
  subst hk
  cases hr
  have hw : (begin (setup musl 1 .vm) (start pair g pl)).w.ps = pair := by
    rw [begin_w]; simp [fillMuI, setup, start, mkTransferParams]
  rw [hw]
  intro q hq j hj
  choose k hk using fun a => h1 a _ (List.getElem_mem (hj a))
  have e1 : nodeAt w.g j = fun a => m0 a + k a * 1 := by
    ext a
    rw [nodeAt, List.getD_eq_getElem?_getD, List.getElem?_eq_getElem (hj a), Option.getD_some, hk a]
  rw [e1]
  exact pair_noTiny m0 h0 q hq k

/-- A viscous Drucker-Prager material without cohesion. -/
def sand : Material := { Ex.mat .dpVisc with qCohesion := 0, viscTime := 0, usePradhana := true }

lemma sand_ok : MatOk sand 2 := ⟨(Ex.mat_ok .dpVisc).hd, (Ex.mat_ok .dpVisc).hK, (Ex.mat_ok .dpVisc).hmu, (Ex.mat_ok .dpVisc).hq, rfl⟩
lemma sand_visc : ViscDP sand 2 :=
  ⟨sand_ok, rfl, by norm_num [sand, Ex.mat], by norm_num [sand, Ex.mat], by norm_num [sand, Ex.mat], by norm_num [sand, Ex.mat]⟩

/-- A particle at rest, sheared at constant volume. -/
def sheared : List (Particle 2 ℝ) := [{ Particle.init with F := diagonal ![2, 1 / 2] }]

lemma sheared_svd {σ : Svd 2} (hs : IsSvd (diagonal ![(2 : ℝ), 1 / 2]) σ) :
    (∀ a, 1e-4 ≤ σ.sig a) ∧ σ.sig 0 ≠ σ.sig 1 := by
  have hdet : |(diagonal ![(2 : ℝ), 1 / 2] : Matrix (Fin 2) (Fin 2) ℝ).det| = 1 := by
    rw [det_diagonal, Fin.prod_univ_two]; norm_num
  have h1 : σ.sig 0 * σ.sig 1 = 1 := by
    have hU : |σ.U.det| = 1 := by
      have := congrArg Matrix.det hs.orthU
      rw [det_mul, det_transpose, det_one] at this
      rcases mul_self_eq_one_iff.mp this with h | h <;> rw [h] <;> simp
    have hV : |σ.V.det| = 1 := by
      have := congrArg Matrix.det hs.orthV
      rw [det_mul, det_transpose, det_one] at this
      rcases mul_self_eq_one_iff.mp this with h | h <;> rw [h] <;> simp
    rw [hs.eq, det_mul, det_mul, det_transpose, det_diagonal, abs_mul, abs_mul, hU, hV, one_mul, mul_one,
      abs_of_nonneg (Finset.prod_nonneg fun a _ => hs.nonneg a), Fin.prod_univ_two] at hdet
    exact hdet
  have h2 : σ.sig 0 ^ 2 + σ.sig 1 ^ 2 = 17 / 4 := by
    have hU := mul_eq_one_comm.mp hs.orthU
    have hV := mul_eq_one_comm.mp hs.orthV
    have e : (diagonal ![(2 : ℝ), 1 / 2] * (diagonal ![(2 : ℝ), 1 / 2])ᵀ).trace =
        (diagonal σ.sig * (diagonal σ.sig)ᵀ).trace := by
      conv_lhs => rw [hs.eq]
      rw [transpose_mul, transpose_mul, transpose_transpose]
      calc _ = (σ.U * (diagonal σ.sig * (σ.Vᵀ * σ.V) * (diagonal σ.sig)ᵀ) * σ.Uᵀ).trace := by
            simp only [Matrix.mul_assoc]
        _ = _ := by rw [hV, Matrix.mul_one, Matrix.trace_mul_comm, ← Matrix.mul_assoc, hU, Matrix.one_mul]
    simp only [diagonal_transpose, diagonal_mul_diagonal, Matrix.trace_diagonal, Fin.sum_univ_two] at e
    norm_num at e
    linarith
  have n0 := hs.nonneg 0
  have n1 := hs.nonneg 1
  refine ⟨fun a => ?_, fun h => ?_⟩
  · have b0 : σ.sig 0 ≤ 3 := by nlinarith
    have b1 : σ.sig 1 ≤ 3 := by nlinarith
    fin_cases a
    · show (1e-4 : ℝ) ≤ σ.sig 0
      by_contra hlt
      push Not at hlt
      nlinarith
    · show (1e-4 : ℝ) ≤ σ.sig 1
      by_contra hlt
      push Not at hlt
      nlinarith
  · rw [h] at h1 h2; nlinarith

/-- The first step of the sheared particle leaves the deformation as it is. -/
lemma sheared_file (musl : Bool) {t : ℝ} {w : World 2} 
    (hev : .particles 1 t w ∈ filesOf (runProgram (made musl sand) true false 10 (start sheared 0))) :
    ∀ p ∈ w.ps, ∃ out dt, ∃ r : Particle 2 ℝ, 0 < dt ∧ r.F = diagonal ![2, 1 / 2] ∧ r.epsPlVolPradhana = 0 ∧
      plasticity abs someSvd sand dt r false = some out ∧ p.tau = out.q.tau := by
  rcases run_particles hev (by simp [start]) with ⟨h, -⟩ | ⟨s1, dt, g, hst, -⟩
  · cases h
  have hlat := run_lattice (R := made musl sand) (dx := 1) rfl one_pos rfl rfl (by simp [start, sheared]) hst
  obtain ⟨m0, h0, h1⟩ := hlat
  have hst' := hst
  obtain ⟨k, hr, -⟩ := hst'
  have hk := only_begin_of (R := made musl sand) rfl (ps := sheared) (by simp [sheared])
    (by simp [sheared, Particle.init]) 0 k s1 hr
  subst hk
  cases hr
  have hw : (begin (made musl sand) (start sheared 0)).w.ps = sheared := by
    rw [begin_w]; simp [fillMuI, made, setup, start, mkTransferParams]
  have hwp : (begin (made musl sand) (start sheared 0)).w.plates = [] := by
    rw [begin_w]; simp [fillMuI, made, setup, start, mkTransferParams]
  have hn : NoTinyWeights .two 1 w.g sheared := by
    intro q hq j hj
    choose k hk using fun a => h1 a _ (List.getElem_mem (hj a))
    have e1 : nodeAt w.g j = fun a => m0 a + k a * 1 := by
      ext a
      rw [nodeAt, List.getD_eq_getElem?_getD, List.getElem?_eq_getElem (hj a), Option.getD_some, hk a]
    rw [e1]
    simp only [sheared, List.mem_singleton] at hq
    subst hq
    have hm : ∀ a, ∃ j : ℤ, m0 a = j := by
      intro a
      rcases (h0 a).1 with ⟨x, hx, e⟩ | ⟨r, hr, _⟩
      · obtain ⟨q, hq, rfl⟩ := List.mem_map.mp hx
        simp only [start, sheared, List.mem_singleton] at hq
        subst hq
        exact ⟨0, by rw [← e]; simp [Particle.init]⟩
      · cases hr
    have hN : ∀ a, N .two (((0 : Fin 2 → ℝ) a - (m0 a + k a * 1)) / 1) = 0 ∨
        1 / 8 ≤ N .two (((0 : Fin 2 → ℝ) a - (m0 a + k a * 1)) / 1) := by
      intro a
      obtain ⟨j, hj⟩ := hm a
      have : ((0 : Fin 2 → ℝ) a - (m0 a + k a * 1)) / 1 = ((-(j + k a) : ℤ) : ℝ) := by rw [hj]; push_cast; simp
      rw [this]
      exact N2_int _
    show shape .two 1 (fun a => m0 a + k a * 1) 0 = 0 ∨ 1 / 10 ^ 25 < shape .two 1 (fun a => m0 a + k a * 1) 0
    have hsh : shape .two 1 (fun a => m0 a + k a * 1) (0 : Fin 2 → ℝ) =
        N .two (((0 : Fin 2 → ℝ) 0 - (m0 0 + k 0 * 1)) / 1) * N .two (((0 : Fin 2 → ℝ) 1 - (m0 1 + k 1 * 1)) / 1) :=
      Fin.prod_univ_two _
    rw [hsh]
    rcases hN 0 with h0 | h0
    · left; rw [h0, zero_mul]
    rcases hN 1 with h1 | h1
    · left; rw [h1, mul_zero]
    right
    have := mul_le_mul h0 h1 (by norm_num) (by linarith)
    refine lt_of_lt_of_le ?_ this
    norm_num
  have hgood := physStep_goodGrid (R := made musl sand) rfl (by norm_num [made, setup, mkTransferParams]) rfl hst.phys
  obtain ⟨-, fr', hqs, hbc⟩ := physStep_free (R := made musl sand) rfl rfl hwp hst.phys
  rw [hw] at hgood hqs
  obtain ⟨qs, b1, b2⟩ := C07_free_fall (dt := dt) (grav := g) (plast := plastTotal (made musl sand) dt)
    (S := (made musl sand).S) (deg := .two) (dx := 1) (fr := -19 / 20) (mibf := false) (m := 3) (vol := 1)
    (threads := (made musl sand).sched (begin (made musl sand) (start sheared 0)).step sheared)
    rfl (by simp) (by norm_num) rfl rfl hgood
    hn (by simp [made, setup]) hbc (plastTotal_keeps _ dt) (c := 0)
    (by simp [sheared, Particle.init]) (by simp [sheared, Particle.init]) (by simp [sheared, Particle.init])
  have e : w.ps = qs := Option.some.inj (hqs.symm.trans b1)
  have hdt : 0 < dt := lt_of_lt_of_le (by norm_num [made, setup, cfg, exConfig]) hst.dt_ge.1
  rw [e]
  simp only [sheared] at b2
  cases b2 with
  | cons h1 h2 =>
    cases h2
    obtain ⟨-, -, -, r, c1, c2, c3, c4, c5⟩ := h1
    intro p hp
    rw [List.mem_singleton] at hp
    subst hp
    obtain ⟨out, ho, -⟩ := C71_isochoric_shear (cabs := abs) (svd := someSvd) sand_visc rfl hdt r (by rw [c5]; rfl)
      (someSvd_isSvd _) (by rw [c1]; exact (sheared_svd (someSvd_isSvd _)).1)
      (by rw [c1, det_diagonal, Fin.prod_univ_two]; norm_num)
    refine ⟨out, dt, r, hdt, c1, by rw [c5]; rfl, ho, ?_⟩
    rw [c4]
    have hu : plasticUpdate (made musl sand) dt r = some (out.q, out.exit) := by
      unfold plasticUpdate
      rw [show plasticity (made musl sand).cabs (made musl sand).svd (made musl sand).m dt r false = some out from ho]
      rfl
    rw [plastTotal_eq hu]

/-- **C71** The yield condition fails in the files of a run: a particle at rest, sheared at constant volume, of a
viscous Drucker-Prager material without cohesion or viscosity keeps its shear stress although the yield stress at
its pressure is zero; no plastic flow is recorded. -/
theorem C71_tip_false (musl : Bool) :
    ∃ t w, .particles 1 t w ∈ filesOf (runProgram (made musl sand) true false 10 (start sheared 0)) ∧
      ∀ p ∈ w.ps, 0 < savedQ sand.qPrefac p.tau ∧ sand.M * savedP p.tau + sand.qCohesion = 0 := by
  obtain ⟨r, h, t, w, hw⟩ := one_step_run_of (R := made musl sand) (musl := musl) rfl rfl
    (fun _ _ => by simp [made, setup])
    (.inr (.inl ⟨sand_ok, .inr rfl, by norm_num [made, sand, Ex.mat], by norm_num [made, sand, Ex.mat]⟩))
    (by right; right; right; right; right; right
        exact ⟨sand_ok.hmu, sand_ok.hq, by norm_num [made, sand, Ex.mat], by norm_num [made, sand, Ex.mat], .inr ⟨rfl, by norm_num [made, sand, Ex.mat]⟩⟩)
    rfl (ps := sheared) (by simp [sheared]) (by simp [sheared, Particle.init]) 0
  have hev : .particles 1 t w ∈ filesOf (runProgram (made musl sand) true false 10 (start sheared 0)) := by
    rw [h]; exact hw
  refine ⟨t, w, hev, fun p hp => ?_⟩
  obtain ⟨out, dt, r, hdt, hF, he, ho, htau⟩ := sheared_file musl hev p hp
  have hs := someSvd_isSvd r.F
  have hs' : IsSvd (diagonal ![(2 : ℝ), 1 / 2]) (someSvd r.F) := by rw [← hF]; exact hs
  obtain ⟨c1, c2⟩ := sheared_svd hs'
  obtain ⟨out', ho', h1, h2⟩ := C71_isochoric_shear (cabs := abs) (svd := someSvd) sand_visc rfl hdt r he
      hs c1 (by rw [hF, det_diagonal, Fin.prod_univ_two]; norm_num)
  rw [ho] at ho'
  obtain rfl := Option.some.inj ho'
  simp only [newP, newQ, ← htau] at h1 h2
  refine ⟨?_, h2⟩
  rw [h1, (trial_eq sand_ok hs).2]
  refine mul_pos sand_ok.eMu_pos ?_
  have hpos : ∀ a, 0 < (someSvd r.F).sig a := fun a => lt_of_lt_of_le (by norm_num) (c1 a)
  have hne : (someSvd r.F).hencky 0 ≠ (someSvd r.F).hencky 1 := by
    simp only [Svd.hencky]
    rw [abs_of_pos (hpos 0), abs_of_pos (hpos 1), max_eq_left (c1 0), max_eq_left (c1 1)]
    exact fun h => c2 (Real.log_injOn_pos (hpos 0) (hpos 1) h)
  simp only [mkTrial, vnorm]
  apply Real.sqrt_pos.mpr
  simp only [Fin.sum_univ_two]
  have : (someSvd r.F).hencky 0 - (someSvd r.F).hencky 1 ≠ 0 := sub_ne_zero.mpr hne
  have := pow_pos (abs_pos.mpr this) 2
  rw [sq_abs] at this
  refine lt_of_lt_of_eq (half_pos this) ?_
  simp only [dotProduct, Fin.sum_univ_two]
  push_cast
  ring

/-- A rough one-sided floor moving upwards and a frictionless wall on the left. -/
def tray : List (Plate 2) :=
  [⟨-1 / 2, .bottom, .slipFree, 1 / 2, -100, 100, ![0, 1], ![0, 1], 1, 0⟩,
   ⟨-5, .left, .slipStick, 0, -100, 100, 0, 0, 1, 0⟩]

/-- `C50` for the tray and the same tray without friction, at a node with friction 1/3. -/
example (dt : ℝ) : boundaryCollision plateOps2 true (fun _ => 1 / 3) dt [] tray 7 =
    boundaryCollision plateOps2 true (fun l => if l = 7 then 1 / 3 else 0) dt []
      (tray.map fun p => { p with friction := 0 }) 7 :=
  C50_grid (fun _ _ => rfl) (by simp [tray]) rfl 7 (by simp)

/-- `C69` for the pair on the tray: the floor only pushes upwards. -/
example (musl : Bool) : ∃ t w,
    .particles 1 t w ∈ filesOf (runProgram (setup musl 1 .vm) true false 10 (start pair ![0, -10] tray)) ∧
    momentum 3 pair 1 + t * (2 * 3) * (-10) ≤ momentum 3 w.ps 1 := by
  obtain ⟨r, h, t, w, hw⟩ := one_step_run musl (pm := .vm) (.inl rfl) (ps := pair) (by simp [pair])
    (fun p hp => (pair_rest p hp).1) ![0, -10] tray
  have hev : .particles 1 t w ∈ filesOf (runProgram (setup musl 1 .vm) true false 10 (start pair ![0, -10] tray)) := by
    rw [h]; exact hw
  refine ⟨t, w, hev, ?_⟩
  obtain ⟨c, -, -, hc, -, hm⟩ := C69_run (R := setup musl 1 .vm) (s := start pair ![0, -10] tray) (deg := .two) (dx := 1)
    (fr := -19 / 20) (m := 3) (vol := 1) (mibf := false) rfl (by simp) one_pos (by norm_num) rfl fair2
    (fun _ _ => by simp [setup]) (by norm_num [setup, cfg, exConfig]) (fun _ _ _ _ h => pair_step musl h) 1 hev
    (by simp [start])
  have := hm 1 rfl (by simp [setup]) (by
    intro p hp
    simp only [start, tray, List.mem_cons, List.not_mem_nil, or_false] at hp
    rcases hp with rfl | rfl
    · exact .inr ⟨rfl, rfl, rfl⟩
    · exact .inl ⟨by simp, rfl, by simp [normalAxis]⟩)
  rw [hc rfl] at this
  simpa [start, pair] using this

/-- Without the rough floor the walls do not change the vertical momentum. -/
example (musl : Bool) : ∃ t w,
    .particles 1 t w ∈ filesOf (runProgram (setup musl 1 .vm) true false 10 (start pair ![3, -10] tray.tail)) ∧
    momentum 3 w.ps 1 = momentum 3 pair 1 + t * (2 * 3) * (-10) := by
  obtain ⟨r, h, t, w, hw⟩ := one_step_run musl (pm := .vm) (.inl rfl) (ps := pair) (by simp [pair])
    (fun p hp => (pair_rest p hp).1) ![3, -10] tray.tail
  have hev : .particles 1 t w ∈
      filesOf (runProgram (setup musl 1 .vm) true false 10 (start pair ![3, -10] tray.tail)) := by
    rw [h]; exact hw
  refine ⟨t, w, hev, ?_⟩
  obtain ⟨c, -, -, hc, hm, -⟩ := C69_run (R := setup musl 1 .vm) (s := start pair ![3, -10] tray.tail) (deg := .two)
    (dx := 1) (fr := -19 / 20) (m := 3) (vol := 1) (mibf := false) rfl (by simp) one_pos (by norm_num) rfl fair2
    (fun _ _ => by simp [setup]) (by norm_num [setup, cfg, exConfig]) (fun _ _ _ _ h => pair_step musl h) 1 hev
    (by simp [start])
  have := hm rfl (by simp [setup]) (by
    intro p hp
    simp only [start, tray, List.tail_cons, List.mem_cons, List.not_mem_nil, or_false] at hp
    rw [hp]
    exact ⟨by simp, rfl, by simp [normalAxis]⟩)
  rw [hc rfl] at this
  simpa [start, pair] using this

/-- A fixed rough floor at the height of the pair, with an end on both sides. -/
def floor : Plate 2 := ⟨0, .bottom, .slipStick, 1 / 2, -9, 9, 0, 0, 1, 0⟩

lemma N2_far {u : ℝ} (h : N2 u ≠ 0) : |u| < 3 / 2 := by
  by_contra hc
  apply h
  simp only [N2]
  rw [if_neg (by linarith), if_neg (by linarith)]

/-- Nodes with mass are near the particles, and without sideward velocity. -/
lemma pair_covers (musl : Bool) {s1 : LoopState 2 (World 2)} {dt : ℝ} {g : Fin 2 → ℝ} {w : World 2}
    (hst : StepOf (setup musl 1 .vm) (start pair ![0, -10] [floor]) s1 dt g w) (j : Fin 2 → ℕ) (u : Fin 2 → ℝ)
    (hm : 0 < massAt .two 1 3 s1.w.ps (nodeAt w.g j))
    (hu : massAt .two 1 3 s1.w.ps (nodeAt w.g j) • u =
        freeMomentum .two 1 (-19 / 20) (setup musl 1 .vm).S.P.apicDinverse 3 1 dt g s1.w.ps (nodeAt w.g j)) :
    Covers (d := 0) floor (nodeAt w.g j + dt • u) := by
  have hg : g = ![0, -10] := by
    rw [hst.dt_ge.2]
    obtain ⟨k, hr, -⟩ := hst
    have hk := only_begin musl (by simp [pair]) (fun p hp => (pair_rest p hp).1) _ k s1 hr
    subst hk
    cases hr
    rw [begin_gravity, rampGravity]
    rfl
  obtain ⟨k, hr, -⟩ := hst
  have hk := only_begin musl (by simp [pair]) (fun p hp => (pair_rest p hp).1) _ k s1 hr
  subst hk
  cases hr
  have hw : (begin (setup musl 1 .vm) (start pair ![0, -10] [floor])).w.ps = pair := by
    rw [begin_w]; simp [fillMuI, setup, start, mkTransferParams]
  rw [hw] at hm hu
  set X := nodeAt w.g j
  have hX : |X 0| < 5 := by
    by_contra hc
    refine hm.ne' ?_
    have : ∀ p ∈ pair, shape .two 1 X p.x = 0 := by
      intro p hp
      by_contra hs
      rw [shape, Fin.prod_univ_two] at hs
      have h := N2_far (left_ne_zero_of_mul hs)
      have hp0 : |p.x 0| ≤ 1 := by
        simp only [pair, List.mem_cons, List.not_mem_nil, or_false] at hp
        rcases hp with rfl | rfl <;> simp [Particle.init]
      rw [div_one, abs_lt] at h
      rw [abs_le] at hp0
      apply hc
      rw [abs_lt]
      constructor <;> linarith
    rw [massAt, List.filter_eq_nil_iff.mpr]
    · simp
    · intro p hp
      rw [this p hp]
      norm_num
  have hu0 : u 0 = 0 := by
    have := congrFun hu 0
    have hz : freeMomentum .two 1 (-19 / 20) (setup musl 1 .vm).S.P.apicDinverse 3 1 dt g pair X =
        (dt * massAt .two 1 3 pair X) • g := by
      simp only [freeMomentum]
      rw [List.map_congr_left (g := fun _ => 0),
        List.map_congr_left (f := fun p : Particle 2 ℝ => p.tau *ᵥ shapeGrad Deg.two 1 X p.x) (g := fun _ => 0)]
      · simp
      · intro p hp
        rw [(pair_rest p (List.mem_of_mem_filter hp)).2.2.1]
        simp
      · intro p hp
        obtain ⟨h1, h2, -⟩ := pair_rest p (List.mem_of_mem_filter hp)
        rw [h1, h2]
        simp
    rw [hz, hg] at this
    simp only [Pi.smul_apply, smul_eq_mul, cons_val_zero, mul_zero] at this
    exact (mul_eq_zero.mp this).resolve_left hm.ne'
  rw [abs_lt] at hX
  show -9 < (X + dt • u) 0 ∧ (X + dt • u) 0 < 9
  rw [Pi.add_apply, Pi.smul_apply, hu0, smul_zero, add_zero]
  constructor <;> linarith

/-- `C70` for the pair on the floor. -/
example (musl : Bool) : ∃ t w,
    .particles 1 t w ∈ filesOf (runProgram (setup musl 1 .vm) true false 10 (start pair ![0, -10] [floor])) ∧
    ∀ p ∈ w.ps, -(1 / 2) ≤ p.x 1 := by
  obtain ⟨r, h, t, w, hw⟩ := one_step_run musl (pm := .vm) (.inl rfl) (ps := pair) (by simp [pair])
    (fun p hp => (pair_rest p hp).1) ![0, -10] [floor]
  have hev : .particles 1 t w ∈ filesOf (runProgram (setup musl 1 .vm) true false 10 (start pair ![0, -10] [floor])) := by
    rw [h]; exact hw
  refine ⟨t, w, hev, ?_⟩
  have hy : ∀ p ∈ pair, p.x 1 = 0 := by simp [pair, Particle.init]
  have h0 : IsLeast (coords (none : Option (Fin 2 → ℝ)) (pair.map fun p => p.x) 1) 0 := by
    constructor
    · left
      exact ⟨_, List.mem_map_of_mem (List.mem_cons_self ..), by simp [Particle.init]⟩
    · rintro y (⟨x, hx, rfl⟩ | ⟨r, hr, -⟩)
      · obtain ⟨p, hp, rfl⟩ := List.mem_map.mp hx
        exact (hy p hp).ge
      · cases hr
  have := C70_run (R := setup musl 1 .vm) (s := start pair ![0, -10] [floor]) (deg := .two) (dx := 1)
    (fr := -19 / 20) (m := 3) (vol := 1) (b := 1) (q := floor) (m0 := 0) (z := 0) rfl one_pos (by norm_num) rfl rfl hold2
    (fun _ _ => by simp [setup]) (by norm_num [setup, cfg, exConfig]) rfl (by simp [start, pair]) (by simp [start])
    rfl rfl (by simp [setup]) (by
      intro p hp
      simp only [start, List.mem_cons, List.not_mem_nil, or_false] at hp
      rw [hp]
      exact ⟨by norm_num [floor], rfl, rfl⟩)
    h0 ⟨0, by simp⟩ (by simp [floor]) (fun s1 dt g w hst j _ u hm hu => pair_covers musl hst j u hm hu)
    (by
      intro p hp
      rw [hy p hp]
      norm_num [leak]) hev (by simp [start])
  intro p hp
  have := this p hp
  simpa [floor, openSide, leak] using this

/-- The grid, the falling particle and the floor of `C70_exact_false`. -/
def fallGrid : Axes 2 ℝ := fun _ => [-2, -1, 0, 1, 2, 3]
def faller : Particle 2 ℝ := { Particle.init with x := ![0, 1 / 20], v := ![0, -9 / 10] }

lemma fall_good : GoodGrid 1 fallGrid [faller] where
  dx_pos := one_pos
  uniform _ := ⟨-2, by
    simp only [fallGrid, List.length_cons, List.length_nil, List.range_succ, List.range_zero]; norm_num⟩
  inside p hp a := by
    rw [List.mem_singleton] at hp
    subst hp
    refine ⟨-2, 3, rfl, rfl, ?_⟩
    fin_cases a <;> norm_num [faller]

lemma N2_twentieth (k : ℤ) : N2 ((1 / 20 : ℝ) - k) = 0 ∨ 1 / 10 ≤ N2 ((1 / 20 : ℝ) - k) := by
  rcases lt_trichotomy k 0 with h | h | h
  · rcases eq_or_lt_of_le (show k ≤ -1 by omega) with h | h
    · subst h; right; norm_num [N2, abs_of_nonneg]
    · left
      have : (k : ℝ) ≤ -2 := by exact_mod_cast (show k ≤ -2 by omega)
      simp only [N2, abs_of_nonneg (show (0 : ℝ) ≤ 1 / 20 - k by linarith)]
      rw [if_neg (by linarith), if_neg (by linarith)]
  · subst h; right; norm_num [N2, abs_of_nonneg]
  · rcases eq_or_lt_of_le (show 1 ≤ k by omega) with h | h
    · subst h; right; norm_num [N2, abs_of_nonpos]
    · left
      have : (2 : ℝ) ≤ k := by exact_mod_cast (show 2 ≤ k by omega)
      simp only [N2, abs_of_nonpos (show (1 / 20 : ℝ) - k ≤ 0 by linarith)]
      rw [if_neg (by linarith), if_neg (by linarith)]

lemma fall_noTiny {j : Fin 2 → ℕ} (hj : IsNode fallGrid j) :
    shape .two 1 (nodeAt fallGrid j) faller.x = 0 ∨ 1 / 10 ^ 25 < shape .two 1 (nodeAt fallGrid j) faller.x := by
  have hk : ∀ a, ∃ k : ℤ, nodeAt fallGrid j a = k := by
    intro a
    have : nodeAt fallGrid j a ∈ ([-2, -1, 0, 1, 2, 3] : List ℝ) := by
      rw [nodeAt, List.getD_eq_getElem?_getD, List.getElem?_eq_getElem (hj a)]
      exact List.getElem_mem _
    simp only [List.mem_cons, List.not_mem_nil, or_false] at this
    rcases this with h | h | h | h | h | h <;> rw [h]
    exacts [⟨-2, by norm_num⟩, ⟨-1, by norm_num⟩, ⟨0, by norm_num⟩, ⟨1, by norm_num⟩, ⟨2, by norm_num⟩, ⟨3, by norm_num⟩]
  choose k hk using hk
  rw [shape, Fin.prod_univ_two, hk, hk, div_one, div_one]
  have h0 := N2_int (-k 0)
  have h1 := N2_twentieth (k 1)
  have e0 : faller.x 0 - (k 0 : ℝ) = ((-k 0 : ℤ) : ℝ) := by simp [faller]
  have e1 : faller.x 1 - (k 1 : ℝ) = 1 / 20 - (k 1 : ℝ) := by simp [faller]
  rw [e0, e1]
  simp only [N]
  rcases h0 with h0 | h0
  · left; rw [h0, zero_mul]
  · rcases h1 with h1 | h1
    · left; rw [h1, mul_zero]
    · right; nlinarith

/-- `C57` for the pair under gravity. -/
example (musl : Bool) : ∃ t w, .particles 1 t w ∈ filesOf (runProgram (setup musl 1 .vm) true false 10 (start pair ![0, -10])) ∧
    momentum 3 w.ps = momentum 3 pair + (t * (2 * 3)) • ![0, -10] := by
  obtain ⟨r, h, t, w, hw⟩ := one_step_run musl (pm := .vm) (.inl rfl) (ps := pair) (by simp [pair])
    (fun p hp => (pair_rest p hp).1) ![0, -10]
  have hev : .particles 1 t w ∈ filesOf (runProgram (setup musl 1 .vm) true false 10 (start pair ![0, -10])) := by
    rw [h]; exact hw
  refine ⟨t, w, hev, ?_⟩
  obtain ⟨-, -, c, -, -, hc, hm⟩ := C57_momentum (R := setup musl 1 .vm) (s := start pair ![0, -10]) (deg := .two) (dx := 1)
    (fr := -19 / 20) (m := 3) (vol := 1) (mibf := false) rfl (by simp) one_pos (by norm_num) rfl rfl rfl
    (fun _ _ => by simp [setup]) (by norm_num [setup, cfg, exConfig]) (fun _ _ _ _ h => pair_step musl h) hev (by simp [start])
  rw [hm, hc rfl]
  simp [start, pair]

/-- `C60` for the same run. -/
example (musl : Bool) : ∃ t w, .particles 1 t w ∈ filesOf (runProgram (setup musl 1 .vm) true false 10 (start pair ![0, -10])) ∧
    ∃ u, t ^ 2 / 2 ≤ u ∧ List.Forall₂ (Fallen 0 ![0, -10] t t u) pair w.ps := by
  obtain ⟨r, h, t, w, hw⟩ := one_step_run musl (pm := .vm) (.inl rfl) (ps := pair) (by simp [pair])
    (fun p hp => (pair_rest p hp).1) ![0, -10]
  have hev : .particles 1 t w ∈ filesOf (runProgram (setup musl 1 .vm) true false 10 (start pair ![0, -10])) := by
    rw [h]; exact hw
  refine ⟨t, w, hev, ?_⟩
  obtain ⟨τ, u, -, -, -, hc, hm⟩ := C60_free_fall (R := setup musl 1 .vm) (s := start pair ![0, -10]) (deg := .two) (dx := 1)
    (fr := -19 / 20) (m := 3) (vol := 1) (mibf := false) rfl (by simp) one_pos (by norm_num) rfl rfl rfl rfl
    (fun _ _ => by simp [setup]) (by norm_num [setup, cfg, exConfig])
    (.inr ⟨Ex.mat_ok _, .inl ⟨rfl, by norm_num [setup, Ex.mat]⟩⟩) someSvd_isSvd
    (fun _ _ _ _ h _ => pair_step musl h) pair_rest hev (by simp [start])
  obtain ⟨rfl, h1, -⟩ := hc rfl
  exact ⟨u, h1, hm⟩

/-- `C05` for the step taken in that run. -/
example (musl : Bool) : ∃ (σ : ℕ → SimState 2 ℝ) (dt : ℕ → ℝ), (σ 0).ps = pair ∧
    momentum 3 (σ 1).ps = momentum 3 pair + (dt 0 * (2 * 3)) • ![0, -10] := by
  obtain ⟨r, h, t, w, hw⟩ := one_step_run musl (pm := .vm) (.inl rfl) (ps := pair) (by simp [pair])
    (fun p hp => (pair_rest p hp).1) ![0, -10]
  have hev : .particles 1 t w ∈ filesOf (runProgram (setup musl 1 .vm) true false 10 (start pair ![0, -10])) := by
    rw [h]; exact hw
  rcases run_particles hev (by simp [start]) with ⟨h, -⟩ | ⟨s1, dt, g, hst, -⟩
  · cases h
  have hgood := physStep_goodGrid (R := setup musl 1 .vm) rfl (by norm_num [setup, mkTransferParams]) rfl hst.phys
  have hn := pair_step musl hst
  obtain ⟨fr', hadv⟩ := physStep_advance hst.phys
  have hg : g = ![0, -10] ∧ s1.w.ps = pair ∧ s1.w.plates = [] := by
    obtain ⟨k, hr, -⟩ := id hst
    obtain ⟨-, hg⟩ := hst.dt_ge
    have hk := only_begin musl (by simp [pair]) (fun p hp => (pair_rest p hp).1) _ k s1 hr
    subst hk
    cases hr
    refine ⟨by rw [hg]; rfl, ?_, ?_⟩ <;> rw [begin_w] <;> simp [fillMuI, setup, start, mkTransferParams]
  obtain ⟨rfl, hps, hpl⟩ := hg
  have := C05_run (S := (setup musl 1 .vm).S) (deg := .two) (dx := 1) (fr := -19 / 20) (m := 3) (vol := 1) (mibf := false)
    rfl (by simp) (by norm_num) rfl 1 (fun k => if k = 0 then ⟨s1.w.ps, s1.w.box, s1.w.g, s1.step⟩ else ⟨w.ps, w.box, w.g, s1.step + 1⟩)
    (fun _ => dt) (fun _ => ![0, -10]) (fun _ => boundaryCollision (setup musl 1 .vm).ops false fr' dt [] s1.w.plates)
    (fun _ => plastTotal (setup musl 1 .vm) dt) (fun _ => (setup musl 1 .vm).sched s1.step) (fun _ _ => by simp [setup])
    (fun k hk => by obtain rfl : k = 0 := by omega
                    exact hadv)
    (fun k hk => by obtain rfl : k = 0 := by omega
                    exact hgood)
    (fun k hk => by obtain rfl : k = 0 := by omega
                    exact hn)
    (fun k hk => by rw [hpl]; intro i _ v; rfl) (fun _ _ => plastTotal_keeps _ _)
  refine ⟨fun k => if k = 0 then ⟨s1.w.ps, s1.w.box, s1.w.g, s1.step⟩ else ⟨w.ps, w.box, w.g, s1.step + 1⟩,
    fun _ => dt, hps, this.2.trans ?_⟩
  simp [hps, pair]

/-! ### a run that crashes -/

/-- A single particle flying to the right by half a cell per step. -/
def flier : List (Particle 2 ℝ) := [{ Particle.init with v := ![1, 0] }]

lemma N2_half (k : ℤ) : N2 ((1 / 2 : ℝ) - k) = 0 ∨ 1 / 8 ≤ N2 ((1 / 2 : ℝ) - k) := by
  rcases lt_trichotomy k 0 with h | h | h
  · left
    have : (k : ℝ) ≤ -1 := by exact_mod_cast (show k ≤ -1 by omega)
    simp only [N2, abs_of_nonneg (show (0 : ℝ) ≤ 1 / 2 - k by linarith)]
    rw [if_neg (by linarith), if_neg (by linarith)]
  · subst h; right; norm_num [N2, abs_of_nonneg]
  · rcases eq_or_lt_of_le (show 1 ≤ k by omega) with h | h
    · subst h; right; norm_num [N2, abs_of_nonpos]
    · left
      have : (2 : ℝ) ≤ k := by exact_mod_cast (show 2 ≤ k by omega)
      simp only [N2, abs_of_nonpos (show (1 / 2 : ℝ) - k ≤ 0 by linarith)]
      rw [if_neg (by linarith), if_neg (by linarith)]

lemma flier_least (a : Fin 2) : IsLeast (coords (none : Option (Fin 2 → ℝ)) (flier.map fun p => p.x) a) 0 ∧
    IsGreatest (coords (none : Option (Fin 2 → ℝ)) (flier.map fun p => p.x) a) 0 := by
  have : coords (none : Option (Fin 2 → ℝ)) (flier.map fun p => p.x) a = {0} := by
    ext y; simp [coords, flier, Particle.init, eq_comm]
  rw [this]
  exact ⟨isLeast_singleton, isGreatest_singleton⟩

lemma flier_ini : ∀ p ∈ flier, p.v = ![1, 0] ∧ p.Bmat = 0 ∧ p.tau = 0 ∧ Unstrained p.F := by
  intro p hp
  simp only [flier, List.mem_singleton] at hp
  subst hp
  exact ⟨rfl, rfl, rfl, by simp [Unstrained, Particle.init]⟩

section crash
variable (musl : Bool)

/-- What the particle looks like in flight. -/
lemma flier_state {w : World 2} {t : ℝ} {g : Fin 2 → ℝ}
    (h : FallInv (setup musl 2 .vm) (start flier 0) ![1, 0] w t g) :
    ∃ p, w.ps = [p] ∧ p.x = ![t, 0] ∧ p.v = ![1, 0] := by
  obtain ⟨-, -, -, τ, u, -, -, -, -, hF⟩ := h
  simp only [start, flier, List.forall₂_cons_left_iff, List.forall₂_nil_left_iff] at hF
  obtain ⟨p, l, ⟨h1, h2, -⟩, rfl, e⟩ := hF
  refine ⟨p, e, ?_, by rw [h1]; simp⟩
  rw [h2]
  ext a; fin_cases a <;> simp [Particle.init]

lemma flier_step {s1 : LoopState 2 (World 2)} {dt : ℝ} {g : Fin 2 → ℝ} {w : World 2}
    (hst : StepOf (setup musl 2 .vm) (start flier 0) s1 dt g w)
    (hf : FallInv (setup musl 2 .vm) (start flier 0) ![1, 0] s1.w s1.time s1.gravity)
    (ht : s1.time = 0 ∨ s1.time = 1 / 2) :
    FallInv (setup musl 2 .vm) (start flier 0) ![1, 0] w (s1.time + dt) g := by
  refine fall_step (deg := .two) (dx := 1) (fr := -19 / 20) (m := 3) (vol := 1) (mibf := false)
    rfl (by simp) one_pos (by norm_num) rfl rfl rfl (fun _ _ => by simp [setup])
    (by norm_num [setup, cfg, exConfig])
    (.inr ⟨Ex.mat_ok _, .inl ⟨rfl, by norm_num [setup, Ex.mat]⟩⟩) someSvd_isSvd flier_ini hst hf ?_
  obtain ⟨p, hp, hx, -⟩ := flier_state musl hf
  obtain ⟨m0, h0, h1⟩ := run_lattice (R := setup musl 2 .vm) (dx := 1) rfl one_pos rfl rfl (by simp [start, flier]) hst
  have hm0 : ∀ a, m0 a = 0 := fun a => (h0 a).unique (flier_least a).1
  intro q hq j hj
  rw [hp, List.mem_singleton] at hq
  subst hq
  choose k hk using fun a => h1 a _ (List.getElem_mem (hj a))
  have e1 : ∀ a, nodeAt w.g j a = k a := by
    intro a
    have := hk a
    rw [hm0] at this
    rw [nodeAt, List.getD_eq_getElem?_getD, List.getElem?_eq_getElem (hj a), Option.getD_some, this]
    ring
  have hN : ∀ a, N .two ((q.x a - nodeAt w.g j a) / 1) = 0 ∨ 1 / 8 ≤ N .two ((q.x a - nodeAt w.g j a) / 1) := by
    intro a
    rw [e1, hx, div_one]
    show N2 _ = 0 ∨ 1 / 8 ≤ N2 _
    have hint := N2_int (-(k a))
    fin_cases a
    · rcases ht with ht | ht
      · simpa [ht] using hint
      · have := N2_half (k 0)
        simpa [ht] using this
    · simpa using hint
  have hs : shape .two (1 : ℝ) (nodeAt w.g j) q.x = N .two ((q.x 0 - nodeAt w.g j 0) / 1) * N .two ((q.x 1 - nodeAt w.g j 1) / 1) :=
    Fin.prod_univ_two (fun a : Fin 2 => N .two ((q.x a - nodeAt w.g j a) / 1))
  rw [hs]
  rcases hN 0 with h0 | h0
  · left; rw [h0, zero_mul]
  rcases hN 1 with h1 | h1
  · left; rw [h1, mul_zero]
  right
  refine lt_of_lt_of_le ?_ (mul_le_mul h0 h1 (by norm_num) (by linarith))
  norm_num

lemma flier_speed {w : World 2} {t : ℝ} {g : Fin 2 → ℝ}
    (h : FallInv (setup musl 2 .vm) (start flier 0) ![1, 0] w t g) :
    maxSpeed ((physics (setup musl 2 .vm)).velocities w) = some 1 := by
  obtain ⟨p, hp, -, hv⟩ := flier_state musl h
  simp [physics, hp, maxSpeed, maxElement, hv, dotProduct, Fin.sum_univ_two]

lemma flier_dt (frame : ℕ) (t : ℝ) (h1 : t + 1 / 2 ≤ frame + 1) (h2 : t + 1 / 2 ≤ 2) :
    chooseDt (setup musl 2 .vm).C frame t 1 = 1 / 2 := by
  have e1 : (setup musl 2 .vm).C.dtMax = 1 := ex_dtMax (1 / 10) 2
  have e2 : (setup musl 2 .vm).C.frameDt = 1 := ex_frameDt (1 / 10) 2
  have e3 : (setup musl 2 .vm).C.finalTime = 2 := by
    show (exConfig (1 / 10) 2).finalTime = 2
    rw [ex_final]; norm_num
  have e4 : (setup musl 2 .vm).C.cfl = 1 / 2 := rfl
  have e5 : (setup musl 2 .vm).C.dx = 1 := rfl
  have e6 : (setup musl 2 .vm).C.minDt = 1 / 10 := rfl
  simp only [chooseDt, e1, e2, e3, e4, e5, e6]
  have a1 : (1 / 2 : ℝ) ≤ 1 * (frame + 1) - t := by linarith
  have a2 : (1 / 2 : ℝ) ≤ 2 - t := by linarith
  rw [if_pos (by norm_num [abs_of_nonneg])]
  rw [show min ((1 : ℝ) / 2 * 1 / 1) 1 = 1 / 2 by norm_num, min_eq_left a1, min_eq_left a2]
  norm_num

lemma flier_continue {fuel k : ℕ} {s1 : LoopState 2 (World 2)} 
    (hr : Reach (setup musl 2 .vm).C (physics (setup musl 2 .vm)) 0 (begin (setup musl 2 .vm) (start flier 0)) k s1)
    (hf : FallInv (setup musl 2 .vm) (start flier 0) ![1, 0] s1.w s1.time s1.gravity)
    (hfr : s1.frame = 0) (ht : s1.time = 0 ∨ s1.time = 1 / 2)
    (hnext : ∀ s2, Reach (setup musl 2 .vm).C (physics (setup musl 2 .vm)) 0 (begin (setup musl 2 .vm) (start flier 0)) (k + 1) s2 →
      FallInv (setup musl 2 .vm) (start flier 0) ![1, 0] s2.w s2.time s2.gravity → s2.time = s1.time + 1 / 2 →
      s2.frame = (if s1.time = 0 then 0 else 1) → s2.step = s1.step + 1 →
      loop (setup musl 2 .vm).C (physics (setup musl 2 .vm)) 0 fuel s2 = .ub) :
    loop (setup musl 2 .vm).C (physics (setup musl 2 .vm)) 0 (fuel + 1) s1 = .ub := by
  have hlt : s1.frame < (setup musl 2 .vm).C.endFrame := by rw [hfr]; norm_num [setup, cfg, exConfig]
  unfold loop
  rw [if_pos hlt]
  rcases loopBody_cases (C := (setup musl 2 .vm).C) (ph := physics (setup musl 2 .vm)) (gf := 0) s1 with
    h | ⟨_, _, _, hu, h, _⟩ | ⟨dt, g, w, hu, hmin, -, hg, hst, h⟩
  · rw [h]
  · refine absurd (physStep_ok (.inr (.inl rfl)) (lt_of_lt_of_le ?_ (updateDt_ge hu)) h) (by simp)
    norm_num [setup, cfg, exConfig]
  have hstep : StepOf (setup musl 2 .vm) (start flier 0) s1 dt g w := ⟨k, hr, hlt, hu, hst⟩
  simp only [updateDt, flier_speed musl hf, Option.map_some, Option.some.injEq, Prod.mk.injEq] at hu
  have hdt : dt = 1 / 2 := by
    rw [← hu.1, hfr]
    rcases ht with ht | ht
    · exact flier_dt musl 0 _ (by rw [ht]; norm_num) (by rw [ht]; norm_num)
    · exact flier_dt musl 0 _ (by rw [ht]; norm_num) (by rw [ht]; norm_num)
  have hf' := flier_step musl hstep hf ht
  have e2 : (setup musl 2 .vm).C.frameDt = 1 := ex_frameDt (1 / 10) 2
  have e3 : (setup musl 2 .vm).C.finalTime = 2 := by
    show (exConfig (1 / 10) 2).finalTime = 2
    rw [ex_final]; norm_num
  have e6 : (setup musl 2 .vm).C.minDt = 1 / 10 := rfl
  simp only at h
  rw [if_neg] at h
  swap
  · rw [endOfFrame_time, e3, e6, hdt]
    rcases ht with ht | ht <;> rw [ht] <;> norm_num [abs_of_nonneg]
  rw [h]
  refine hnext _ (.next hr hlt h) ?_ ?_ ?_ ?_
  · rw [endOfFrame_w, endOfFrame_time, endOfFrame_gravity]; exact hf'
  · rw [endOfFrame_time, hdt]
  · rw [endOfFrame_frame, hdt, e2, e6, hfr]
    rcases ht with ht | ht <;> rw [ht] <;> norm_num
  · rw [endOfFrame_step]

end crash

/-! ### a periodic run -/

/-- The same material in a periodic domain of 8 x 4 cells. -/
def perSetup (musl : Bool) : Setup 2 where
  C := cfg 1
  S := ⟨mkTransferParams .two 1 (-19 / 20) false 3 1, musl, true, false, ![8, 4], none⟩
  m := Ex.mat .vm
  objs := []
  ops := plateOps2
  cabs := abs
  svd := someSvd
  sched := fun _ ps => [ps]

/-- Two particles next to the seam, at rest, one of them stretched beyond yield. -/
def seam : List (Particle 2 ℝ) :=
  [{ Particle.init with x := ![0, 2] }, { Particle.init with x := ![7, 2], F := diagonal ![Real.exp 1, Real.exp (-1)] }]

lemma seam_rest : ∀ p ∈ seam, p.v = 0 := by simp [seam, Particle.init]

lemma seam_dom : InDomain 1 ![8, 4] seam where
  x p hp := by
    simp only [seam, List.mem_cons, List.not_mem_nil, or_false] at hp
    rcases hp with rfl | rfl <;> constructor <;> norm_num
  y p hp := by
    simp only [seam, List.mem_cons, List.not_mem_nil, or_false] at hp
    rcases hp with rfl | rfl <;> constructor <;> norm_num
  z p hp a h0 h1 := by fin_cases a <;> simp_all

lemma perL : ∀ a : Fin (0 + 2), 0 ≤ (![8, 4] : Fin (0 + 2) → ℝ) a := by
  intro a; fin_cases a <;> norm_num

lemma InDomain.covered {K : Type*} [Field K] [LinearOrder K] [IsStrictOrderedRing K] {d : ℕ} {dx : K} (h0 : 0 < dx)
    {L : Fin (d + 2) → K} {ps : List (Particle (d + 2) K)} (h : InDomain dx L ps) : Covered dx L ps := by
  intro p hp a
  by_cases h1 : a = 1
  · rw [if_pos h1, h1]; exact h.y p hp
  · rw [if_neg h1]
    by_cases h2 : a = 0
    · rw [h2]; have := h.x p hp; constructor <;> linarith [this.1, this.2]
    · exact h.z p hp a h2 h1

lemma seam_begin (musl : Bool) (ps : List (Particle 2 ℝ)) (g : Fin 2 → ℝ) :
    (begin (perSetup musl) (start ps g)).w = (start ps g).w := by
  rw [begin_w]; simp [fillMuI, perSetup, mkTransferParams]

/-- The run of one frame ends normally (`C68`). -/
lemma seam_run (musl : Bool) :
    ∃ r, runProgram (perSetup musl) true false 10 (start seam ![1, -10]) = .finished r ∧
      ∃ t w, .particles 1 t w ∈ r.out := by
  obtain ⟨r, h1, -, t, w, h2, -⟩ := C68_completes (R := perSetup musl) (s := start seam ![1, -10]) (deg := .two) (dx := 1)
    (fr := -19 / 20) (m := 3) (vol := 1) (i := true) (e := false) (fuel := 10)
    rfl one_pos perL rfl rfl (by simp [start, seam]) (fun _ _ => by simp [perSetup])
    (.inl (.inr (.inl ⟨Ex.mat_ok _, rfl⟩))) (.inr (.inl rfl)) rfl
    (by norm_num [perSetup, cfg, exConfig]) (by norm_num) (by norm_num [perSetup, cfg, exConfig])
    (by norm_num [perSetup, cfg, exConfig]) rfl (by norm_num [perSetup, cfg, exConfig])
    (fun k s1 hr _ => by
      have hk := only_begin_of (R := perSetup musl) rfl (by simp [seam]) seam_rest _ k s1 hr
      subst hk
      cases hr
      rw [seam_begin]
      exact InDomain.covered one_pos seam_dom)
  refine ⟨r, h1, t 1, w 1, ?_⟩
  rw [h2]
  simp [frameFiles, perSetup, cfg, exConfig]

lemma seam_step (musl : Bool) {g : Fin 2 → ℝ} {s1 : LoopState 2 (World 2)} {dt : ℝ} {g' : Fin 2 → ℝ} {w : World 2}
    (hst : StepOf (perSetup musl) (start seam g) s1 dt g' w) :
    InDomain 1 ![8, 4] s1.w.ps ∧ NoTinyWeights .two 1 w.g s1.w.ps := by
  have hphys := hst.phys
  obtain ⟨k, hr, -⟩ := hst
  have hk := only_begin_of (R := perSetup musl) rfl (by simp [seam]) seam_rest g k s1 hr
  subst hk
  cases hr
  have hgrid := (physStep_periodic (R := perSetup musl) rfl rfl (by rw [seam_begin]; rfl) hphys).2.1
  rw [begin_step, if_pos (show (start seam g).step = 0 from rfl)] at hgrid
  have hmesh : remeshPeriodic (1 : ℝ) (![8, 4] : Fin (0 + 2) → ℝ) 4 = some w.g := hgrid
  rw [seam_begin]
  refine ⟨seam_dom, ?_⟩
  obtain ⟨g0, hg0, hax⟩ := periodic_grid (d := 0) (one_pos (α := ℝ)) perL
  obtain rfl := Option.some.inj (hmesh.symm.trans hg0)
  have hint : ∀ a, ∀ j < (w.g a).length, ∃ k : ℤ, (w.g a).getD j 0 = k := by
    intro a j hj
    obtain ⟨⟨x0, hu⟩, hh, -⟩ := hax a
    have hx0 : x0 = if a.val = 1 then -1 else -5 := by
      rw [hu] at hh
      cases hl : (w.g a).length with
      | zero => omega
      | succ n =>
        rw [hl, List.range_succ_eq_map] at hh
        simp only [List.map_cons, List.head?_cons, Option.some.injEq] at hh
        rw [← show x0 + ((0 : ℕ) : ℝ) * 1 = x0 by simp, hh]; norm_num
    rw [hu, List.getD_eq_getElem?_getD, List.getElem?_map, List.getElem?_range hj]
    simp only [Option.map_some, Option.getD_some, mul_one, hx0]
    split_ifs
    · exact ⟨-1 + j, by push_cast; ring⟩
    · exact ⟨-5 + j, by push_cast; ring⟩
  have hpos : ∀ p ∈ seam, ∀ a, ∃ k : ℤ, p.x a = k := by
    intro p hp a
    simp only [seam, List.mem_cons, List.not_mem_nil, or_false] at hp
    rcases hp with rfl | rfl <;> fin_cases a
    · exact ⟨0, by simp⟩
    · exact ⟨2, by simp⟩
    · exact ⟨7, by simp⟩
    · exact ⟨2, by simp⟩
  intro p hp j hj
  have hN : ∀ a, N .two ((p.x a - nodeAt w.g j a) / 1) = 0 ∨ 1 / 8 ≤ N .two ((p.x a - nodeAt w.g j a) / 1) := by
    intro a
    obtain ⟨k, hk⟩ := hint a _ (hj a)
    obtain ⟨k', hk'⟩ := hpos p hp a
    have : (p.x a - nodeAt w.g j a) / 1 = ((k' - k : ℤ) : ℝ) := by rw [nodeAt, hk, hk']; push_cast; ring
    rw [this]
    exact N2_int _
  have hs : shape .two (1 : ℝ) (nodeAt w.g j) p.x =
      N .two ((p.x 0 - nodeAt w.g j 0) / 1) * N .two ((p.x 1 - nodeAt w.g j 1) / 1) :=
    Fin.prod_univ_two (fun a : Fin 2 => N .two ((p.x a - nodeAt w.g j a) / 1))
  rw [hs]
  rcases hN 0 with h0 | h0
  · left; rw [h0, zero_mul]
  rcases hN 1 with h1 | h1
  · left; rw [h1, mul_zero]
  right
  refine lt_of_lt_of_le ?_ (mul_le_mul h0 h1 (by norm_num) (by linarith))
  norm_num

/-- `C67` for the file of frame 1. -/
example (musl : Bool) : ∃ t w,
    .particles 1 t w ∈ filesOf (runProgram (perSetup musl) true false 10 (start seam ![1, -10])) ∧
    momentum 3 w.ps = momentum 3 seam + (t * (2 * 3)) • ![1, -10] := by
  obtain ⟨r, h, t, w, hw⟩ := seam_run musl
  have hev : .particles 1 t w ∈ filesOf (runProgram (perSetup musl) true false 10 (start seam ![1, -10])) := by
    rw [h]; exact hw
  refine ⟨t, w, hev, ?_⟩
  obtain ⟨-, -, c, -, -, hc, hm⟩ := C67_run (R := perSetup musl) (s := start seam ![1, -10]) (deg := .two) (dx := 1)
    (fr := -19 / 20) (m := 3) (vol := 1) (n8 := 8) rfl (by simp) one_pos (by norm_num) rfl perL le_rfl
    (by norm_num [perSetup]) rfl rfl rfl
    (fun _ _ => by simp [perSetup]) (by norm_num [perSetup, cfg, exConfig]) (fun _ _ _ _ h => seam_step musl h) hev
    (by simp [start])
  rw [hm, hc rfl]
  simp [start, seam]

/-- `C68`: a particle a tenth of a cell below the domain. -/
example (musl : Bool) : runProgram (perSetup musl) true false 10
    (start [{ Particle.init with x := ![3, -1 / 10] }] 0) = .ub :=
  C68_outside (deg := .two) (dx := 1) (fr := -19 / 20) (m := 3) (vol := 1) rfl one_pos perL rfl rfl rfl .start
    (lt_of_eq_of_lt (start_frame _) (by norm_num [perSetup, cfg, exConfig])) (by norm_num)
    ⟨_, by rw [seam_begin]; exact List.mem_singleton.mpr rfl, 1, .inl (by norm_num)⟩

end
end Verif.Props.RunEx

namespace Verif.Props
open Verif Matrix RunEx

/-- **C58** The window is reached by very simple runs: one particle without any load flies by half a cell per
step. After two steps it has moved by exactly one cell, and the third step accesses memory outside of
the grid. -/
theorem C58_window_reached (musl : Bool) :
    runProgram (setup musl 2 .vm) true false 100 (start flier 0) = .ub := by
  have hw : (begin (setup musl 2 .vm) (start flier 0)).w = (start flier 0).w := by
    rw [begin_w]; simp [fillMuI, setup, mkTransferParams]
  have hf0 : FallInv (setup musl 2 .vm) (start flier 0) ![1, 0] (begin (setup musl 2 .vm) (start flier 0)).w
      (begin (setup musl 2 .vm) (start flier 0)).time (begin (setup musl 2 .vm) (start flier 0)).gravity := by
    rw [hw, begin_time, begin_gravity]
    refine ⟨rfl, fun _ => rfl, le_rfl, 0, 0, le_rfl, le_rfl, le_rfl, fun _ => ⟨rfl, by simp, by simp⟩, ?_⟩
    have : (start flier 0).w.ps = [{ Particle.init with v := ![1, 0] }] := rfl
    rw [this]
    refine .cons ⟨by simp, by simp, rfl, rfl, rfl⟩ .nil
  have hrun : runProgram (setup musl 2 .vm) true false 100 (start flier 0) =
      loop (setup musl 2 .vm).C (physics (setup musl 2 .vm)) 0 (98 + 1 + 1) (begin (setup musl 2 .vm) (start flier 0)) := by
    have hacc : accepted true (setup musl 2 .vm).m.elastic (setup musl 2 .vm).m.plastic false = true := by cases musl <;> rfl
    rw [runProgram, if_pos hacc, simulate_eq hacc]; rfl
  rw [hrun]
  refine flier_continue musl .start hf0 (start_frame _) (.inl begin_time) fun s1 hr1 hf1 ht1 hfr1 hs1 => ?_
  rw [begin_time] at ht1 hfr1
  rw [if_pos rfl] at hfr1
  have ht1 : s1.time = 1 / 2 := by rw [ht1]; norm_num
  refine flier_continue musl hr1 hf1 hfr1 (.inr ht1) fun s2 hr2 hf2 ht2 hfr2 hs2 => ?_
  rw [ht1, if_neg (by norm_num)] at hfr2
  have ht2 : s2.time = 1 := by rw [ht2, ht1]; norm_num
  -- the third step
  have hlt : s2.frame < (setup musl 2 .vm).C.endFrame := by rw [hfr2]; norm_num [setup, cfg, exConfig]
  unfold loop
  rw [if_pos hlt]
  rcases loopBody_cases (C := (setup musl 2 .vm).C) (ph := physics (setup musl 2 .vm)) (gf := 0) s2 with
    h | ⟨_, _, _, hu, h, _⟩ | ⟨dt, g, w, hu, hmin, -, hg, hst, h⟩
  · rw [h]
  · refine absurd (physStep_ok (.inr (.inl rfl)) (lt_of_lt_of_le ?_ (updateDt_ge hu)) h) (by simp)
    norm_num [setup, cfg, exConfig]
  exfalso
  have hstep : StepOf (setup musl 2 .vm) (start flier 0) s2 dt g w := ⟨_, hr2, hlt, hu, hst⟩
  have hgood := physStep_goodGrid (R := setup musl 2 .vm) rfl (by norm_num [setup, mkTransferParams]) rfl hst
  obtain ⟨p, hp, hx, -⟩ := flier_state musl hf2
  have hne : (start flier 0).w.ps ≠ [] := by simp [start, flier]
  obtain ⟨r, hr, -⟩ := C13_first_step (ps := (start flier 0).w.ps) .two (one_pos (α := ℝ)) none hne
  have hbox := (box_inv (R := setup musl 2 .vm) (s := start flier 0) (by norm_num [setup, mkTransferParams]) rfl rfl hne
    (r := r) hr hstep).1.2 (by rw [hs2]; omega)
  have hb := C13_box (by simpa using hne) hr 0
  have hmin0 : (r.1 0).minInit = 0 := hb.1.unique (flier_least 0).1
  have hmax0 : (r.1 0).maxInit = 0 := hb.2.unique (flier_least 0).2
  have hhi : (r.1 0).highInit = 2 ∧ (r.1 0).lowInit = -2 := by
    have h1 := hr
    simp only [remeshInit, Option.bind_eq_bind, Option.bind_eq_some_iff, Option.some.injEq] at h1
    obtain ⟨ai, h2, _, _, h3⟩ := h1
    have h2 := of_sequenceFin_some h2 0
    obtain ⟨ai', h4, h5⟩ := axisInit_spec (1 : ℝ) ((none : Option (Fin 2 → ℝ)).map fun r => r 0)
      (xs := ((start flier 0).w.ps.map fun p => p.x).map fun x => x 0) (by simpa using hne)
    rw [h4] at h2
    have e : ai 0 = r.1 0 := by rw [← h3]
    rw [← e, ← Option.some.inj h2, h5.high, h5.low]
    rw [← Option.some.inj h2] at e
    rw [e, hmin0, hmax0]; norm_num
  obtain ⟨fr', hadv⟩ := physStep_advance hst
  simp only [advanceStep, Option.bind_eq_bind, Option.bind_eq_some_iff] at hadv
  obtain ⟨bg, hbg, ps, -, hσ⟩ := hadv
  injection hσ with hσ
  injection hσ with _ _ hgg _
  have hin := hgood.inside p (by rw [hp]; simp) 0
  rw [← hgg] at hin
  simp only [chooseGrid] at hbg
  rw [if_neg (by simp [setup]), if_neg (by rw [hs2]; omega), hbox.1] at hbg
  simp only [Option.bind_some, Option.map_eq_some_iff] at hbg
  obtain ⟨gg, hg, rfl⟩ := hbg
  have h2 := of_sequenceFin_some hg 0
  simp only [axisContNodes, Option.bind_eq_bind, Option.bind_eq_some_iff, hp, List.map_cons, List.map_nil, hx, ht2] at h2
  obtain ⟨mx, h3, mn, h4, h2⟩ := h2
  simp only [maxElem, minElem, List.foldl_nil, Option.some.injEq, cons_val_zero] at h3 h4
  have hdx1 : (setup musl 2 .vm).S.P.dx = 1 := rfl
  have hc : cellCount (1 : ℝ) 1 = 0 := by
    rw [cellCount, Nat.floor_eq_zero]
    norm_num
  have hC : contHigh (1 : ℝ) (r.1 0) mx = 2 ∧ contLow (1 : ℝ) (r.1 0) mn = -2 := by
    rw [← h3, ← h4, contHigh, contLow, hmax0, hmin0, hhi.1, hhi.2, if_neg (by norm_num), if_pos (by norm_num)]
    simp [hc]
  rw [hdx1, hC.1, hC.2, arange_eq one_pos] at h2
  have hlist : gg 0 = [-2, -1, 0, 1, 2] := by
    rw [← Option.some.inj h2]
    have : ⌈((2 : ℝ) + 1 - -2) / 1⌉₊ = 5 := by norm_num
    rw [this]
    simp [List.range_succ]
    norm_num
  obtain ⟨first, last, -, hl, -, hb2⟩ := hin
  simp only at hl
  rw [hlist] at hl
  simp only [List.getLast?_cons_cons, List.getLast?_singleton, Option.some.injEq] at hl
  rw [← hl, hx, ht2, hdx1] at hb2
  norm_num at hb2

/-- `C62` for the pair: swapped particles, and one thread for every particle. -/
example (musl : Bool) (n : ℕ) (g : Fin 2 → ℝ) := C62_order (R := RunEx.setup musl n .vm) (o := [1, 0])
  (s := RunEx.start RunEx.pair g) (fun k ps => by simp [RunEx.setup]) (show [1, 0].Perm (List.range 2) by decide) true false 10
example (musl : Bool) (n : ℕ) (g : Fin 2 → ℝ) := C62_threads (R := RunEx.setup musl n .vm)
  (sched := fun _ ps => ps.map fun p => [p]) (fun k ps => by simp [RunEx.setup])
  (fun k ps => by
    have : (ps.map fun p => [p]).flatten = ps := by induction ps with
      | nil => rfl
      | cons p ps ih => simpa using ih
    rw [this]) true false 10 (RunEx.start RunEx.pair g)

/-- `C63` for the pair above a floor that moves up. -/
example (musl : Bool) (n : ℕ) (g c : Fin 2 → ℝ) := C63_shift2 (R := RunEx.setup musl n .vm) rfl
  (fun k ps => by simp [RunEx.setup]) rfl rfl c true false 10
  ⟨⟨RunEx.pair, none, fun _ => [], [⟨-1, .bottom, .slipFree, 1 / 2, -5, 5, ![0, 1], ![0, 1], 1, 0⟩], fun _ => 0, fun _ => 0, fun _ => 0⟩, 0, 0, 0, g, []⟩

/-- `C64_run_partial`: the particle stretched beyond yield, one step with MUSL. -/
example : ∃ t w, .particles 1 t w ∈ filesOf (runProgram (RunEx.setup true 1 .vm) true false 10
      (RunEx.start RunEx.stretched ![0, -10])) ∧
    ∃ s1 dt g, StepOf (RunEx.setup true 1 .vm) (RunEx.start RunEx.stretched ![0, -10]) s1 dt g w ∧ t = s1.time + dt ∧ 0 < dt ∧
      List.Forall₂ (fun p p' => p'.deltaGamma = (Ex.mat .vm).dPre * ((p'.epsPlDev - p.epsPlDev) / dt)) s1.w.ps w.ps := by
  obtain ⟨r, h, t, w, hw⟩ := RunEx.stretched_run true (.inl rfl)
  have hev : .particles 1 t w ∈ filesOf (runProgram (RunEx.setup true 1 .vm) true false 10
      (RunEx.start RunEx.stretched ![0, -10])) := by
    rw [h]; exact hw
  refine ⟨t, w, hev, ?_⟩
  rcases C64_run_partial (R := RunEx.setup true 1 .vm) (Ex.mat_ok _) (by norm_num [RunEx.setup, Ex.mat])
    (by simp [RunEx.setup, Ex.mat]) (by norm_num [RunEx.setup, RunEx.cfg, exConfig]) rfl hev (by simp [RunEx.start]) with h | h
  · exact absurd h.1 (by norm_num)
  · exact h

/-- **C70** Walls do leak: a particle above a no-slip floor, on which a row of nodes lies, is below it after one step in
which it would fall by less than a cell (quadratic splines; the nodes above the floor are not stopped). -/
theorem C70_exact_false (musl : Bool) : ∃ (q : Plate 2) (p p' : Particle 2 ℝ), q.type = .bottom ∧ q.bc = .noSlip ∧
    q.vel = 0 ∧ q.pos = 0 ∧ 0 < p.x 1 ∧ -1 < p.v 1 ∧
    stepOnGrid (RunEx.setup musl 1 .vm).S 1 0 (boundaryCollision plateOps2 false (fun _ => 0) 1 [] [q]) (fun p => p)
      RunEx.fallGrid [] [[p]] [p] = some [p'] ∧ p'.x 1 < 0 := by
  let S := (RunEx.setup musl 1 .vm).S
  let q : Plate 2 := ⟨0, .bottom, .noSlip, 0, -9, 9, 0, 0, 1, 0⟩
  let bc := boundaryCollision plateOps2 false (fun _ => 0) 1 [] [q]
  have hk : KeepsMotion (fun p : Particle 2 ℝ => p) := ⟨fun _ => rfl, fun _ => rfl, fun _ => rfl, fun _ => rfl, fun _ => rfl⟩
  obtain ⟨F, hF, hF2⟩ := stepOnGrid_eq (d := 0) (S := S) (deg := .two) (dx := 1) (dt := 1) (grav := 0) (bc := bc)
    (threads := [[RunEx.faller]]) (plast := fun p => p) rfl rfl RunEx.fall_good (List.Perm.refl _) hk
  refine ⟨q, RunEx.faller, F RunEx.faller, rfl, rfl, rfl, rfl, by norm_num [RunEx.faller], by norm_num [RunEx.faller],
    hF, ?_⟩
  obtain ⟨-, -, -, hx, -⟩ := hF2 RunEx.faller (by simp)
  have hg := goodAt (deg := .two) RunEx.fall_good.dx_pos RunEx.fall_good.uniform
    (RunEx.fall_good.inside RunEx.faller (by simp))
  rw [hx]
  have hp1 : S.pbc = false := rfl
  have hp2 : S.changePos = false := rfl
  simp only [positionParticle, hp1, hp2, Bool.false_eq_true, if_false, g2pTransfer, Pi.add_apply, Pi.smul_apply,
    smul_eq_mul, interpV_eq, Finset.sum_apply, one_mul]
  set s := stencilOf .two 1 RunEx.fallGrid RunEx.faller.x with hs
  let h : ℝ → ℝ := fun y => if y - 9 / 10 ≤ 0 then 0 else -9 / 10
  have hnode : ∀ c, s.weight c * (stepEuler S .two 1 1 0 bc RunEx.fallGrid [RunEx.faller]).v
      (flatIndex (Axes.size RunEx.fallGrid) (s.node c)) 1 = s.weight c * h (s.nodePos c 1) := by
    intro c
    set j := s.node c
    have hj : IsNode RunEx.fallGrid j := fun a => hg.ok.node_lt c a
    rcases RunEx.fall_noTiny hj with h0 | h0
    · rw [hg.weight c, hg.pos c, h0, zero_mul, zero_mul]
    congr 1
    obtain ⟨n1, n2⟩ := node_values (dt := 1) (grav := 0) (S := S) (deg := .two) (dx := 1) (fr := -19 / 20) (m := 3)
      (vol := 1) (mibf := false) rfl (by norm_num) RunEx.fall_good hj
    set X := nodeAt RunEx.fallGrid j
    have hM : massAt .two 1 3 [RunEx.faller] X = 3 * shape .two 1 X RunEx.faller.x := by
      simp only [massAt, List.filter_cons, decide_eq_true h0, if_true, List.filter_nil]
      simp
    have hsp : 0 < shape .two 1 X RunEx.faller.x := lt_trans (by positivity) h0
    have hMp : 0 < massAt .two 1 3 [RunEx.faller] X := by rw [hM]; positivity
    have hFm : freeMomentum .two 1 (-19 / 20) S.P.apicDinverse 3 1 1 0 [RunEx.faller] X =
        (3 * shape .two 1 X RunEx.faller.x) • ![0, -9 / 10] := by
      simp only [freeMomentum, List.filter_cons, decide_eq_true h0, if_true, List.filter_nil]
      simp only [List.map_cons, List.map_nil, List.sum_cons, List.sum_nil, RunEx.faller, Particle.init]
      ext a
      fin_cases a <;> simp
      ring
    have hu : beforeWalls S .two 1 1 0 RunEx.fallGrid [RunEx.faller] (flatIndex (Axes.size RunEx.fallGrid) j) =
        ![0, -9 / 10] := by
      rw [hFm, hM] at n2
      exact smul_right_injective _ (by positivity : 3 * shape .two 1 X RunEx.faller.x ≠ 0) n2
    have hat := (eulerUpdate_at S.P 1 0 bc RunEx.fallGrid (p2gFinish S.P (raw S.P .two 1 RunEx.fallGrid [RunEx.faller])) hj).1
    rw [if_pos (by rw [n1]; exact hMp)] at hat
    have hv : (stepEuler S .two 1 1 0 bc RunEx.fallGrid [RunEx.faller]).v (flatIndex (Axes.size RunEx.fallGrid) j) =
      bc (flatIndex (Axes.size RunEx.fallGrid) j) X ![0, -9 / 10] := by
      rw [← hu]; exact hat
    rw [hv, hg.pos c]
    show bc _ X ![0, -9 / 10] 1 = if X 1 - 9 / 10 ≤ 0 then 0 else -9 / 10
    have hX0 : -9 < X 0 ∧ X 0 < 9 := by
      have : X 0 ∈ ([-2, -1, 0, 1, 2, 3] : List ℝ) := by
        show nodeAt RunEx.fallGrid j 0 ∈ _
        rw [nodeAt, List.getD_eq_getElem?_getD, List.getElem?_eq_getElem (hj 0)]
        exact List.getElem_mem _
      simp only [List.mem_cons, List.not_mem_nil, or_false] at this
      rcases this with h | h | h | h | h | h <;> rw [h] <;> norm_num
    have hins : plateOps2.inside q (X + (1 : ℝ) • ![0, -9 / 10]) ↔ X 1 - 9 / 10 ≤ 0 := by
      simp only [plateOps2, Plate.inside2, q]
      simp only [Pi.add_apply, Pi.smul_apply, smul_eq_mul, cons_val_zero, cons_val_one, mul_zero, add_zero, one_mul, sub_zero,
        gt_iff_lt, hX0.1, hX0.2, true_and]
      rw [show X 1 + -9 / 10 = X 1 - 9 / 10 by ring]
    simp only [bc, boundaryCollision, collideObjects, collidePlates, List.foldl_cons, List.foldl_nil]
    by_cases hc : X 1 - 9 / 10 ≤ 0
    · rw [if_pos hc, if_pos (hins.mpr hc)]
      simp [plateOps2, plateRel2, q]
    · rw [if_neg hc, if_neg (fun h => hc (hins.mp h))]
      simp
  rw [Finset.sum_congr rfl fun c _ => hnode c]
  obtain ⟨f, f0, f1, hm, hsum⟩ := marginal (deg := .two) RunEx.fall_good.dx_pos RunEx.fall_good.uniform
    (RunEx.fall_good.inside RunEx.faller (by simp)) 1
  rw [hsum h]
  have hf : f = 1 / 20 := by
    have := hm 1
    simp only [RunEx.fallGrid, RunEx.faller, stencilArg, List.mem_cons, List.not_mem_nil, or_false, cons_val_one] at this
    norm_num at this
    rcases this with h | h | h | h | h | h <;> linarith
  obtain ⟨a0, a1, a2, a3⟩ := stencilArg_vals f
  rw [sum4, a0, a1, a2, a3, hf]
  simp only [h, RunEx.faller, N, cons_val_one]
  norm_num [N2, abs_of_nonneg, abs_of_nonpos]

end Verif.Props
