import Verif.Props.Strength
import Mathlib.Analysis.Real.Pi.Bounds

set_option linter.unusedSectionVars false
set_option linter.unusedSimpArgs false
set_option linter.unusedVariables false

/-!
# C90: README.md

The set-up file printed in the README, and its tables of default values.
-/

namespace Verif.Props
open Verif Matrix
noncomputable section

section readme
variable {d : ℕ} {r : Sampled (d + 2)} {len : Fin (d + 2) → ℝ} {b : Build (d + 2)} {fuel : ℕ}

/-- The simulation set up by the README's file from sampled particles. -/
abbrev readmeSim (r : Sampled (d + 2)) (len : Fin (d + 2) → ℝ) : Sim (d + 2) :=
  readmeAfter ((readmeBefore true len).takeSampled r)

/-- Its set-up. -/
abbrev readmeSetup (r : Sampled (d + 2)) (len : Fin (d + 2) → ℝ) (b : Build (d + 2)) : Setup (d + 2) :=
  (readmeSim r len).setup b (Nat.succ_pos _) r.dx r.mass r.volume

/-- What is claimed of the simulation `s` set up by the README's file for `N` particles. -/
def ReadmeClaims (s : Sim (d + 2)) (b : Build (d + 2)) (N : ℕ) : Prop :=
  ∃ dx m vol, s.dx = some dx ∧ 0 < dx ∧ s.particleMass = some m ∧ N * m = 1000 ∧
    -- end of the run
    (∀ fuel, 2 * 10 ^ 14 ≤ fuel →
      (∀ k s1, Reach (s.setup b (Nat.succ_pos _) dx m vol).C (physics (s.setup b (Nat.succ_pos _) dx m vol)) s.gravity
        (begin (s.setup b (Nat.succ_pos _) dx m vol) s.fresh) k s1 → 0 < k →
        ¬ Critical (s.setup b (Nat.succ_pos _) dx m vol) s.fresh.w.ps s1.w.ps) →
      ∃ e, s.simulate b fuel = .finished e ∧ e.frame = 20 ∧ ∃ (t : ℕ → ℝ) (w : ℕ → World (d + 2)),
        e.out = [.info, .particles 0 0 s.fresh.w] ++
          (List.range 20).map (fun n => .particles (n + 1) (t (n + 1)) (w (n + 1))) ++
          [.particles 20 (t 20) (w 20), .timing e.step] ∧
        ∀ n, 1 ≤ n → n ≤ 20 → n / 10 - 1.1e-14 < t n ∧ t n ≤ n / 10) ∧
    -- contents of the files, however the run ends
    ∀ fuel n t w, .particles n t w ∈ filesOf (s.simulate b fuel) →
      w.ps.length = N ∧
      (n = 0 ∧ (∀ p ∈ w.ps, p.tau = 0) ∨ ∃ s1 dt g, StepOf (s.setup b (Nat.succ_pos _) dx m vol) s.fresh s1 dt g w ∧
        ∀ a, g a = if a = 1 then -9.81 else 0) ∧
      (∀ p ∈ w.ps, 0 ≤ savedP p.tau ∧ savedQ (√(1 / 2)) p.tau ≤ 0.5 * savedP p.tau) ∧
      (WithinPlate (s.setup b (Nat.succ_pos _) dx m vol) s.fresh dx m vol → ∀ p ∈ w.ps, -(3 / 2 * dx) ≤ p.x 1)

lemma readme_solid (hd : d = 0 ∨ d = 1) (hsvd : ∀ F, IsSvd F (b.svd F)) : Solid (readmeSim r len) b where
  dim := hd
  hE := by show (0 : ℝ) < 1e6; norm_num
  nu1 := by show (-1 : ℝ) < 0.3; norm_num
  nu2 := by show (0.3 : ℝ) < 1 / 2; norm_num
  hq := by show (0 : ℝ) < 1 / √2; positivity
  hel := rfl
  svd := hsvd
  minDt := by show (0 : ℝ) < 1e-14; norm_num

lemma readme_ne (h : MpmParticles r) : (readmeSim r len).fresh.w.ps ≠ [] := h.ne

lemma exists_least {ps : List (Fin (d + 2) → ℝ)} (hne : ps ≠ []) (a : Fin (d + 2)) :
    ∃ m0, IsLeast (coords none ps a) m0 := by
  have hf : (coords none ps a).Finite := (List.finite_toSet (ps.map fun x => x a)).subset fun y hy => by
    simpa [coords] using hy
  obtain ⟨x, hx⟩ := List.exists_mem_of_ne_nil ps hne
  obtain ⟨m, hm, hl⟩ := Set.exists_min_image (coords none ps a) id hf ⟨x a, .inl ⟨x, hx, rfl⟩⟩
  exact ⟨m, hm, hl⟩

/-- Some node is at or just below the floor. -/
lemma exists_floor {dx m0 : ℝ} (hdx : 0 < dx) : ∃ z : ℝ, (∃ k : ℤ, z = m0 + k * dx) ∧ z ≤ 0 ∧ -dx < z := by
  refine ⟨m0 + (-⌈m0 / dx⌉ : ℤ) * dx, ⟨_, rfl⟩, ?_, ?_⟩
  · have := (div_le_iff₀ hdx).mp (Int.le_ceil (m0 / dx))
    push_cast; linarith
  · have := (lt_div_iff₀ hdx).mp (show (⌈m0 / dx⌉ : ℝ) - 1 < m0 / dx by linarith [Int.ceil_lt_add_one (m0 / dx)])
    push_cast; linarith

lemma readme_claims (hd : d = 0 ∨ d = 1) (h : MpmParticles r) (hdeg : b.deg = .two) (hops : HoldOps b.ops)
    (hsvd : ∀ F, IsSvd F (b.svd F)) (hsched : ∀ k ps, (b.sched k ps).flatten.Perm ps) {N : ℕ} (hN : r.ps.length = N)
    (hm : N * r.mass = 1000) : ReadmeClaims (readmeSim r len) b N := by
  have hs := readme_solid (r := r) (len := len) hd hsvd
  have ok := hs.ok r.dx r.mass r.volume
  refine ⟨r.dx, r.mass, r.volume, rfl, h.dx, rfl, hm, fun fuel hfuel hcrit => ?_, fun fuel n t w hev => ?_⟩
  · obtain ⟨e, h1, h2, t, w, h3, h4⟩ := C61_completes (R := readmeSetup r len b) (s := (readmeSim r len).fresh)
      (i := true) (e := false) (fuel := fuel) (deg := b.deg) (dx := r.dx) (fr := -0.95) (m := r.mass) (vol := r.volume)
      rfl h.dx rfl rfl (readme_ne h) hsched (.inl (.inr (.inr (.inl ⟨ok, by show (0 : ℝ) < 0.5; norm_num, .inl rfl⟩))))
      (.inr (.inr (.inl rfl))) rfl (by show (0 : ℝ) < 1e-14; norm_num) (by omega)
      (by
        show ((20 : ℕ) : ℝ) / 10 ≤ fuel * 1e-14
        have : (2 * 10 ^ 14 : ℝ) ≤ fuel := by exact_mod_cast hfuel
        push_cast
        linarith)
      (by show (1e-14 : ℝ) * (11 / 10) ≤ 1 / 10; norm_num) rfl (by show 1 ≤ 20; norm_num) hcrit
    refine ⟨e, h1, h2, t, w, ?_, fun n a1 a2 => ?_⟩
    · rw [h3]; rfl
    · have := h4 n a1 a2
      change (n : ℝ) / 10 - 1e-14 * (11 / 10) < _ ∧ _ at this
      norm_num at this ⊢
      exact this
  · have hev' : .particles n t w ∈ filesOf (runProgram (readmeSetup r len b) true false fuel (readmeSim r len).fresh) := hev
    have hnew : Event.particles n t w ∉ (readmeSim r len).fresh.out := by simp [Sim.fresh]
    have hbeg : (begin (readmeSetup r len b) (readmeSim r len).fresh).w = (readmeSim r len).fresh.w := by
      rw [begin_w]; rfl
    have hq : (1 : ℝ) / √2 = √(1 / 2) := by rw [Real.sqrt_div zero_le_one, Real.sqrt_one]
    refine ⟨?_, ?_, ?_, ?_⟩
    · rcases run_particles hev' hnew with ⟨-, -, rfl⟩ | ⟨s1, dt, g, hst, -⟩
      · rw [hbeg]; exact hN
      · exact (run_inv (Inv := fun w _ _ _ => w.ps.length = N) (by rw [hbeg]; exact hN)
          (fun s1 dt g w hst hi => by rw [← hi]; exact ((physStep_forall₂ hst.phys).length_eq).symm) hst).2
    · rcases run_particles hev' hnew with ⟨h0, -, rfl⟩ | ⟨s1, dt, g, hst, -⟩
      · left
        refine ⟨h0, fun p hp => ?_⟩
        rw [hbeg] at hp
        exact (h.fresh p hp).1
      · right
        refine ⟨s1, dt, g, hst, fun a => ?_⟩
        rw [hst.sameGravity rfl]
        show Function.update (0 : Fin (d + 2) → ℝ) 1 (-9.81) a = _
        rw [Function.update_apply]; rfl
    · intro p hp
      rcases C56_druckerPrager ok rfl (by show (0 : ℝ) < 0.5; norm_num) le_rfl hsvd hev' hnew with ⟨-, -, rfl⟩ | hF
      · rw [hbeg] at hp
        rw [(h.fresh p hp).1]
        simp [savedP, savedQ, selfDoubleDot]
      · obtain ⟨h1, h2, -⟩ := hF p hp
        change savedQ (1 / √2) p.tau ≤ 0.5 * savedP p.tau + 0 at h1
        change -0 / _ ≤ _ at h2
        rw [← hq]
        exact ⟨by simpa using h2, by simpa using h1⟩
    · intro hcov p hp
      obtain ⟨m0, h0⟩ := exists_least (ps := (readmeSim r len).fresh.w.ps.map fun p => p.x)
        (by simpa using readme_ne (len := len) h) 1
      obtain ⟨z, hz, hz0, hz1⟩ := exists_floor (m0 := m0) h.dx
      have := C70_run (R := readmeSetup r len b) (s := (readmeSim r len).fresh) (deg := .two) (dx := r.dx) (fr := -0.95)
        (m := r.mass) (vol := r.volume) (b := 1) (q := { mkPlate 0 .bottom .noSlip with friction := 0.5 }) (m0 := m0) (z := z)
        (by rw [← hdeg]; rfl) h.dx h.mass rfl rfl hops hsched (by show (0 : ℝ) ≤ 1e-14; norm_num) rfl (readme_ne h)
        (by show _ ∈ [_]; simp) rfl rfl (by intro o ho; exact absurd ho (by show ¬ _ ∈ []; simp))
        (by
          intro p hp
          change p ∈ [{ mkPlate 0 .bottom .noSlip with friction := 0.5 }] at hp
          rw [List.mem_singleton.mp hp]
          exact ⟨by show (0 : ℝ) ≤ 0.5; norm_num, rfl, rfl⟩)
        (by
          have href : (readmeSetup r len b).S.ref = none := by
            show (if (2e10 : ℝ) < 1e10 then some _ else none) = none
            rw [if_neg (by norm_num)]
          rw [href]; exact h0) hz (by show (1 : ℝ) * z ≤ 1 * 0; linarith)
        (by
          intro s1 dt g w hst j hj u h1 h2
          have := hcov s1 dt g w hst j hj u h1 h2
          rw [abs_lt] at this
          exact this)
        (by
          intro p hp
          have := (h.fresh p hp).2.2
          have := h.dx
          show (1 : ℝ) * z - 1 / 2 * r.dx ≤ 1 * p.x 1
          linarith) hev' hnew p hp
      change (1 : ℝ) * z - 1 / 2 * r.dx ≤ 1 * p.x 1 at this
      linarith

end readme

/-- **C90** The README's set-up file in 2D, for every non-empty set of points of the unit square found by the sampler. -/
theorem C90_readme2 {xs : List (Fin 2 → ℝ)} (hne : xs ≠ []) (hpos : ∀ x ∈ xs, 0 ≤ x 1) {b : Build 2}
    (hdeg : b.deg = .two) (hops : b.ops = plateOps2)
    (hsvd : ∀ F, IsSvd F (b.svd F)) (hsched : ∀ k ps, (b.sched k ps).flatten.Perm ps) :
    ∃ s, readme2 true xs = some s ∧ ReadmeClaims (d := 0) s b xs.length := by
  have hN : 0 < (xs.length : ℝ) := by exact_mod_cast List.length_pos_iff.mpr hne
  obtain ⟨r, hr⟩ : ∃ r, Verif.sample2 1000 6 1 1 0 xs = some r := by
    simp only [Verif.sample2, fdiv, fsqrt, if_neg hN.ne', Option.bind_eq_bind, Option.bind_some]
    rw [if_neg (not_lt.mpr (by positivity))]
    simp
  have hb := C46_random2 hr
  have hc : ∀ x ∈ xs, crop2Cond 0 1 r.dx x := fun x _ => by simp [crop2Cond]
  obtain ⟨h1, h2⟩ := mpm_particles (d := 0) hb (by norm_num) (by
    rw [Fin.prod_univ_two (M := ℝ)]; norm_num) hc hne hpos
  have hs : (readmeBefore (d := 0) true ![1, 1]).sample2 xs =
      some ((readmeBefore (d := 0) true ![1, 1]).takeSampled r) := by
    have : Verif.sample2 1000 6 (![1, 1] 0) (![1, 1] 1) 0 xs = some r := by simpa using hr
    unfold Sim.sample2
    change Option.map _ (Verif.sample2 1000 6 (![1, 1] 0) (![1, 1] 1) 0 xs) = _
    rw [this]
    rfl
  refine ⟨readmeSim (d := 0) r ![1, 1], by unfold readme2; rw [hs]; rfl,
    readme_claims (d := 0) (.inl rfl) h1 hdeg (by rw [hops]; exact hold2) hsvd hsched h2 ?_⟩
  have hm := C46_mass hb hc
  rw [h2, Fin.prod_univ_two] at hm
  simpa using hm

/-- **C90** The same in 3D. -/
theorem C90_readme3 {xs : List (Fin 3 → ℝ)} (hne : xs ≠ []) (hpos : ∀ x ∈ xs, 0 ≤ x 1) {b : Build 3}
    (hdeg : b.deg = .two) (hops : b.ops = plateOps3)
    (hsvd : ∀ F, IsSvd F (b.svd F)) (hsched : ∀ k ps, (b.sched k ps).flatten.Perm ps) :
    ∃ s, readme3 true xs = some s ∧ ReadmeClaims (d := 1) s b xs.length := by
  have hN : 0 < (xs.length : ℝ) := by exact_mod_cast List.length_pos_iff.mpr hne
  obtain ⟨r, hr⟩ : ∃ r, Verif.sample3 1000 8 1 1 1 0 xs = some r := by
    simp only [Verif.sample3, fdiv, if_neg hN.ne', Option.bind_eq_bind, Option.bind_some]
    simp
  have hb := C46_random3 (by norm_num) (by norm_num) (by norm_num) (by norm_num) hr
  have hc : ∀ x ∈ xs, crop3Cond 0 1 1 x := fun x _ => by simp [crop3Cond]
  obtain ⟨h1, h2⟩ := mpm_particles (d := 1) hb (by norm_num) (by
    rw [Fin.prod_univ_three (M := ℝ)]; show (0 : ℝ) < 1 * 1 * 1; norm_num) hc hne hpos
  have hs : (readmeBefore (d := 1) true ![1, 1, 1]).sample3 xs =
      some ((readmeBefore (d := 1) true ![1, 1, 1]).takeSampled r) := by
    have : Verif.sample3 1000 8 (![1, 1, 1] 0) (![1, 1, 1] 1) (![1, 1, 1] 2) 0 xs = some r := by simpa using hr
    unfold Sim.sample3
    change Option.map _ (Verif.sample3 1000 8 (![1, 1, 1] 0) (![1, 1, 1] 1) (![1, 1, 1] 2) 0 xs) = _
    rw [this]
    rfl
  refine ⟨readmeSim (d := 1) r ![1, 1, 1], by unfold readme3; rw [hs]; rfl,
    readme_claims (d := 1) (.inr rfl) h1 hdeg (by rw [hops]; exact hold3) hsvd hsched h2 ?_⟩
  have hm := C46_mass hb hc
  rw [h2, Fin.prod_univ_three] at hm
  simp at hm
  rw [hm]

/-! ### Default values -/

/-- Bounds of the tangent of the double angle. -/
lemma tan_double {x l u l' u' : ℝ} (hx : 0 < x) (hx2 : 2 * x < Real.pi / 2) (hl : l < Real.tan x) (hu : Real.tan x < u)
    (hl0 : 0 < l) (hu1 : u < 1) (h1 : l' * (1 - l ^ 2) ≤ 2 * l) (h2 : 2 * u ≤ u' * (1 - u ^ 2)) :
    l' < Real.tan (2 * x) ∧ Real.tan (2 * x) < u' := by
  have e : Real.tan (2 * x) = 2 * Real.tan x / (1 - Real.tan x ^ 2) := Real.tan_two_mul
  set t := Real.tan x
  have ht : 0 < 1 - t ^ 2 := by nlinarith
  rw [e, lt_div_iff₀ ht, div_lt_iff₀ ht]
  have hl1 : 0 < 1 - l ^ 2 := by nlinarith
  have hu2 : 0 < 1 - u ^ 2 := by nlinarith
  have a1 : l' ≤ 2 * l / (1 - l ^ 2) := (le_div_iff₀ hl1).mpr h1
  have a2 : 2 * u / (1 - u ^ 2) ≤ u' := (div_le_iff₀ hu2).mpr h2
  constructor
  · refine lt_of_le_of_lt (mul_le_mul_of_nonneg_right a1 ht.le) ?_
    rw [div_mul_eq_mul_div, div_lt_iff₀ hl1]
    nlinarith [mul_pos hl0 (hl0.trans hl)]
  · refine lt_of_lt_of_le ?_ (mul_le_mul_of_nonneg_right a2 ht.le)
    rw [div_mul_eq_mul_div, lt_div_iff₀ hu2]
    nlinarith [mul_pos (hl0.trans hl) ((hl0.trans hl).trans hu)]

/-- The tangent of a small angle. -/
lemma tan_small {y : ℝ} (h0 : 0 < y) (h1 : y < 1) (h2 : y < Real.pi / 2) :
    y < Real.tan y ∧ Real.tan y < y / (1 - y ^ 2 / 2) := by
  refine ⟨Real.lt_tan h0 h2, ?_⟩
  rw [Real.tan_eq_sin_div_cos]
  have hc := Real.one_sub_sq_div_two_le_cos (x := y)
  have hp : 0 < 1 - y ^ 2 / 2 := by nlinarith
  exact (div_lt_div_of_pos_right (Real.sin_lt h0) (hp.trans_le hc)).trans_le (div_le_div_of_nonneg_left h0.le hp hc)

lemma tan_mu1 : 0.3815 < Real.tan (20.9 * Real.pi / 180) ∧ Real.tan (20.9 * Real.pi / 180) < 0.3825 := by
  have p1 := Real.pi_gt_d6
  have p2 := Real.pi_lt_d6
  have y0 : 0 < 20.9 * Real.pi / 180 / 128 := by positivity
  have y1 : 20.9 * Real.pi / 180 / 128 < Real.pi / 2 := by linarith
  have h0 := tan_small y0 (by linarith : 20.9 * Real.pi / 180 / 128 < 1) y1
  have l0 : 0.0028497948 < Real.tan (20.9 * Real.pi / 180 / 128) := lt_of_le_of_lt (by linarith) h0.1
  have u0 : Real.tan (20.9 * Real.pi / 180 / 128) < 0.0028498075 := by
    refine lt_of_lt_of_le h0.2 ?_
    have hy : 20.9 * Real.pi / 180 / 128 ≤ 0.0028497958 := by linarith
    rw [div_le_iff₀ (by nlinarith)]
    nlinarith
  have e0 : 2 * (20.9 * Real.pi / 180 / 128) = 20.9 * Real.pi / 180 / 64 := by ring
  obtain ⟨l1, u1⟩ := tan_double (l' := 0.0056996358) (u' := 0.0056996613) (show 0 < 20.9 * Real.pi / 180 / 128 by positivity) (by linarith) l0 u0 (by norm_num) (by norm_num) (by norm_num) (by norm_num)
  rw [e0] at l1 u1
  have e1 : 2 * (20.9 * Real.pi / 180 / 64) = 20.9 * Real.pi / 180 / 32 := by ring
  obtain ⟨l2, u2⟩ := tan_double (l' := 0.0113996419) (u' := 0.0113996930) (show 0 < 20.9 * Real.pi / 180 / 64 by positivity) (by linarith) l1 u1 (by norm_num) (by norm_num) (by norm_num) (by norm_num)
  rw [e1] at l2 u2
  have e2 : 2 * (20.9 * Real.pi / 180 / 32) = 20.9 * Real.pi / 180 / 16 := by ring
  obtain ⟨l3, u3⟩ := tan_double (l' := 0.0228022469) (u' := 0.0228023493) (show 0 < 20.9 * Real.pi / 180 / 32 by positivity) (by linarith) l2 u2 (by norm_num) (by norm_num) (by norm_num) (by norm_num)
  rw [e2] at l3 u3
  have e3 : 2 * (20.9 * Real.pi / 180 / 16) = 20.9 * Real.pi / 180 / 8 := by ring
  obtain ⟨l4, u4⟩ := tan_double (l' := 0.0456282178) (u' := 0.0456284230) (show 0 < 20.9 * Real.pi / 180 / 16 by positivity) (by linarith) l3 u3 (by norm_num) (by norm_num) (by norm_num) (by norm_num)
  rw [e3] at l4 u4
  have e4 : 2 * (20.9 * Real.pi / 180 / 8) = 20.9 * Real.pi / 180 / 4 := by ring
  obtain ⟨l5, u5⟩ := tan_double (l' := 0.0914468218) (u' := 0.0914472349) (show 0 < 20.9 * Real.pi / 180 / 8 by positivity) (by linarith) l4 u4 (by norm_num) (by norm_num) (by norm_num) (by norm_num)
  rw [e4] at l5 u5
  have e5 : 2 * (20.9 * Real.pi / 180 / 4) = 20.9 * Real.pi / 180 / 2 := by ring
  obtain ⟨l6, u6⟩ := tan_double (l' := 0.1844359935) (u' := 0.1844368408) (show 0 < 20.9 * Real.pi / 180 / 4 by positivity) (by linarith) l5 u5 (by norm_num) (by norm_num) (by norm_num) (by norm_num)
  rw [e5] at l6 u6
  have e6 : 2 * (20.9 * Real.pi / 180 / 2) = 20.9 * Real.pi / 180 := by ring
  obtain ⟨l7, u7⟩ := tan_double (l' := 0.3815) (u' := 0.3825) (show 0 < 20.9 * Real.pi / 180 / 2 by positivity) (by linarith) l6 u6 (by norm_num) (by norm_num) (by norm_num) (by norm_num)
  rw [e6] at l7 u7
  exact ⟨l7, u7⟩

lemma tan_mu2 : 0.6435 < Real.tan (32.8 * Real.pi / 180) ∧ Real.tan (32.8 * Real.pi / 180) < 0.6445 := by
  have p1 := Real.pi_gt_d6
  have p2 := Real.pi_lt_d6
  have y0 : 0 < 32.8 * Real.pi / 180 / 128 := by positivity
  have y1 : 32.8 * Real.pi / 180 / 128 < Real.pi / 2 := by linarith
  have h0 := tan_small y0 (by linarith : 32.8 * Real.pi / 180 / 128 < 1) y1
  have l0 : 0.0044724052 < Real.tan (32.8 * Real.pi / 180 / 128) := lt_of_le_of_lt (by linarith) h0.1
  have u0 : Real.tan (32.8 * Real.pi / 180 / 128) < 0.0044724516 := by
    refine lt_of_lt_of_le h0.2 ?_
    have hy : 32.8 * Real.pi / 180 / 128 ≤ 0.0044724068 := by linarith
    rw [div_le_iff₀ (by nlinarith)]
    nlinarith
  have e0 : 2 * (32.8 * Real.pi / 180 / 128) = 32.8 * Real.pi / 180 / 64 := by ring
  obtain ⟨l1, u1⟩ := tan_double (l' := 0.0089449893) (u' := 0.0089450822) (show 0 < 32.8 * Real.pi / 180 / 128 by positivity) (by linarith) l0 u0 (by norm_num) (by norm_num) (by norm_num) (by norm_num)
  rw [e0] at l1 u1
  have e1 : 2 * (32.8 * Real.pi / 180 / 64) = 32.8 * Real.pi / 180 / 32 := by ring
  obtain ⟨l2, u2⟩ := tan_double (l' := 0.0178914101) (u' := 0.0178915960) (show 0 < 32.8 * Real.pi / 180 / 64 by positivity) (by linarith) l1 u1 (by norm_num) (by norm_num) (by norm_num) (by norm_num)
  rw [e1] at l2 u2
  have e2 : 2 * (32.8 * Real.pi / 180 / 32) = 32.8 * Real.pi / 180 / 16 := by ring
  obtain ⟨l3, u3⟩ := tan_double (l' := 0.0357942780) (u' := 0.0357946502) (show 0 < 32.8 * Real.pi / 180 / 32 by positivity) (by linarith) l2 u2 (by norm_num) (by norm_num) (by norm_num) (by norm_num)
  rw [e2] at l3 u3
  have e3 : 2 * (32.8 * Real.pi / 180 / 16) = 32.8 * Real.pi / 180 / 8 := by ring
  obtain ⟨l4, u4⟩ := tan_double (l' := 0.0716803950) (u' := 0.0716811424) (show 0 < 32.8 * Real.pi / 180 / 16 by positivity) (by linarith) l3 u3 (by norm_num) (by norm_num) (by norm_num) (by norm_num)
  rw [e3] at l4 u4
  have e4 : 2 * (32.8 * Real.pi / 180 / 8) = 32.8 * Real.pi / 180 / 4 := by ring
  obtain ⟨l5, u5⟩ := tan_double (l' := 0.1441011933) (u' := 0.1441027114) (show 0 < 32.8 * Real.pi / 180 / 8 by positivity) (by linarith) l4 u4 (by norm_num) (by norm_num) (by norm_num) (by norm_num)
  rw [e4] at l5 u5
  have e5 : 2 * (32.8 * Real.pi / 180 / 4) = 32.8 * Real.pi / 180 / 2 := by ring
  obtain ⟨l6, u6⟩ := tan_double (l' := 0.2943138591) (u' := 0.2943170913) (show 0 < 32.8 * Real.pi / 180 / 4 by positivity) (by linarith) l5 u5 (by norm_num) (by norm_num) (by norm_num) (by norm_num)
  rw [e5] at l6 u6
  have e6 : 2 * (32.8 * Real.pi / 180 / 2) = 32.8 * Real.pi / 180 := by ring
  obtain ⟨l7, u7⟩ := tan_double (l' := 0.6435) (u' := 0.6445) (show 0 < 32.8 * Real.pi / 180 / 2 by positivity) (by linarith) l6 u6 (by norm_num) (by norm_num) (by norm_num) (by norm_num)
  rw [e6] at l7 u7
  exact ⟨l7, u7⟩

/-- **C90** The default values are those of the tables in the README; the friction coefficients of the mu(I) law are
given there to three decimals. -/
theorem C90_defaults {d : ℕ} {s : Sim d} (h : s = {}) :
    s.endFrame = 1 ∧ s.fps = 1 ∧ s.nThreads = 1 ∧ s.cfl = 0.5 ∧ s.cflElastic = 0.5 ∧ s.flipRatio = -0.95 ∧
    s.gravity = 0 ∧ s.rho = 1000 ∧ s.saveGrid = false ∧ s.useMusl = false ∧ s.useMibf = false ∧ s.pbc = false ∧
    (∀ a, s.L a = 1) ∧ s.elasticModel = .hencky ∧ s.plasticModel = .noPlasticity ∧ s.E = 1e6 ∧ s.nu = 0.3 ∧
    s.qPrefac = √(1 / 2) ∧ s.qMax = 100 ∧ s.M = 1 ∧ s.qCohesion = 0 ∧ s.xi = 0 ∧ s.usePradhana = true ∧ s.beta = 0 ∧
    s.p0 = 1000 ∧ s.qMin = 100 ∧ s.pMin = -1.0e20 ∧ s.viscExponent = 1 ∧ s.viscTime = 0 ∧ s.useDuvautLions = false ∧
    s.rhoS = 2500 ∧ s.grainDiameter = 0.001 ∧ s.iRef = 0.279 ∧ |s.mu1 - 0.382| < 0.0005 ∧ |s.mu2 - 0.644| < 0.0005 := by
  subst h
  have hq : (1 : ℝ) / √2 = √(1 / 2) := by rw [Real.sqrt_div zero_le_one, Real.sqrt_one]
  have h1 : |Real.tan (20.9 * Real.pi / 180) - 0.382| < 0.0005 := by
    obtain ⟨a, b⟩ := tan_mu1; rw [abs_lt]; constructor <;> linarith
  have h2 : |Real.tan (32.8 * Real.pi / 180) - 0.644| < 0.0005 := by
    obtain ⟨a, b⟩ := tan_mu2; rw [abs_lt]; constructor <;> linarith
  refine ⟨rfl, rfl, rfl, rfl, rfl, rfl, rfl, rfl, rfl, rfl, rfl, rfl, fun _ => rfl, rfl, rfl, rfl, rfl, hq, rfl, rfl, rfl,
    rfl, rfl, rfl, rfl, rfl, ?_, rfl, rfl, rfl, rfl, ?_, rfl, h1, h2⟩ <;> norm_num

end
end Verif.Props
