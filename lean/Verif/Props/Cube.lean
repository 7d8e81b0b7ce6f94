import Verif.Props.Strength
import Verif.Props.Coulomb
import Mathlib.Analysis.Calculus.Deriv.Prod
import Mathlib.Analysis.SpecialFunctions.Trigonometric.Deriv

set_option linter.unusedSectionVars false
set_option linter.unusedSimpArgs false
set_option linter.unusedVariables false

/-!
# C91: the shipped example examples/cube_rotating.cpp

A cube without gravity and walls, which rotates about its centre and moves along the diagonal.
-/

namespace Verif.Props
open Verif Matrix
noncomputable section
variable {d : ℕ} {r : Sampled (d + 2)} {len : Fin (d + 2) → ℝ} {b : Build (d + 2)} {fuel : ℕ}

/-- The simulation set up by examples/cube_rotating.cpp from sampled particles. -/
abbrev cubeSim (r : Sampled (d + 2)) (len : Fin (d + 2) → ℝ) : Sim (d + 2) :=
  cubeAfter ((cubeBefore true len).takeSampled r)

/-- Its set-up. -/
abbrev cubeSetup (r : Sampled (d + 2)) (len : Fin (d + 2) → ℝ) (b : Build (d + 2)) : Setup (d + 2) :=
  (cubeSim r len).setup b (Nat.succ_pos _) r.dx r.mass r.volume

/-- The velocity at `x` of a rigid body which turns counterclockwise in the plane of the first two axes with one radian
per second, while the material point at the origin moves with `(1/2, 1/2)`. -/
def rigid (x : Fin (d + 2) → ℝ) : Fin (d + 2) → ℝ := fun a => if a = 0 then 1 / 2 - x 1 else if a = 1 then 1 / 2 + x 0 else 0

/-- `rigid` is the velocity of points fixed to a body: the time derivative of the rotation by the angle `t` about a
centre at `t (1/2, 1/2)`. -/
lemma rigid_deriv (x : Fin 2 → ℝ) :
    HasDerivAt (fun t : ℝ => ![t / 2 + Real.cos t * x 0 - Real.sin t * x 1, t / 2 + Real.sin t * x 0 + Real.cos t * x 1])
      (rigid (d := 0) x) 0 := by
  rw [hasDerivAt_pi]
  intro a
  have hc := Real.hasDerivAt_cos 0
  have hs := Real.hasDerivAt_sin 0
  have hi := (hasDerivAt_id (0 : ℝ)).div_const 2
  fin_cases a
  · have := ((hi.fun_add (hc.mul_const (x 0))).fun_sub (hs.mul_const (x 1)))
    simpa [rigid] using this
  · have := ((hi.fun_add (hs.mul_const (x 0))).fun_add (hc.mul_const (x 1)))
    simpa [rigid] using this

/-- What is claimed of the simulation `s` set up by examples/cube_rotating.cpp for `N` particles of total mass `M`. -/
def CubeClaims (s : Sim (d + 2)) (b : Build (d + 2)) (N : ℕ) (M : ℝ) : Prop :=
  ∃ dx m vol, s.dx = some dx ∧ 0 < dx ∧ s.particleMass = some m ∧ N * m = M ∧ s.particles.length = N ∧
    -- the initial state
    (∀ p ∈ s.particles, |p.x 0| ≤ 1 / 2 ∧ |p.x 1| ≤ 1 / 2 ∧ p.v = rigid p.x ∧ p.F = 1 ∧ p.tau = 0) ∧
    -- end of the run
    (∀ fuel, 2 * 10 ^ 15 ≤ fuel →
      (∀ k s1, Reach (s.setup b (Nat.succ_pos _) dx m vol).C (physics (s.setup b (Nat.succ_pos _) dx m vol)) s.gravity
        (begin (s.setup b (Nat.succ_pos _) dx m vol) s.fresh) k s1 → 0 < k →
        ¬ Critical (s.setup b (Nat.succ_pos _) dx m vol) s.fresh.w.ps s1.w.ps) →
      ∃ e, s.simulate b fuel = .finished e ∧ e.frame = 20 ∧ ∃ (t : ℕ → ℝ) (w : ℕ → World (d + 2)),
        e.out = [.info, .particles 0 0 s.fresh.w] ++
          (List.range 20).flatMap (fun n => [.particles (n + 1) (t (n + 1)) (w (n + 1)), .grid (n + 1) (t (n + 1)) (w (n + 1))]) ++
          [.particles 20 (t 20) (w 20), .grid 20 (t 20) (w 20), .timing e.step] ∧
        ∀ n, 1 ≤ n → n ≤ 20 → n - 1.1e-14 < t n ∧ t n ≤ n) ∧
    -- motion of the centre of mass, however the run ends
    ∀ fuel n t w, .particles n t w ∈ filesOf (s.simulate b fuel) →
      (∀ s1 dt g w, StepOf (s.setup b (Nat.succ_pos _) dx m vol) s.fresh s1 dt g w → NoTinyWeights b.deg dx w.g s1.w.ps) →
      w.ps.length = N ∧ ∃ X : Fin (d + 2) → ℝ, firstMoment m s.particles = M • X ∧
        momentum m w.ps = M • rigid X ∧ firstMoment m w.ps = M • (X + t • rigid X)

lemma cube_fresh (h : MpmParticles r) (hlen : ∀ p ∈ r.ps, p = { (Particle.init : Particle (d + 2) ℝ) with x := p.x })
    (hL : r.L 0 = 1 ∧ r.L 1 = 1) (hbox : ∀ p ∈ r.ps, (0 ≤ p.x 0 ∧ p.x 0 ≤ 1) ∧ 0 ≤ p.x 1 ∧ p.x 1 ≤ 1) :
    ∀ p ∈ (cubeSim r len).particles, |p.x 0| ≤ 1 / 2 ∧ |p.x 1| ≤ 1 / 2 ∧ p.v = rigid p.x ∧ p.F = 1 ∧ p.tau = 0 := by
  intro p hp
  obtain ⟨q, hq, rfl⟩ := List.mem_map.mp hp
  obtain ⟨⟨a1, a2⟩, a3, a4⟩ := hbox q hq
  have hi := hlen q hq
  have e0 : ((cubeBefore true len).takeSampled r).L 0 = 1 := hL.1
  have e1 : ((cubeBefore true len).takeSampled r).L 1 = 1 := hL.2
  refine ⟨?_, ?_, ?_, ?_, ?_⟩
  · simp [e0]; rw [abs_le]; constructor <;> linarith
  · simp [e1]; rw [abs_le]; constructor <;> linarith
  · funext a
    have hv : q.v = 0 := by rw [hi]; rfl
    by_cases h0 : a = 0
    · subst h0; simp [rigid, e0, e1]; ring
    · by_cases h1 : a = 1
      · subst h1; simp [rigid, e0, e1]; ring
      · simp [rigid, h0, h1, hv]
  · show q.F = 1
    rw [hi]; rfl
  · show q.tau = 0
    rw [hi]; rfl

lemma rigid_momentum {m : ℝ} : ∀ {ps : List (Particle (d + 2) ℝ)}, (∀ p ∈ ps, p.v = rigid p.x) → ∀ a,
    momentum m ps a = if a = 0 then ps.length * m / 2 - firstMoment m ps 1 else
      if a = 1 then ps.length * m / 2 + firstMoment m ps 0 else 0
  | [], _, a => by simp [momentum, firstMoment]
  | p :: ps, h, a => by
    have ih := rigid_momentum (m := m) (ps := ps) (fun q hq => h q (by simp [hq])) a
    have hp := h p (by simp)
    simp only [momentum, firstMoment, List.map_cons, List.sum_cons, Pi.add_apply, Pi.smul_apply, smul_eq_mul] at ih ⊢
    rw [ih, hp]
    by_cases h0 : a = 0
    · subst h0; simp [rigid]; ring
    · by_cases h1 : a = 1
      · subst h1; simp [rigid]; ring
      · simp [rigid, h0, h1]

lemma cube_claims (h : MpmParticles r) (hi : ∀ p ∈ r.ps, p = { (Particle.init : Particle (d + 2) ℝ) with x := p.x })
    (hL : r.L 0 = 1 ∧ r.L 1 = 1) (hbox : ∀ p ∈ r.ps, (0 ≤ p.x 0 ∧ p.x 0 ≤ 1) ∧ 0 ≤ p.x 1 ∧ p.x 1 ≤ 1)
    (hdeg : b.deg ≠ .one) (hops : FairOps b.ops) (hsched : ∀ k ps, (b.sched k ps).flatten.Perm ps) {N : ℕ} {M : ℝ}
    (hN : r.ps.length = N) (hM : 0 < M) (hm : N * r.mass = M) : CubeClaims (cubeSim r len) b N M := by
  have hf := cube_fresh (len := len) h hi hL hbox
  have hlen : (cubeSim r len).particles.length = N := by rw [← hN]; exact List.length_map ..
  have hne : (cubeSim r len).fresh.w.ps ≠ [] := by
    intro hc
    have : (cubeSim r len).fresh.w.ps.length = r.ps.length := List.length_map ..
    rw [hc] at this
    exact h.ne (List.length_eq_zero_iff.mp this.symm)
  refine ⟨r.dx, r.mass, r.volume, rfl, h.dx, rfl, hm, hlen, hf, fun fuel hfuel hcrit => ?_, fun fuel n t w hev hn => ?_⟩
  · obtain ⟨e, h1, h2, t, w, h3, h4⟩ := C61_completes (R := cubeSetup r len b) (s := (cubeSim r len).fresh)
      (i := true) (e := false) (fuel := fuel) (deg := b.deg) (dx := r.dx) (fr := -1) (m := r.mass) (vol := r.volume)
      rfl h.dx rfl rfl hne hsched (.inl (.inl ⟨rfl, rfl⟩)) (.inl rfl) rfl (by show (0 : ℝ) < 1e-14; norm_num) (by omega)
      (by
        show ((20 : ℕ) : ℝ) / 1 ≤ fuel * 1e-14
        have : (2 * 10 ^ 15 : ℝ) ≤ fuel := by exact_mod_cast hfuel
        push_cast
        linarith)
      (by show (1e-14 : ℝ) * (11 / 10) ≤ 1 / 1; norm_num) rfl (by show 1 ≤ 20; norm_num) hcrit
    refine ⟨e, h1, h2, t, w, ?_, fun n a1 a2 => ?_⟩
    · rw [h3]; rfl
    · have := h4 n a1 a2
      change (n : ℝ) / 1 - 1e-14 * (11 / 10) < _ ∧ _ ≤ (n : ℝ) / 1 at this
      norm_num at this ⊢
      exact this
  · have hev' : .particles n t w ∈ filesOf (runProgram (cubeSetup r len b) true false fuel (cubeSim r len).fresh) := hev
    have hnew : Event.particles n t w ∉ (cubeSim r len).fresh.out := by simp [Sim.fresh]
    have h57 := C57_momentum (R := cubeSetup r len b) (s := (cubeSim r len).fresh) (deg := b.deg) (dx := r.dx) (fr := -1)
      (m := r.mass) (vol := r.volume) (mibf := false) rfl hdeg h.dx h.mass rfl rfl rfl hsched
      (by show (0 : ℝ) ≤ 1e-14; norm_num) hn hev' hnew
    obtain ⟨c, u, -, -, -, -, h72, -⟩ := C72_run (R := cubeSetup r len b) (s := (cubeSim r len).fresh) (deg := b.deg)
      (dx := r.dx) (fr := -1) (m := r.mass) (vol := r.volume) (mibf := false) rfl hdeg h.dx h.mass rfl rfl hops hsched
      (by show (0 : ℝ) ≤ 1e-14; norm_num) hn (.inl rfl) hev' hnew
    refine ⟨by rw [h57.1]; exact hlen, M⁻¹ • firstMoment r.mass (cubeSim r len).particles, ?_, ?_, ?_⟩
    · rw [smul_smul, mul_inv_cancel₀ hM.ne', one_smul]
    all_goals
      funext a
      obtain ⟨a1, a2⟩ := h72 a (by intro o ho; exact absurd ho (by show ¬ _ ∈ []; simp))
        (by intro o ho; exact absurd ho (by show ¬ _ ∈ []; simp))
      have hg : (cubeSim r len).fresh.gravity a = 0 := rfl
      have hmom := rigid_momentum (m := r.mass) (fun p hp => (hf p hp).2.2.1) a
      change momentum r.mass (cubeSim r len).fresh.w.ps a = _ at hmom
      change _ = firstMoment r.mass (cubeSim r len).particles a + _ + _ at a2
      rw [hlen, hm] at hmom
      rw [hg, mul_zero, add_zero, hmom] at a1 a2
      simp only [Pi.smul_apply, Pi.add_apply, smul_eq_mul, rigid]
    · rw [a1]
      by_cases h0 : a = 0
      · subst h0; simp; field_simp
      · by_cases h1 : a = 1
        · subst h1; simp; field_simp
        · simp [h0, h1]
    · rw [a2]
      by_cases h0 : a = 0
      · subst h0; simp; field_simp
      · by_cases h1 : a = 1
        · subst h1; simp; field_simp
        · simp [h0, h1]; field_simp

lemma cube_init {ppc : ℝ} {c : (Fin (d + 2) → ℝ) → Prop} {xs : List (Fin (d + 2) → ℝ)}
    (hb : RandomBox 1000 ppc len c xs r) (h0 : len 0 = 1) (h1 : len 1 = 1) (hbox : ∀ x ∈ xs, ∀ a, 0 ≤ x a ∧ x a ≤ len a) :
    (r.L 0 = 1 ∧ r.L 1 = 1) ∧ ∀ p ∈ r.ps, (0 ≤ p.x 0 ∧ p.x 0 ≤ 1) ∧ 0 ≤ p.x 1 ∧ p.x 1 ≤ 1 := by
  refine ⟨by rw [hb.len]; exact ⟨h0, h1⟩, fun p hp => ?_⟩
  have := hbox p.x ((hb.kept.2 p.x).mp (List.mem_map_of_mem hp)).1
  have a0 := this 0
  have a1 := this 1
  rw [h0] at a0
  rw [h1] at a1
  exact ⟨a0, a1⟩

/-- **C91** examples/cube_rotating.cpp in 2D: a cube of mass 1000 turns counterclockwise with one radian per second and
moves along the diagonal; 20 frames are written at the times 1, 2, ...; in every file its centre of mass is where that of
a rigid body would be and its momentum is the initial one, for all points found by the sampler in the unit square. -/
theorem C91_cube2 {xs : List (Fin 2 → ℝ)} (hne : xs ≠ []) (hbox : ∀ x ∈ xs, ∀ a, 0 ≤ x a ∧ x a ≤ 1) {b : Build 2}
    (hdeg : b.deg ≠ .one) (hops : b.ops = plateOps2) (hsched : ∀ k ps, (b.sched k ps).flatten.Perm ps) :
    ∃ s, cube2 true xs = some s ∧ CubeClaims (d := 0) s b xs.length 1000 := by
  have hN : 0 < (xs.length : ℝ) := by exact_mod_cast List.length_pos_iff.mpr hne
  obtain ⟨r, hr⟩ : ∃ r, Verif.sample2 1000 6 1 1 0 xs = some r := by
    simp only [Verif.sample2, fdiv, fsqrt, if_neg hN.ne', Option.bind_eq_bind, Option.bind_some]
    rw [if_neg (not_lt.mpr (by positivity))]
    simp
  have hb := C46_random2 hr
  have hc : ∀ x ∈ xs, crop2Cond 0 1 r.dx x := fun x _ => by simp [crop2Cond]
  obtain ⟨h1, h2⟩ := mpm_particles (d := 0) hb (by norm_num) (by
    rw [Fin.prod_univ_two (M := ℝ)]; norm_num) hc hne (fun x hx => (hbox x hx 1).1)
  obtain ⟨h3, h4⟩ := cube_init (d := 0) hb rfl rfl (fun x hx a => by fin_cases a <;> exact hbox x hx _)
  have hs : (cubeBefore (d := 0) true ![1, 1]).sample2 xs =
      some ((cubeBefore (d := 0) true ![1, 1]).takeSampled r) := by
    have : Verif.sample2 1000 6 (![1, 1] 0) (![1, 1] 1) 0 xs = some r := by simpa using hr
    unfold Sim.sample2
    change Option.map _ (Verif.sample2 1000 6 (![1, 1] 0) (![1, 1] 1) 0 xs) = _
    rw [this]
    rfl
  refine ⟨cubeSim (d := 0) r ![1, 1], by unfold cube2; rw [hs]; rfl,
    cube_claims (d := 0) h1 hb.init h3 h4 hdeg (by rw [hops]; exact fair2) hsched h2 (by norm_num) ?_⟩
  have := C46_mass hb hc
  rw [h2, Fin.prod_univ_two (M := ℝ)] at this
  rw [this]; norm_num

/-- **C91** The same in 3D: a plate of thickness 0.05 and mass 50. -/
theorem C91_cube3 {xs : List (Fin 3 → ℝ)} (hne : xs ≠ []) (hbox : ∀ x ∈ xs, ∀ a, 0 ≤ x a ∧ x a ≤ ![1, 1, 0.05] a)
    {b : Build 3} (hdeg : b.deg ≠ .one) (hops : b.ops = plateOps3) (hsched : ∀ k ps, (b.sched k ps).flatten.Perm ps) :
    ∃ s, cube3 true xs = some s ∧ CubeClaims (d := 1) s b xs.length 50 := by
  have hN : 0 < (xs.length : ℝ) := by exact_mod_cast List.length_pos_iff.mpr hne
  obtain ⟨r, hr⟩ : ∃ r, Verif.sample3 1000 8 1 1 0.05 0 xs = some r := by
    simp only [Verif.sample3, fdiv, if_neg hN.ne', Option.bind_eq_bind, Option.bind_some]
    simp
  have hb := C46_random3 (by norm_num) (by norm_num) (by norm_num) (by norm_num) hr
  have hc : ∀ x ∈ xs, crop3Cond 0 1 0.05 x := fun x _ => by simp [crop3Cond]
  obtain ⟨h1, h2⟩ := mpm_particles (d := 1) hb (by norm_num) (by
    rw [Fin.prod_univ_three (M := ℝ)]; show (0 : ℝ) < 1 * 1 * 0.05; norm_num) hc hne (fun x hx => (hbox x hx 1).1)
  obtain ⟨h3, h4⟩ := cube_init (d := 1) hb rfl rfl hbox
  have hs : (cubeBefore (d := 1) true ![1, 1, 0.05]).sample3 xs =
      some ((cubeBefore (d := 1) true ![1, 1, 0.05]).takeSampled r) := by
    have : Verif.sample3 1000 8 (![1, 1, 0.05] 0) (![1, 1, 0.05] 1) (![1, 1, 0.05] 2) 0 xs = some r := by simpa using hr
    unfold Sim.sample3
    change Option.map _ (Verif.sample3 1000 8 (![1, 1, 0.05] 0) (![1, 1, 0.05] 1) (![1, 1, 0.05] 2) 0 xs) = _
    rw [this]
    rfl
  refine ⟨cubeSim (d := 1) r ![1, 1, 0.05], by unfold cube3; rw [hs]; rfl,
    cube_claims (d := 1) h1 hb.init h3 h4 hdeg (by rw [hops]; exact fair3) hsched h2 (by norm_num) ?_⟩
  have := C46_mass hb hc
  rw [h2, Fin.prod_univ_three (M := ℝ)] at this
  rw [this]
  show (1000 : ℝ) * (1 * 1 * 0.05) = 50
  norm_num

end
end Verif.Props
