import Verif.Model.Input
import Verif.Props.Yield
import Verif.Props.Containment
import Verif.Props.FreeFall
import Verif.Props.Sampling
import Verif.Props.Bookkeeping
import Verif.Lemmas.Svd

set_option linter.unusedSectionVars false
set_option linter.unusedSimpArgs false
set_option linter.unusedVariables false

/-!
# C74, C75, C76: from the input file to the results

C74: the meaning of the elastic parameters and of the Courant number; C75: the input file shipped with the code;
C76: the density of the particles.
-/

namespace Verif.Props
open Verif Matrix

/-! ### the files of a simulation -/

section sim
variable {d : ℕ} {s : Sim (d + 2)} {b : Build (d + 2)} {fuel : ℕ}

/-- Files are only written by a simulation whose members have values and which is accepted. -/
lemma sim_files {n : ℕ} {t : ℝ} {w : World (d + 2)} (h : .particles n t w ∈ filesOf (s.simulate b fuel)) :
    ∃ dx m vol, s.dx = some dx ∧ s.particleMass = some m ∧ s.particleVolume = some vol ∧
      .particles n t w ∈ filesOf (runProgram (s.setup b (Nat.succ_pos _) dx m vol) s.isInitialized s.exit fuel s.fresh) := by
  unfold Sim.simulate at h
  split_ifs at h with ha
  · cases h1 : s.dx with
    | none => rw [h1] at h; simp [filesOf] at h
    | some dx =>
      cases h2 : s.particleMass with
      | none => rw [h1, h2] at h; simp [filesOf] at h
      | some m =>
        cases h3 : s.particleVolume with
        | none => rw [h1, h2, h3] at h; simp [filesOf] at h
        | some vol =>
          rw [h1, h2, h3] at h
          exact ⟨dx, m, vol, rfl, rfl, rfl, h⟩
  · simp [filesOf, Sim.fresh] at h

end sim

/-! ### C74 -/

lemma lame {E nu : ℝ} (h1 : -1 < nu) (h2 : nu < 1 / 2) :
    ∃ L G, nu * E / ((1 + nu) * (1 - 2 * nu)) = nu * L ∧ 2 * (E / (2 * (1 + nu))) = G ∧ G * (1 + nu) = E ∧
      L * (1 - 2 * nu) = G := by
  have a : 1 + nu ≠ 0 := by linarith
  have b : 1 - 2 * nu ≠ 0 := by linarith
  refine ⟨E / ((1 + nu) * (1 - 2 * nu)), E / (1 + nu), by ring, ?_, div_mul_cancel₀ _ a, ?_⟩
  · rw [mul_comm 2 (1 + nu), ← div_div, mul_div_cancel₀ _ two_ne_zero]
  · rw [← div_div, div_mul_cancel₀ _ b]

/-- Hooke's law for three-dimensional isotropic material. -/
lemma hooke3 {E nu : ℝ} (h1 : -1 < nu) (h2 : nu < 1 / 2) (e t : Fin 3 → ℝ)
    (ht : ∀ i, t i = nu * E / ((1 + nu) * (1 - 2 * nu)) * ∑ j, e j + 2 * (E / (2 * (1 + nu))) * e i) (i : Fin 3) :
    E * e i = (1 + nu) * t i - nu * ∑ j, t j := by
  obtain ⟨L, G, e1, e2, hG, hL⟩ := lame (E := E) h1 h2
  rw [Fin.sum_univ_three, ht i, ht 0, ht 1, ht 2, Fin.sum_univ_three, e1, e2]
  linear_combination (-e i) * hG - nu * (e 0 + e 1 + e 2) * hL

/-- Hooke's law in plane strain. -/
lemma hooke2 {E nu : ℝ} (h1 : -1 < nu) (h2 : nu < 1 / 2) (e t : Fin 2 → ℝ)
    (ht : ∀ i, t i = nu * E / ((1 + nu) * (1 - 2 * nu)) * ∑ j, e j + 2 * (E / (2 * (1 + nu))) * e i) (i : Fin 2) :
    E * e i = (1 + nu) * (t i - nu * ∑ j, t j) := by
  obtain ⟨L, G, e1, e2, hG, hL⟩ := lame (E := E) h1 h2
  rw [Fin.sum_univ_two, ht i, ht 0, ht 1, Fin.sum_univ_two, e1, e2]
  linear_combination (-e i) * hG - nu * (1 + nu) * (e 0 + e 1) * hL

section elastic
variable {d : ℕ} {s : Sim (d + 2)} {b : Build (d + 2)} {fuel : ℕ}

/-- The principal stresses of a stress tensor in the principal frame of the deformation gradient `F`, and the
logarithms of the principal stretches. -/
def PrincipalStress (F tau : Matrix (Fin d) (Fin d) ℝ) (e t : Fin d → ℝ) : Prop :=
  ∃ U V : Matrix (Fin d) (Fin d) ℝ, U * Uᵀ = 1 ∧ V * Vᵀ = 1 ∧ F = U * diagonal (fun i => Real.exp (e i)) * Vᵀ ∧
    tau = U * diagonal t * Uᵀ

lemma principal_of {F tau : Matrix (Fin d) (Fin d) ℝ} {lam mu : ℝ} (h : IsHenckyStress lam mu F tau) {e t : Fin d → ℝ}
    (hp : PrincipalStress F tau e t) (i : Fin d) : t i = lam * ∑ j, e j + 2 * mu * e i := by
  obtain ⟨U, V, hU, hV, hF, ht⟩ := hp
  have hs : IsSvd F ⟨U, fun i => Real.exp (e i), V⟩ := ⟨hF, hU, hV, fun i => (Real.exp_pos _).le⟩
  have := h.2 _ hs
  simp only [Real.log_exp] at this
  rw [ht] at this
  have hU' : Uᵀ * U = 1 := mul_eq_one_comm.mp hU
  have e1 := congrArg (fun A => Uᵀ * A * U) this
  simp only [Matrix.mul_assoc, hU', Matrix.mul_one] at e1
  simp only [← Matrix.mul_assoc, hU', Matrix.one_mul] at e1
  have := congrFun (diagonal_injective e1) i
  exact this

end elastic

/-- Every particle in a file has the stress of Hencky elasticity. -/
lemma sim_hencky {d : ℕ} (hd : d = 0 ∨ d = 1) {s : Sim (d + 2)} {b : Build (d + 2)} {fuel : ℕ} (hE : 0 < s.E)
    (h1 : -1 < s.nu) (h2 : s.nu < 1 / 2) (hq : 0 < s.qPrefac) (hel : s.elasticModel = .hencky)
    (hpl : s.plasticModel ≠ .vmVisc) (hsvd : ∀ F, IsSvd F (b.svd F)) {n : ℕ} {t : ℝ} {w : World (d + 2)}
    (hev : .particles n t w ∈ filesOf (s.simulate b fuel)) (hn : n ≠ 0) :
    ∀ p ∈ w.ps, (∀ σ, IsSvd p.F σ → ∀ a, 1e-4 ≤ σ.sig a) →
      IsHenckyStress (s.nu * s.E / ((1 + s.nu) * (1 - 2 * s.nu))) (s.E / (2 * (1 + s.nu))) p.F p.tau := by
  obtain ⟨dx, m, vol, -, -, -, hev⟩ := sim_files hev
  have ok : MatOk (s.setup b (Nat.succ_pos _) dx m vol).m (d + 2) :=
    MatOk.of_elastic (by omega) hE h1 h2 hq hel
  rcases C56_elastic ok hpl hsvd hev (by simp [Sim.fresh]) with ⟨h, -⟩ | h
  · exact absurd h hn
  · exact fun p hp hb => (h p hp).2 hb

lemma savedP_principal {d : ℕ} {F tau : Matrix (Fin d) (Fin d) ℝ} {e t : Fin d → ℝ} (hp : PrincipalStress F tau e t) :
    savedP tau = -(∑ i, t i) / d := by
  obtain ⟨U, V, hU, -, -, rfl⟩ := hp
  rw [savedP, Matrix.mul_assoc, trace_mul_comm, Matrix.mul_assoc, mul_eq_one_comm.mp hU, Matrix.mul_one, trace_diagonal]

/-- **C74** Meaning of `E` and `nu` in 3D: in every file of a run with Hencky elasticity but the initial one,
logarithmic principal strains `e` (elastic) and principal stresses `τ` of every particle obey Hooke's law with Young's
modulus `E` and Poisson's ratio `nu`; under uniaxial stress the strain is stress over `E` and the lateral strain `-nu`
times that; the pressure is the bulk modulus `E / (3 (1 - 2 nu))` times the logarithmic volume loss. -/
theorem C74_hooke3 {s : Sim 3} {b : Build 3} {fuel : ℕ} (hE : 0 < s.E) (h1 : -1 < s.nu) (h2 : s.nu < 1 / 2)
    (hq : 0 < s.qPrefac) (hel : s.elasticModel = .hencky) (hpl : s.plasticModel ≠ .vmVisc)
    (hsvd : ∀ F, IsSvd F (b.svd F)) {n : ℕ} {t : ℝ} {w : World 3}
    (hev : .particles n t w ∈ filesOf (Sim.simulate (d := 1) s b fuel)) (hn : n ≠ 0) :
    ∀ p ∈ w.ps, (∀ σ, IsSvd p.F σ → ∀ a, 1e-4 ≤ σ.sig a) → ∀ e τ, PrincipalStress p.F p.tau e τ →
      (∀ i, s.E * e i = (1 + s.nu) * τ i - s.nu * ∑ j, τ j) ∧
      (∀ σ, τ = ![σ, 0, 0] → e 0 = σ / s.E ∧ e 1 = -(s.nu * e 0) ∧ e 2 = -(s.nu * e 0)) ∧
      savedP p.tau = -(s.E / (3 * (1 - 2 * s.nu)) * ∑ i, e i) := by
  intro p hp hb e τ hps
  have h := principal_of (sim_hencky (d := 1) (.inr rfl) hE h1 h2 hq hel hpl hsvd hev hn p hp hb) hps
  have hk := hooke3 h1 h2 e τ h
  refine ⟨hk, ?_, ?_⟩
  · rintro σ rfl
    have e0 := hk 0
    have e1 := hk 1
    have e2 := hk 2
    simp [Fin.sum_univ_three] at e0 e1 e2
    have h0 : e 0 = σ / s.E := by rw [eq_div_iff hE.ne']; linarith
    have hx : ∀ x, s.E * x = -(s.nu * σ) → x = -(s.nu * e 0) := by
      intro x hx
      rw [h0, ← mul_div_assoc, ← neg_div, eq_div_iff hE.ne']; linarith
    exact ⟨h0, hx _ e1, hx _ e2⟩
  · rw [savedP_principal hps]
    have hs : 0 < 1 - 2 * s.nu := by linarith
    have := congrArg₂ (· + ·) (congrArg₂ (· + ·) (hk 0) (hk 1)) (hk 2)
    simp only [Fin.sum_univ_three] at this ⊢
    push_cast
    field_simp
    linarith

/-- **C74** The same in 2D, which is plane strain: under uniaxial stress the stiffness is `E / (1 - nu²)`, the lateral
strain `-nu / (1 - nu)` times the strain, and the bulk modulus `E / (2 (1 + nu) (1 - 2 nu))`. -/
theorem C74_hooke2 {s : Sim 2} {b : Build 2} {fuel : ℕ} (hE : 0 < s.E) (h1 : -1 < s.nu) (h2 : s.nu < 1 / 2)
    (hq : 0 < s.qPrefac) (hel : s.elasticModel = .hencky) (hpl : s.plasticModel ≠ .vmVisc)
    (hsvd : ∀ F, IsSvd F (b.svd F)) {n : ℕ} {t : ℝ} {w : World 2}
    (hev : .particles n t w ∈ filesOf (Sim.simulate (d := 0) s b fuel)) (hn : n ≠ 0) :
    ∀ p ∈ w.ps, (∀ σ, IsSvd p.F σ → ∀ a, 1e-4 ≤ σ.sig a) → ∀ e τ, PrincipalStress p.F p.tau e τ →
      (∀ i, s.E * e i = (1 + s.nu) * (τ i - s.nu * ∑ j, τ j)) ∧
      (∀ σ, τ = ![σ, 0] → e 0 = σ / (s.E / (1 - s.nu ^ 2)) ∧ e 1 = -(s.nu / (1 - s.nu) * e 0)) ∧
      savedP p.tau = -(s.E / (2 * (1 + s.nu) * (1 - 2 * s.nu)) * ∑ i, e i) := by
  intro p hp hb e τ hps
  have h := principal_of (sim_hencky (d := 0) (.inl rfl) hE h1 h2 hq hel hpl hsvd hev hn p hp hb) hps
  have hk := hooke2 h1 h2 e τ h
  refine ⟨hk, ?_, ?_⟩
  · rintro σ rfl
    have e0 := hk 0
    have e1 := hk 1
    simp [Fin.sum_univ_two] at e0 e1
    have a1 : 0 < 1 - s.nu := by linarith
    have a2 : 0 < 1 - s.nu ^ 2 := by nlinarith
    have h0 : e 0 = σ / (s.E / (1 - s.nu ^ 2)) := by
      rw [eq_div_iff (by positivity)]
      field_simp
      nlinarith
    refine ⟨h0, ?_⟩
    have : s.E * (1 - s.nu) * (e 1 + s.nu / (1 - s.nu) * e 0) = 0 := by
      have : s.E * (1 - s.nu) * (e 1 + s.nu / (1 - s.nu) * e 0) = (1 - s.nu) * (s.E * e 1) + s.nu * (s.E * e 0) := by
        field_simp
      rw [this, e0, e1]; ring
    have := (mul_eq_zero.mp this).resolve_left (by positivity)
    linarith
  · rw [savedP_principal hps]
    have hs : 0 < 1 - 2 * s.nu := by linarith
    have hs' : 0 < 1 + s.nu := by linarith
    have := congrArg₂ (· + ·) (hk 0) (hk 1)
    simp only [Fin.sum_univ_two] at this ⊢
    push_cast
    field_simp
    linarith

/-- Speed of pressure waves in an isotropic material with Young's modulus `E`, Poisson's ratio `nu` and density `rho`
(three-dimensional or plane strain). -/
noncomputable def pWaveSpeed (E nu rho : ℝ) : ℝ := √(E * (1 - nu) / ((1 + nu) * (1 - 2 * nu)) / rho)

/-- The stiffness `rho c²` belonging to it is that of the model: changing one principal strain only changes the stress
in this direction by that factor. -/
lemma pWave_stiffness {d : ℕ} {E nu rho : ℝ} (hE : 0 < E) (h1 : -1 < nu) (h2 : nu < 1 / 2) (hr : 0 < rho) {F tau F' tau' :
    Matrix (Fin d) (Fin d) ℝ} (h : IsHenckyStress (nu * E / ((1 + nu) * (1 - 2 * nu))) (E / (2 * (1 + nu))) F tau)
    (h' : IsHenckyStress (nu * E / ((1 + nu) * (1 - 2 * nu))) (E / (2 * (1 + nu))) F' tau') {e t e' t' : Fin d → ℝ}
    (hp : PrincipalStress F tau e t) (hp' : PrincipalStress F' tau' e' t') (i : Fin d) {x : ℝ}
    (he : e' = e + Pi.single i x) : t' i - t i = rho * pWaveSpeed E nu rho ^ 2 * x := by
  have a : 0 < 1 + nu := by linarith
  have b : 0 < 1 - 2 * nu := by linarith
  have c : 0 < 1 - nu := by linarith
  rw [principal_of h hp, principal_of h' hp', he, pWaveSpeed, Real.sq_sqrt (by positivity)]
  simp only [Pi.add_apply, Pi.single_eq_same, Finset.sum_add_distrib, Finset.sum_pi_single', Finset.mem_univ, if_true]
  obtain ⟨L, G, e1, e2, hG, hL⟩ := lame (E := E) h1 h2
  have hc : rho * (E * (1 - nu) / ((1 + nu) * (1 - 2 * nu)) / rho) = nu * L + G := by
    rw [mul_div_cancel₀ _ hr.ne', div_eq_iff (by positivity)]
    linear_combination (-(1 - nu)) * hG - (1 + nu) * nu * hL
  rw [e1, e2, hc]
  ring

/-- **C74** Number of cells a pressure wave crosses in the largest time step: `cfl_elastic` times
`√((1 - nu) / ((1 + nu) (1 - 2 nu)))`, at least `cfl_elastic`, and more than that for every `nu ≠ 0`. -/
theorem C74_courant {d : ℕ} (s : Sim d) {dx : ℝ} (hdx : 0 < dx) (hE : 0 < s.E) (h1 : -1 < s.nu) (h2 : s.nu < 1 / 2)
    (hr : 0 < s.rho) (hc : 0 < s.cflElastic) :
    pWaveSpeed s.E s.nu s.rho * (s.timeConfig dx).dtMax / dx =
      s.cflElastic * √((1 - s.nu) / ((1 + s.nu) * (1 - 2 * s.nu))) ∧
    s.cflElastic ≤ pWaveSpeed s.E s.nu s.rho * (s.timeConfig dx).dtMax / dx ∧
    (s.nu ≠ 0 → s.cflElastic < pWaveSpeed s.E s.nu s.rho * (s.timeConfig dx).dtMax / dx) := by
  have a : 0 < 1 + s.nu := by linarith
  have b : 0 < 1 - 2 * s.nu := by linarith
  have c : 0 < 1 - s.nu := by linarith
  have key : pWaveSpeed s.E s.nu s.rho * (s.timeConfig dx).dtMax / dx =
      s.cflElastic * √((1 - s.nu) / ((1 + s.nu) * (1 - 2 * s.nu))) := by
    have e : pWaveSpeed s.E s.nu s.rho = √((1 - s.nu) / ((1 + s.nu) * (1 - 2 * s.nu))) * √(s.E / s.rho) := by
      rw [pWaveSpeed, ← Real.sqrt_mul (by positivity)]
      congr 1
      field_simp
    have hw : 0 < √(s.E / s.rho) := Real.sqrt_pos.mpr (by positivity)
    rw [e]
    show _ * (s.cflElastic * dx / √(s.E / s.rho)) / dx = _
    field_simp
  have h3 : (1 - s.nu) / ((1 + s.nu) * (1 - 2 * s.nu)) = 1 + 2 * s.nu ^ 2 / ((1 + s.nu) * (1 - 2 * s.nu)) := by
    have hD : (1 + s.nu) * (1 - 2 * s.nu) ≠ 0 := by positivity
    rw [div_eq_iff hD, add_mul, div_mul_cancel₀ _ hD]
    ring
  refine ⟨key, ?_, fun hne => ?_⟩
  · rw [key]
    refine le_mul_of_one_le_right hc.le ?_
    rw [Real.one_le_sqrt, h3]
    have : 0 ≤ 2 * s.nu ^ 2 / ((1 + s.nu) * (1 - 2 * s.nu)) := by positivity
    linarith
  · rw [key]
    refine lt_mul_of_one_lt_right hc ?_
    rw [Real.lt_sqrt (by norm_num), h3]
    have : 0 < 2 * s.nu ^ 2 / ((1 + s.nu) * (1 - 2 * s.nu)) := by positivity
    linarith

/-- **C74** With all parameters but `nu` at their defaults, a pressure wave crosses more than two cells in the largest
time step if `nu = 0.49`. -/
theorem C74_courant_false (d : ℕ) : ∃ s : Sim d, s = { nu := 0.49 } ∧ ∀ dx, 0 < dx →
    2 < pWaveSpeed s.E s.nu s.rho * (s.timeConfig dx).dtMax / dx := by
  refine ⟨_, rfl, fun dx hdx => ?_⟩
  rw [(C74_courant (d := d) { nu := 0.49 } hdx (by norm_num) (by norm_num) (by norm_num) (by norm_num) (by norm_num)).1]
  have : 4 < √((1 - 0.49) / ((1 + 0.49) * (1 - 2 * 0.49)) : ℝ) := by
    rw [Real.lt_sqrt (by norm_num)]; norm_num
  show (2 : ℝ) < 0.5 * _
  linarith

/-! ### C76 -/

/-- **C76** Density: if the density is not changed after sampling, the particles of an uncropped box have together the
mass density times volume. `after` stands for the assignments between sampling and `simulate`; they may do anything else
but change the mass and number of the particles. -/
theorem C76_density2 {s s' : Sim 2} {xs : List (Fin 2 → ℝ)} (hs : s.sample2 xs = some s') (after : Sim 2 → Sim 2)
    (hm : (after s').particleMass = s'.particleMass) (hl : (after s').particles.length = s'.particles.length)
    (hr : (after s').rho = s.rho) :
    ∃ m, (after s').particleMass = some m ∧ (after s').particles.length * m = (after s').rho * (s.L 0 * s.L 1) := by
  unfold Sim.sample2 at hs
  obtain ⟨r, hr', rfl⟩ := Option.map_eq_some_iff.mp hs
  have hb := C46_random2 hr'
  refine ⟨r.mass, hm, ?_⟩
  have := C46_mass hb (fun x _ => by simp [crop2Cond])
  rw [hl, hr]
  change (r.ps.length : ℝ) * r.mass = _
  simpa [Fin.prod_univ_two] using this

/-- **C76** The same in 3D. -/
theorem C76_density3 {s s' : Sim 3} {xs : List (Fin 3 → ℝ)} (hL : ∀ a, 0 ≤ s.L a) (hs : s.sample3 xs = some s')
    (after : Sim 3 → Sim 3)
    (hm : (after s').particleMass = s'.particleMass) (hl : (after s').particles.length = s'.particles.length)
    (hr : (after s').rho = s.rho) :
    ∃ m, (after s').particleMass = some m ∧
      (after s').particles.length * m = (after s').rho * (s.L 0 * s.L 1 * s.L 2) := by
  unfold Sim.sample3 at hs
  obtain ⟨r, hr', rfl⟩ := Option.map_eq_some_iff.mp hs
  have hb := C46_random3 (by norm_num) (hL 0) (hL 1) (hL 2) hr'
  refine ⟨r.mass, hm, ?_⟩
  have := C46_mass hb (fun x _ => by simp [crop3Cond])
  rw [hl, hr]
  change (r.ps.length : ℝ) * r.mass = _
  simpa [Fin.prod_univ_three] using this

/-- **C76** The shipped example examples/cube_rotating.cpp sets the density after sampling: the cube of unit area (2D)
is meant to have density 1550 and gets mass 1000, while the time step is that for density 1550, hence longer than
`cfl_elastic` times `dx` over the wave speed of the particles' density. -/
theorem C76_order_false {xs : List (Fin 2 → ℝ)} (hne : xs ≠ []) (copied : Bool) :
    ∃ s dx m, cube2 copied xs = some s ∧ s.dx = some dx ∧ s.particleMass = some m ∧ s.rho = 1550 ∧
      s.particles.length * m = 1000 * (s.L 0 * s.L 1) ∧ s.particles.length * m ≠ s.rho * (s.L 0 * s.L 1) ∧
      s.cflElastic * dx / √(s.E / 1000) < (s.timeConfig dx).dtMax := by
  have hN : 0 < (xs.length : ℝ) := by exact_mod_cast List.length_pos_iff.mpr hne
  obtain ⟨r, hr⟩ : ∃ r, Verif.sample2 1000 6 1 1 0 xs = some r := by
    simp only [Verif.sample2, fdiv, fsqrt, if_neg hN.ne', Option.bind_eq_bind, Option.bind_some]
    rw [if_neg (not_lt.mpr (by positivity))]
    simp
  have hb := C46_random2 hr
  have hdx : 0 < r.dx := by
    refine lt_of_le_of_ne hb.dx_nonneg fun h => ?_
    have := hb.ppc
    rw [← h] at this
    simp at this
  have hmass := C46_mass hb (fun x _ => by simp [crop2Cond])
  have hs : (cubeBefore (d := 0) copied ![1, 1]).sample2 xs =
      some ((cubeBefore (d := 0) copied ![1, 1]).takeSampled r) := by
    have : Verif.sample2 1000 6 (![1, 1] 0) (![1, 1] 1) 0 xs = some r := by simpa using hr
    unfold Sim.sample2
    change Option.map _ (Verif.sample2 1000 6 (![1, 1] 0) (![1, 1] 1) 0 xs) = _
    rw [this]
    rfl
  have h1 : r.L 0 * r.L 1 = 1 := by rw [hb.len]; simp
  have h2 : (r.ps.length : ℝ) * r.mass = 1000 := by
    rw [hmass, Fin.prod_univ_two]; simp
  refine ⟨_, r.dx, r.mass, by unfold cube2; rw [hs]; rfl, rfl, rfl, rfl, ?_, ?_, ?_⟩
  · show (((r.ps.map _).length : ℕ) : ℝ) * r.mass = 1000 * (r.L 0 * r.L 1)
    rw [List.length_map, h1, h2]; norm_num
  · show (((r.ps.map _).length : ℕ) : ℝ) * r.mass ≠ 1550 * (r.L 0 * r.L 1)
    rw [List.length_map, h1, h2]; norm_num
  · show 0.5 * r.dx / √(1e6 / 1000) < 0.5 * r.dx / √(1e6 / 1550)
    refine div_lt_div_of_pos_left (by positivity) (Real.sqrt_pos.mpr (by norm_num)) ?_
    exact Real.sqrt_lt_sqrt (by norm_num) (by norm_num)

/-! ### C75 -/

section mpm
variable {d : ℕ} {r : Sampled (d + 2)} {len : Fin (d + 2) → ℝ} {b : Build (d + 2)} {fuel : ℕ}

/-- Without ramp every step uses the given gravity. -/
lemma StepOf.sameGravity {R : Setup (d + 2)} {s s1 : LoopState (d + 2) (World (d + 2))} {dt : ℝ} {g : Fin (d + 2) → ℝ}
    {w : World (d + 2)} (h : StepOf R s s1 dt g w) (hsp : R.C.gravitySpecial = false) : g = s.gravity :=
  (run_inv (Inv := fun _ _ _ g => g = s.gravity) rfl (fun s1 dt g w hst hg => by
    rw [hst.dt_ge.2, rampGravity, hsp]; simpa using hg) h).2

/-- The simulation set up by src/mpm.cpp from sampled particles. -/
noncomputable abbrev mpmSim (r : Sampled (d + 2)) (len : Fin (d + 2) → ℝ) : Sim (d + 2) :=
  mpmAfter ((mpmBefore true len).takeSampled r) r.dx

/-- Its set-up. -/
noncomputable abbrev mpmSetup (r : Sampled (d + 2)) (len : Fin (d + 2) → ℝ) (b : Build (d + 2)) : Setup (d + 2) :=
  (mpmSim r len).setup b (Nat.succ_pos _) r.dx r.mass r.volume

lemma mpm_simulate : (mpmSim r len).simulate b fuel =
    runProgram (mpmSetup r len b) true false fuel (mpmSim r len).fresh := rfl

lemma tan30_pos : 0 < Real.tan (30 * Real.pi / 180) := by
  have := Real.pi_pos
  exact Real.tan_pos_of_pos_of_lt_pi_div_two (by positivity) (by linarith)

lemma mpm_visc (hd : d = 0 ∨ d = 1) : ViscDP (mpmSetup r len b).m (d + 2) where
  ok := MatOk.of_elastic (by omega) (by show (0 : ℝ) < 1e6; norm_num) (by show (-1 : ℝ) < 0.3; norm_num)
    (by show (0.3 : ℝ) < 1 / 2; norm_num) (by show (0 : ℝ) < 1 / √2; positivity) rfl
  model := rfl
  expo := rfl
  hM := tan30_pos
  hc := le_rfl
  hτ := le_rfl

/-- What is known of the particles of src/mpm.cpp before they are moved. -/
structure MpmParticles (r : Sampled (d + 2)) : Prop where
  ne : r.ps ≠ []
  dx : 0 < r.dx
  mass : 0 < r.mass
  fresh : ∀ p ∈ r.ps, p.tau = 0 ∧ p.epsPlVolPradhana = 0 ∧ 0 ≤ p.x 1

lemma mpm_fresh (h : MpmParticles r) : ∀ p ∈ (mpmSim r len).fresh.w.ps,
    p.tau = 0 ∧ p.epsPlVolPradhana = 0 ∧ 0.5 * r.dx ≤ p.x 1 := by
  intro p hp
  obtain ⟨q, hq, rfl⟩ := List.mem_map.mp hp
  obtain ⟨a1, a2, a3⟩ := h.fresh q hq
  refine ⟨a1, a2, ?_⟩
  simp
  exact a3

/-- Files of the run of src/mpm.cpp: particles are kept, the pressure is never tensile, the shear stress is below the
yield line except exactly at the tip, and no particle is more than half a cell below the floor. -/
lemma mpm_files (hd : d = 0 ∨ d = 1) (h : MpmParticles r) (hdeg : b.deg = .two) (hops : HoldOps b.ops)
    (hsvd : ∀ F, IsSvd F (b.svd F)) (hsched : ∀ k ps, (b.sched k ps).flatten.Perm ps)
    {n : ℕ} {t : ℝ} {w : World (d + 2)} (hev : .particles n t w ∈ filesOf ((mpmSim r len).simulate b fuel)) :
    w.ps.length = r.ps.length ∧ (∀ p ∈ w.ps, 0 ≤ savedP p.tau) ∧
    (n = 0 ∧ (∀ p ∈ w.ps, p.tau = 0) ∨ ∃ s1 dt g, StepOf (mpmSetup r len b) (mpmSim r len).fresh s1 dt g w ∧
      (∀ a, g a = if a = 1 then -9.81 else 0) ∧
      List.Forall₂ (fun p0 p => savedQ (1 / √2) p.tau ≤ Real.tan (30 * Real.pi / 180) * savedP p.tau ∨
        savedP p.tau + pressureShift (mpmSetup r len b).m (d + 2) p0 = 0) s1.w.ps w.ps) ∧
    ((∀ s1 dt g w, StepOf (mpmSetup r len b) (mpmSim r len).fresh s1 dt g w → ∀ j, IsNode w.g j →
        ∀ u : Fin (d + 2) → ℝ, 0 < massAt .two r.dx r.mass s1.w.ps (nodeAt w.g j) →
        massAt .two r.dx r.mass s1.w.ps (nodeAt w.g j) • u = freeMomentum .two r.dx (-0.95)
          (mpmSetup r len b).S.P.apicDinverse r.mass r.volume dt g s1.w.ps (nodeAt w.g j) →
        |(nodeAt w.g j + dt • u) 0| < 1e15) →
      ∀ p ∈ w.ps, -(r.dx / 2) ≤ p.x 1) := by
  have v := mpm_visc (r := r) (len := len) (b := b) hd
  have hf := mpm_fresh (len := len) h
  have hev' := hev
  rw [mpm_simulate] at hev
  have hnew : Event.particles n t w ∉ (mpmSim r len).fresh.out := by simp [Sim.fresh]
  have hbeg : (begin (mpmSetup r len b) (mpmSim r len).fresh).w = (mpmSim r len).fresh.w := by
    rw [begin_w]; rfl
  have hy := C71_viscousDruckerPrager_partial v hsvd (by show (0 : ℝ) < 1e-14; norm_num)
    (fun p hp => (hf p hp).2.1.ge) hev hnew
  have hlen : w.ps.length = r.ps.length := by
    have h0 : (mpmSim r len).fresh.w.ps.length = r.ps.length := List.length_map ..
    rcases run_particles hev hnew with ⟨-, -, rfl⟩ | ⟨s1, dt, g, hst, -⟩
    · rw [hbeg, h0]
    · have := (run_inv (Inv := fun w _ _ _ => w.ps.length = r.ps.length) (by rw [hbeg, h0])
        (fun s1 dt g w hst hi => by rw [← hi]; exact ((physStep_forall₂ hst.phys).length_eq).symm) hst).2
      exact this
  refine ⟨hlen, ?_, ?_, ?_⟩
  · rcases C71_viscousDruckerPrager_bound_partial v hsvd (by show (0 : ℝ) < 1e-14; norm_num)
      (fun p hp => (hf p hp).2.1.ge) hev hnew with ⟨-, -, rfl⟩ | hF
    · intro p hp
      rw [hbeg] at hp
      rw [(hf p hp).1, savedP]; simp
    · intro p hp
      have := (hF p hp).1
      change -0 / _ ≤ _ at this
      simpa using this
  · rcases hy with ⟨h0, -, rfl⟩ | ⟨s1, dt, g, hst, hF⟩
    · left
      refine ⟨h0, fun p hp => ?_⟩
      rw [hbeg] at hp
      exact (hf p hp).1
    · right
      refine ⟨s1, dt, g, hst, ?_, hF.imp fun p0 p hr => ?_⟩
      · intro a
        rw [hst.sameGravity rfl]
        show Function.update (Function.update (0 : Fin (d + 2) → ℝ) 0 (9.81 * Real.sin (0 * Real.pi / 180))) 1
          (-9.81 * Real.cos (0 * Real.pi / 180)) a = _
        by_cases ha : a = 1
        · rw [ha]; simp
        · rw [if_neg ha, Function.update_of_ne ha]
          by_cases hb : a = 0
          · rw [hb]; simp
          · rw [Function.update_of_ne hb]; rfl
      obtain ⟨-, -, hsh, h1 | ⟨-, h1⟩ | h1⟩ := hr
      · left
        change _ ≤ _ + 0 at h1
        rw [add_zero] at h1
        exact h1
      · left
        change (if false = true then _ else _) at h1
        rw [if_neg (by simp)] at h1
        change savedQ (1 / √2) p.tau = (Real.tan (30 * Real.pi / 180) * _ + 0) * (1 + 0 * _) at h1
        rw [h1]
        have := mul_le_mul_of_nonneg_left hsh tan30_pos.le
        linarith
      · right
        change _ = -0 / _ at h1
        simpa using h1
  · intro hcov
    have h0 : IsLeast (coords (mpmSetup r len b).S.ref ((mpmSim r len).fresh.w.ps.map fun p => p.x) 1) 0 := by
      have href : (mpmSetup r len b).S.ref = some 0 := by
        show (if (0 : ℝ) < 1e10 then some _ else none) = some _
        rw [if_pos (by norm_num)]; rfl
      rw [href]
      constructor
      · right; exact ⟨0, rfl, rfl⟩
      · rintro y (⟨x, hx, rfl⟩ | ⟨q, hq, rfl⟩)
        · obtain ⟨p, hp, rfl⟩ := List.mem_map.mp hx
          have := (hf p hp).2.2
          have := h.dx
          linarith
        · cases hq
          exact le_rfl
    have := C70_run (R := mpmSetup r len b) (s := (mpmSim r len).fresh) (deg := .two) (dx := r.dx) (fr := -0.95)
      (m := r.mass) (vol := r.volume) (b := 1) (q := mkPlate 0 .bottom .noSlip) (m0 := 0) (z := 0)
      (by rw [← hdeg]; rfl) h.dx h.mass rfl rfl hops hsched (by show (0 : ℝ) ≤ 1e-14; norm_num) rfl
      (by
        intro hc
        have : (mpmSim r len).fresh.w.ps.length = r.ps.length := List.length_map ..
        rw [hc] at this
        exact h.ne (List.length_eq_zero_iff.mp this.symm))
      (by show _ ∈ [_]; simp) rfl rfl (by intro o ho; exact absurd ho (by show ¬ _ ∈ []; simp))
      (by
        intro p hp
        change p ∈ [mkPlate 0 .bottom .noSlip] at hp
        rw [List.mem_singleton.mp hp]
        exact ⟨le_rfl, rfl, rfl⟩)
      h0 ⟨0, by simp⟩ (by show (1 : ℝ) * 0 ≤ 1 * 0; norm_num)
      (by
        intro s1 dt g w hst j hj u h1 h2
        have := hcov s1 dt g w hst j hj u h1 h2
        rw [abs_lt] at this
        exact this)
      (by
        intro p hp
        have := (hf p hp).2.2
        have := h.dx
        show (1 : ℝ) * 0 - 1 / 2 * r.dx ≤ 1 * p.x 1
        linarith) hev hnew
    intro p hp
    have := this p hp
    change (1 : ℝ) * 0 - 1 / 2 * r.dx ≤ 1 * p.x 1 at this
    linarith

/-- The run of src/mpm.cpp ends normally and writes all files unless an outermost particle gets into the critical
window (C58). -/
lemma mpm_completes (hd : d = 0 ∨ d = 1) (h : MpmParticles r) (hsched : ∀ k ps, (b.sched k ps).flatten.Perm ps)
    (hfuel : 2 * 10 ^ 14 ≤ fuel)
    (hcrit : ∀ k s1, Reach (mpmSetup r len b).C (physics (mpmSetup r len b)) (mpmSim r len).gravity
      (begin (mpmSetup r len b) (mpmSim r len).fresh) k s1 → 0 < k →
      ¬ Critical (mpmSetup r len b) (mpmSim r len).fresh.w.ps s1.w.ps) :
    ∃ e, (mpmSim r len).simulate b fuel = .finished e ∧ e.frame = 20 ∧ ∃ (t : ℕ → ℝ) (w : ℕ → World (d + 2)),
      e.out = [.info, .particles 0 0 (mpmSim r len).fresh.w] ++
        (List.range 20).flatMap (fun n => [.particles (n + 1) (t (n + 1)) (w (n + 1)), .grid (n + 1) (t (n + 1)) (w (n + 1))]) ++
        [.particles 20 (t 20) (w 20), .grid 20 (t 20) (w 20), .timing e.step] ∧
      ∀ n, 1 ≤ n → n ≤ 20 → n / 10 - 1.1e-14 < t n ∧ t n ≤ n / 10 := by
  have v := mpm_visc (r := r) (len := len) (b := b) hd
  obtain ⟨e, h1, h2, t, w, h3, h4⟩ := C61_completes (R := mpmSetup r len b) (s := (mpmSim r len).fresh) (i := true) (e := false)
    (fuel := fuel) (deg := b.deg) (dx := r.dx) (fr := -0.95) (m := r.mass) (vol := r.volume) rfl h.dx rfl rfl
    (by
        intro hc
        have : (mpmSim r len).fresh.w.ps.length = r.ps.length := List.length_map ..
        rw [hc] at this
        exact h.ne (List.length_eq_zero_iff.mp this.symm))
    hsched (.inr (.inl ⟨v.ok, .inr rfl, by show (1 : ℝ) ≤ 1; norm_num, le_rfl⟩))
    (.inr (.inr (.inr (.inr (.inr (.inr ⟨v.ok.hmu, v.ok.hq, rfl, le_rfl, .inr ⟨rfl, v.hM⟩⟩)))))) rfl
    (by show (0 : ℝ) < 1e-14; norm_num) (by omega)
    (by
      show ((20 : ℕ) : ℝ) / 10 ≤ fuel * 1e-14
      have : (2 * 10 ^ 14 : ℝ) ≤ fuel := by exact_mod_cast hfuel
      push_cast
      linarith)
    (by show (1e-14 : ℝ) * (11 / 10) ≤ 1 / 10; norm_num) rfl (by show 1 ≤ 20; norm_num) hcrit
  refine ⟨e, h1, h2, t, w, ?_, fun n a1 a2 => ?_⟩
  · rw [h3]; rfl
  · have := h4 n a1 a2
    change (n : ℝ) / 10 - 1e-14 * (11 / 10) < _ ∧ _ at this
    norm_num at this ⊢
    exact this

end mpm

/-- The nodes moved by their velocity stay between the ends of a plate with default length: during the whole run, no
node with mass is further than 1e15 from the origin after moving for one step with the velocity it would have without
floor. -/
def WithinPlate {d : ℕ} (R : Setup (d + 2)) (s : LoopState (d + 2) (World (d + 2))) (dx m vol : ℝ) : Prop :=
  ∀ s1 dt g w, StepOf R s s1 dt g w → ∀ j, IsNode w.g j → ∀ u : Fin (d + 2) → ℝ,
    0 < massAt .two dx m s1.w.ps (nodeAt w.g j) →
    massAt .two dx m s1.w.ps (nodeAt w.g j) • u =
      freeMomentum .two dx (-0.95) R.S.P.apicDinverse m vol dt g s1.w.ps (nodeAt w.g j) →
    |(nodeAt w.g j + dt • u) 0| < 1e15

/-- What is claimed of the simulation `s` set up by src/mpm.cpp for `N` particles of total mass `mass`. -/
def MpmClaims {d : ℕ} (s : Sim (d + 2)) (b : Build (d + 2)) (N : ℕ) (mass : ℝ) : Prop :=
  ∃ dx m vol, s.dx = some dx ∧ 0 < dx ∧ s.particleMass = some m ∧ N * m = mass ∧
    -- end of the run
    (∀ fuel, 2 * 10 ^ 14 ≤ fuel →
      (∀ k s1, Reach (s.setup b (Nat.succ_pos _) dx m vol).C (physics (s.setup b (Nat.succ_pos _) dx m vol)) s.gravity
        (begin (s.setup b (Nat.succ_pos _) dx m vol) s.fresh) k s1 → 0 < k →
        ¬ Critical (s.setup b (Nat.succ_pos _) dx m vol) s.fresh.w.ps s1.w.ps) →
      ∃ e, s.simulate b fuel = .finished e ∧ e.frame = 20 ∧ ∃ (t : ℕ → ℝ) (w : ℕ → World (d + 2)),
        e.out = [.info, .particles 0 0 s.fresh.w] ++ (List.range 20).flatMap (fun n =>
          [.particles (n + 1) (t (n + 1)) (w (n + 1)), .grid (n + 1) (t (n + 1)) (w (n + 1))]) ++
          [.particles 20 (t 20) (w 20), .grid 20 (t 20) (w 20), .timing e.step] ∧
        ∀ n, 1 ≤ n → n ≤ 20 → n / 10 - 1.1e-14 < t n ∧ t n ≤ n / 10) ∧
    -- contents of the files, however the run ends
    ∀ fuel n t w, .particles n t w ∈ filesOf (s.simulate b fuel) →
      w.ps.length = N ∧ (∀ p ∈ w.ps, 0 ≤ savedP p.tau) ∧
      (n = 0 ∧ (∀ p ∈ w.ps, p.tau = 0) ∨
        ∃ s1 dt g, StepOf (s.setup b (Nat.succ_pos _) dx m vol) s.fresh s1 dt g w ∧
        (∀ a, g a = if a = 1 then -9.81 else 0) ∧
        List.Forall₂ (fun p0 p => savedQ (1 / √2) p.tau ≤ Real.tan (30 * Real.pi / 180) * savedP p.tau ∨
          savedP p.tau + pressureShift s.material (d + 2) p0 = 0) s1.w.ps w.ps) ∧
      (WithinPlate (s.setup b (Nat.succ_pos _) dx m vol) s.fresh dx m vol → ∀ p ∈ w.ps, -(dx / 2) ≤ p.x 1)

lemma mpm_claims {d : ℕ} {r : Sampled (d + 2)} {len : Fin (d + 2) → ℝ} {b : Build (d + 2)} (hd : d = 0 ∨ d = 1)
    (h : MpmParticles r) (hdeg : b.deg = .two) (hops : HoldOps b.ops)
    (hsvd : ∀ F, IsSvd F (b.svd F)) (hsched : ∀ k ps, (b.sched k ps).flatten.Perm ps) {N : ℕ} (hN : r.ps.length = N)
    {mass : ℝ} (hm : N * r.mass = mass) : MpmClaims (mpmSim r len) b N mass := by
  refine ⟨r.dx, r.mass, r.volume, rfl, h.dx, rfl, hm, fun fuel hfuel hcrit => mpm_completes hd h hsched hfuel hcrit,
    fun fuel n t w hev => ?_⟩
  obtain ⟨a1, a2, a3, a4⟩ := mpm_files hd h hdeg hops hsvd hsched hev
  exact ⟨a1.trans hN, a2, a3, a4⟩

lemma mpm_particles {d : ℕ} {ppc : ℝ} {len : Fin (d + 2) → ℝ} {c : (Fin (d + 2) → ℝ) → Prop}
    {xs : List (Fin (d + 2) → ℝ)} {r : Sampled (d + 2)} (hb : RandomBox 1000 ppc len c xs r) (hp : 0 < ppc)
    (hlen : 0 < ∏ i, len i) (hc : ∀ x ∈ xs, c x) (hne : xs ≠ []) (hpos : ∀ x ∈ xs, 0 ≤ x 1) :
    MpmParticles r ∧ r.ps.length = xs.length := by
  have hN : 0 < (xs.length : ℝ) := by exact_mod_cast List.length_pos_iff.mpr hne
  have hl : r.ps.length = xs.length := by
    have := congrArg List.length (hb.all hc)
    simpa [positions] using this
  have hdx : 0 < r.dx := by
    refine lt_of_le_of_ne hb.dx_nonneg fun h => ?_
    have := hb.ppc
    rw [← h] at this
    simp at this
    rcases this with h | h
    · exact hp.ne' h
    · exact hlen.ne' h
  refine ⟨⟨?_, hdx, ?_, fun p hp => ?_⟩, hl⟩
  · intro h
    rw [h] at hl
    exact hne (List.length_eq_zero_iff.mp hl.symm)
  · rw [hb.mass]
    have : 0 < r.volume := by
      have h := hb.vol
      by_contra hv
      have := mul_nonpos_of_nonneg_of_nonpos hN.le (not_lt.mp hv)
      linarith
    positivity
  · have hi := hb.init p hp
    refine ⟨by rw [hi]; rfl, by rw [hi]; rfl, hpos _ ?_⟩
    rw [← hb.all hc]
    exact List.mem_map_of_mem hp

/-- **C75** The input file src/mpm.cpp (2D, quadratic splines), for every non-empty set of points of the unit square
found by the sampler. -/
theorem C75_mpm2 {xs : List (Fin 2 → ℝ)} (hne : xs ≠ []) (hpos : ∀ x ∈ xs, 0 ≤ x 1) {b : Build 2}
    (hdeg : b.deg = .two) (hops : b.ops = plateOps2)
    (hsvd : ∀ F, IsSvd F (b.svd F)) (hsched : ∀ k ps, (b.sched k ps).flatten.Perm ps) :
    ∃ s, mpm2 true xs = some s ∧ MpmClaims (d := 0) s b xs.length 1000 := by
  have hN : 0 < (xs.length : ℝ) := by exact_mod_cast List.length_pos_iff.mpr hne
  obtain ⟨r, hr⟩ : ∃ r, Verif.sample2 1000 6 1 1 0 xs = some r := by
    simp only [Verif.sample2, fdiv, fsqrt, if_neg hN.ne', Option.bind_eq_bind, Option.bind_some]
    rw [if_neg (not_lt.mpr (by positivity))]
    simp
  have hb := C46_random2 hr
  have hc : ∀ x ∈ xs, crop2Cond 0 1 r.dx x := fun x _ => by simp [crop2Cond]
  obtain ⟨h1, h2⟩ := mpm_particles (d := 0) hb (by norm_num) (by
    rw [Fin.prod_univ_two (M := ℝ)]; norm_num) hc hne hpos
  have hs : (mpmBefore (d := 0) true ![1, 1]).sample2 xs =
      some ((mpmBefore (d := 0) true ![1, 1]).takeSampled r) := by
    have : Verif.sample2 1000 6 (![1, 1] 0) (![1, 1] 1) 0 xs = some r := by simpa using hr
    unfold Sim.sample2
    change Option.map _ (Verif.sample2 1000 6 (![1, 1] 0) (![1, 1] 1) 0 xs) = _
    rw [this]
    rfl
  refine ⟨mpmSim (d := 0) r ![1, 1], by unfold mpm2; rw [hs]; rfl,
    mpm_claims (d := 0) (.inl rfl) h1 hdeg (by rw [hops]; exact hold2) hsvd hsched h2 ?_⟩
  have hm := C46_mass hb hc
  rw [h2, Fin.prod_univ_two] at hm
  simpa using hm

/-- **C75** The same in 3D: a box of size 1 x 1 x 5. -/
theorem C75_mpm3 {xs : List (Fin 3 → ℝ)} (hne : xs ≠ []) (hpos : ∀ x ∈ xs, 0 ≤ x 1) {b : Build 3}
    (hdeg : b.deg = .two) (hops : b.ops = plateOps3)
    (hsvd : ∀ F, IsSvd F (b.svd F)) (hsched : ∀ k ps, (b.sched k ps).flatten.Perm ps) :
    ∃ s, mpm3 true xs = some s ∧ MpmClaims (d := 1) s b xs.length 5000 := by
  have hN : 0 < (xs.length : ℝ) := by exact_mod_cast List.length_pos_iff.mpr hne
  obtain ⟨r, hr⟩ : ∃ r, Verif.sample3 1000 8 1 1 5 0 xs = some r := by
    simp only [Verif.sample3, fdiv, if_neg hN.ne', Option.bind_eq_bind, Option.bind_some]
    simp
  have hb := C46_random3 (by norm_num) (by norm_num) (by norm_num) (by norm_num) hr
  have hc : ∀ x ∈ xs, crop3Cond 0 1 5 x := fun x _ => by simp [crop3Cond]
  obtain ⟨h1, h2⟩ := mpm_particles (d := 1) hb (by norm_num) (by
    rw [Fin.prod_univ_three (M := ℝ)]; show (0 : ℝ) < 1 * 1 * 5; norm_num) hc hne hpos
  have hs : (mpmBefore (d := 1) true ![1, 1, 5]).sample3 xs =
      some ((mpmBefore (d := 1) true ![1, 1, 5]).takeSampled r) := by
    have : Verif.sample3 1000 8 (![1, 1, 5] 0) (![1, 1, 5] 1) (![1, 1, 5] 2) 0 xs = some r := by simpa using hr
    unfold Sim.sample3
    change Option.map _ (Verif.sample3 1000 8 (![1, 1, 5] 0) (![1, 1, 5] 1) (![1, 1, 5] 2) 0 xs) = _
    rw [this]
    rfl
  refine ⟨mpmSim (d := 1) r ![1, 1, 5], by unfold mpm3; rw [hs]; rfl,
    mpm_claims (d := 1) (.inr rfl) h1 hdeg (by rw [hops]; exact hold3) hsvd hsched h2 ?_⟩
  have hm := C46_mass hb hc
  rw [h2, Fin.prod_univ_three] at hm
  simp at hm
  rw [hm]; norm_num

/-- **C75** If the input file can not be copied to the output directory, the program writes nothing (`initialize` sets
`exit`, and `simulate` returns). -/
theorem C75_not_copied {xs : List (Fin 2 → ℝ)} {s : Sim 2} (h : mpm2 false xs = some s) (b : Build 2) (fuel : ℕ) :
    filesOf (Sim.simulate (d := 0) s b fuel) = [] := by
  simp only [mpm2, Option.bind_eq_bind, Option.bind_eq_some_iff, Option.some.injEq] at h
  obtain ⟨s1, h1, dx, hdx, rfl⟩ := h
  obtain ⟨r, -, rfl⟩ := Option.map_eq_some_iff.mp h1
  rfl

/-- **C75** In general: `initialize` never forgets an earlier failure. After it the program is refused, and writes
nothing, if and only if something failed before, the copy failed while saving, or the two models do not go together. -/
theorem C75_initialize {d : ℕ} (s : Sim (d + 2)) (save copied : Bool) (b : Build (d + 2)) (fuel : ℕ)
    (hb : (∃ x, s.dx = some x) ∧ (∃ x, s.particleMass = some x) ∧ ∃ x, s.particleVolume = some x) :
    ((∃ r, (s.initialized save copied).simulate b fuel = .refused r) ↔
      s.exit = true ∨ (save = true ∧ copied = false) ∨
        (s.elasticModel ≠ .hencky ∧ s.plasticModel ≠ .noPlasticity)) ∧
    ∀ r, (s.initialized save copied).simulate b fuel = .refused r → r = s.fresh := by
  obtain ⟨⟨x, hx⟩, ⟨y, hy⟩, ⟨z, hz⟩⟩ := hb
  have hacc : accepted true s.elasticModel s.plasticModel (s.exit || (save && !copied)) = false ↔
      s.exit = true ∨ (save = true ∧ copied = false) ∨
        (s.elasticModel ≠ .hencky ∧ s.plasticModel ≠ .noPlasticity) := by
    unfold accepted
    cases s.exit <;> cases save <;> cases copied <;> simp
  by_cases ha : accepted true s.elasticModel s.plasticModel (s.exit || (save && !copied)) = true
  · have hno := (not_congr hacc).mp (by simp [ha])
    have hs : (s.initialized save copied).simulate b fuel =
        Verif.simulate ((s.initialized save copied).setup b (Nat.succ_pos _) x y z).C
          (physics ((s.initialized save copied).setup b (Nat.succ_pos _) x y z)) true s.elasticModel s.plasticModel
          (s.exit || (save && !copied)) fuel
          { s.fresh with w := fillMuI s.material s.useMibf s.fresh.w } := by
      refine (if_pos ha).trans ?_
      have e1 : (s.initialized save copied).dx = some x := hx
      have e2 : (s.initialized save copied).particleMass = some y := hy
      have e3 : (s.initialized save copied).particleVolume = some z := hz
      rw [e1, e2, e3]
      exact if_pos ha
    have hr := C22_refused (C := ((s.initialized save copied).setup b (Nat.succ_pos _) x y z).C)
      (ph := physics ((s.initialized save copied).setup b (Nat.succ_pos _) x y z)) true
      (s.exit || (save && !copied)) s.elasticModel s.plasticModel fuel
      (s := { s.fresh with w := fillMuI s.material s.useMibf s.fresh.w })
    rw [hs]
    have hnone : ∀ r, Verif.simulate ((s.initialized save copied).setup b (Nat.succ_pos _) x y z).C
          (physics ((s.initialized save copied).setup b (Nat.succ_pos _) x y z)) true s.elasticModel s.plasticModel
          (s.exit || (save && !copied)) fuel
          { s.fresh with w := fillMuI s.material s.useMibf s.fresh.w } ≠ .refused r := by
      intro r h
      have := hr.1.mp (by rw [h, hr.2 r h])
      revert this hno
      cases s.exit <;> cases save <;> cases copied <;> simp
    exact ⟨⟨fun ⟨r, h⟩ => absurd h (hnone r), fun h => absurd h hno⟩, fun r h => absurd h (hnone r)⟩
  · have hs : (s.initialized save copied).simulate b fuel = .refused s.fresh := if_neg ha
    rw [hs]
    refine ⟨⟨fun _ => hacc.mp (by simpa using ha), fun _ => ⟨_, rfl⟩⟩, fun r hr => ?_⟩
    injection hr with hr
    exact hr.symm

end Verif.Props
