import Verif.Props.Consistency
import Verif.Props.PatchExamples

set_option linter.unusedSectionVars false
set_option linter.unusedSimpArgs false
set_option linter.unusedVariables false

/-!
# C124: a column under its own weight
-/

namespace Verif.Props.RunEx
open Verif Matrix
noncomputable section

/-- The stress in a column of height 10 and density 3 under gravity 10. -/
def geostatic (y : Fin 2 → ℝ) : Matrix (Fin 2) (Fin 2) ℝ := !![10 * (y 1 - 10), 0; 0, 30 * (y 1 - 10)]

/-- 121 particles at the points with coordinates `0 .. 10`, at rest, with the stress of their depth. -/
def column : List (Particle 2 ℝ) :=
  ((List.range 11).product (List.range 11)).map fun ij =>
    { Particle.init with x := ![(ij.1 : ℝ), (ij.2 : ℝ)], tau := geostatic ![(ij.1 : ℝ), (ij.2 : ℝ)] }

lemma column_mem {p : Particle 2 ℝ} (hp : p ∈ column) : ∃ i j : ℕ, i < 11 ∧ j < 11 ∧
    p = { Particle.init with x := ![(i : ℝ), (j : ℝ)], tau := geostatic ![(i : ℝ), (j : ℝ)] } := by
  obtain ⟨⟨i, j⟩, hij, rfl⟩ := List.mem_map.mp hp
  have := List.pair_mem_product.mp hij
  exact ⟨i, j, List.mem_range.mp this.1, List.mem_range.mp this.2, rfl⟩

lemma column_int {p : Particle 2 ℝ} (hp : p ∈ column) (a : Fin 2) : ∃ k : ℤ, p.x a = k := by
  obtain ⟨i, j, -, -, rfl⟩ := column_mem hp
  fin_cases a
  · exact ⟨i, by simp⟩
  · exact ⟨j, by simp⟩

lemma column_positions : column.map (fun q => q.x) = block.map fun q => q.x := by
  rw [column, block, List.map_map, List.map_map]; rfl

lemma geostatic_quadratic : IsQuadratic geostatic := by
  refine ⟨!![-100, 0; 0, -300], ![0, !![10, 0; 0, 30]], fun _ _ => 0, fun y => ?_⟩
  ext i j
  fin_cases i <;> fin_cases j <;> simp [geostatic, Fin.sum_univ_two] <;> ring

lemma geostatic_divergence (y : Fin 2 → ℝ) : divergence geostatic y = ![0, 30] := by
  have h : ∀ t, geostatic t = geostatic y + ∑ a, (t a - y a) • (![0, !![10, 0; 0, 30]] : Fin 2 → Matrix (Fin 2) (Fin 2) ℝ) a +
      ∑ a, ∑ c, ((t a - y a) * (t c - y c)) • (0 : Matrix (Fin 2) (Fin 2) ℝ) := by
    intro t
    ext i j
    fin_cases i <;> fin_cases j <;> simp [geostatic, Fin.sum_univ_two] <;> ring
  rw [divergence_eq h]
  funext i
  fin_cases i <;> simp [Fin.sum_univ_two]

lemma column_fields : FieldsNear .two 1 (-19 / 20) (1 / (1 : ℕ)) (2 * width .two * 1) 0 0 geostatic column ![5, 5] := by
  refine ⟨?_, fun q hq _ => ?_⟩
  · rw [column_positions]; norm_num [width]; exact block_regular
  · obtain ⟨i, j, -, -, rfl⟩ := column_mem hq
    simp [Particle.init]

/-- `C124` for the column under gravity, with and without MUSL: the run has a file after its step, in which the particle in the
middle is where it was and at rest. -/
example (musl : Bool) : ∃ t w s1 dt, .particles 1 t w ∈
      filesOf (runProgram (setup musl 1 .vm) true false 10 (start column ![0, -10])) ∧
    StepOf (d := 0) (setup musl 1 .vm) (start column ![0, -10]) s1 dt ![0, -10] w ∧ 0 < dt ∧
    List.Forall₂ (fun p q => p.x = ![5, 5] → p.tau = !![-50, 0; 0, -150] ∧ q.v = 0 ∧ q.x = ![5, 5])
      s1.w.ps w.ps ∧ ∃ p ∈ s1.w.ps, p.x = ![5, 5] := by
  have hne : column ≠ [] := by simp [column, List.product]; exact ⟨0, by norm_num⟩
  have hrest : ∀ p ∈ column, p.v = 0 := fun p hp => by obtain ⟨i, j, -, -, rfl⟩ := column_mem hp; rfl
  obtain ⟨r, h, t, w, hw⟩ := one_step_run musl (.inl rfl) (ps := column) hne hrest ![0, -10]
  have hev : .particles 1 t w ∈ filesOf (runProgram (setup musl 1 .vm) true false 10 (start column ![0, -10])) := by
    rw [h]; exact hw
  rcases run_particles (d := 0) hev (by simp [start]) with ⟨h0, -⟩ | ⟨s1, dt, g, hst, -⟩
  · exact absurd h0 (by norm_num)
  have hdt : 0 < dt := lt_of_lt_of_le (by norm_num [setup, cfg, exConfig]) hst.dt_ge.1
  have hg : g = ![0, -10] := by
    obtain ⟨k, hr, -⟩ := id hst
    have hk := only_begin_of (R := setup musl 1 .vm) rfl hne hrest ![0, -10] k s1 hr
    subst hk
    cases hr
    rw [hst.dt_ge.2, begin_gravity, rampGravity]; rfl
  subst hg
  obtain ⟨m0, hm0, hlat⟩ := run_lattice (d := 0) (R := setup musl 1 .vm) (dx := 1) rfl one_pos rfl rfl hne hst
  have hs1 : s1.w.ps = column ∧ s1.w.plates = [] := by
    obtain ⟨k, hr, -⟩ := hst
    have hk := only_begin_of (R := setup musl 1 .vm) rfl hne hrest ![0, -10] k s1 hr
    subst hk
    cases hr
    rw [begin_w]
    simp [fillMuI, setup, start, mkTransferParams]
  have hn : NoTinyWeights .two 1 w.g s1.w.ps := by
    rw [hs1.1]
    intro p hp j hj
    have hN : ∀ a, N .two ((p.x a - nodeAt w.g j a) / 1) = 0 ∨ 1 / 8 ≤ N .two ((p.x a - nodeAt w.g j a) / 1) := by
      intro a
      obtain ⟨i, hi⟩ := column_int hp a
      obtain ⟨k, hk⟩ := hlat a _ (List.getElem_mem (hj a))
      obtain ⟨l, hl⟩ : ∃ l : ℤ, m0 a = l := by
        rcases (hm0 a).1 with ⟨x, hx, e⟩ | ⟨r, hr, _⟩
        · obtain ⟨q, hq, rfl⟩ := List.mem_map.mp hx
          obtain ⟨l, hl⟩ := column_int hq a
          exact ⟨l, by rw [← e, hl]⟩
        · cases hr
      have : (p.x a - nodeAt w.g j a) / 1 = ((i - (l + k) : ℤ) : ℝ) := by
        rw [nodeAt, List.getD_eq_getElem?_getD, List.getElem?_eq_getElem (hj a), Option.getD_some, hk, hi, hl]
        push_cast; ring
      rw [this]
      exact N2_int _
    rw [shape2]
    rcases hN 0 with h0 | h0
    · left; rw [h0, zero_mul]
    rcases hN 1 with h1 | h1
    · left; rw [h1, mul_zero]
    right
    have := mul_le_mul h0 h1 (by norm_num) (by linarith)
    exact lt_of_lt_of_le (by norm_num) this
  have key := C124_equilibrium (d := 0) (R := setup musl 1 .vm) (deg := .two) (dx := 1) (fr := -19 / 20) (m := 3) (vol := 1)
    (mibf := false) (k := 1) rfl (by simp) one_pos (by norm_num) one_pos rfl rfl (fun _ _ => by simp [setup]) hst hn
    geostatic_quadratic (fun y => by
      rw [geostatic_divergence]
      ext a
      fin_cases a <;> norm_num)
  refine ⟨t, w, s1, dt, hev, hst, hdt, forall₂_imp_mem key fun p hp q hq hx => ?_, ?_⟩
  · rw [hs1.1] at hp hq
    rw [hs1.2] at hq
    obtain ⟨h1, h2, -⟩ := hq (by rw [hx]; exact column_fields) (fun z _ => by simp [setup])
    refine ⟨?_, h1, h2.trans hx⟩
    obtain ⟨i, j, -, -, rfl⟩ := column_mem hp
    simp only at hx ⊢
    rw [hx]
    ext a b
    fin_cases a <;> fin_cases b <;> norm_num [geostatic]
  · rw [hs1.1]
    exact ⟨_, List.mem_map.mpr ⟨(5, 5), by simp [List.pair_mem_product], rfl⟩, by simp⟩

end

end Verif.Props.RunEx
