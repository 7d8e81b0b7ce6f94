import Verif.Props.Patch
import Verif.Props.InversionExamples

set_option linter.unusedSectionVars false
set_option linter.unusedSimpArgs false
set_option linter.unusedVariables false

/-!
# C103: a block of particles under uniform stress
-/

namespace Verif.Props.RunEx
open Verif Matrix
noncomputable section

/-- 121 particles at the points with coordinates `0 .. 10`, at rest, all with the same stress. -/
def block : List (Particle 2 ℝ) :=
  ((List.range 11).product (List.range 11)).map fun ij =>
    { Particle.init with x := ![(ij.1 : ℝ), (ij.2 : ℝ)], tau := !![1, 0; 0, 2] }

lemma block_mem {p : Particle 2 ℝ} (hp : p ∈ block) : ∃ i j : ℕ, i < 11 ∧ j < 11 ∧
    p = { Particle.init with x := ![(i : ℝ), (j : ℝ)], tau := !![1, 0; 0, 2] } := by
  obtain ⟨⟨i, j⟩, hij, rfl⟩ := List.mem_map.mp hp
  have := List.pair_mem_product.mp hij
  exact ⟨i, j, List.mem_range.mp this.1, List.mem_range.mp this.2, rfl⟩

lemma block_int {p : Particle 2 ℝ} (hp : p ∈ block) (a : Fin 2) : ∃ k : ℤ, p.x a = k := by
  obtain ⟨i, j, -, -, rfl⟩ := block_mem hp
  fin_cases a
  · exact ⟨i, by simp⟩
  · exact ⟨j, by simp⟩

lemma block_regular : LatticeNear 1 6 ![5, 5] (block.map fun q => q.x) := by
  refine ⟨0, fun z hz => ?_, fun y hy _ => ?_⟩
  · have hb : ∀ a, 0 ≤ z a ∧ z a < 11 := by
      intro a
      have h := hz a
      have h5 : (![5, 5] : Fin 2 → ℝ) a = 5 := by fin_cases a <;> rfl
      rw [h5, abs_lt] at h
      simp only [Pi.zero_apply] at h
      constructor
      · have : (-1 : ℝ) < z a := by linarith
        have : -1 < z a := by exact_mod_cast this
        omega
      · have : (z a : ℝ) < 11 := by linarith
        exact_mod_cast this
    rw [block, List.map_map]
    refine List.count_eq_one_of_mem (List.Nodup.map ?_ (List.nodup_range.product List.nodup_range)) ?_
    · rintro ⟨i, j⟩ ⟨i', j'⟩ h
      have h0 := congrFun h 0
      have h1 := congrFun h 1
      simp at h0 h1
      rw [h0, h1]
    · refine List.mem_map.mpr ⟨((z 0).toNat, (z 1).toNat), List.pair_mem_product.mpr
        ⟨List.mem_range.mpr (by have := hb 0; omega), List.mem_range.mpr (by have := hb 1; omega)⟩, ?_⟩
      have e : ∀ a, (((z a).toNat : ℕ) : ℝ) = z a := fun a => by exact_mod_cast Int.toNat_of_nonneg (hb a).1
      funext a
      fin_cases a <;> simp [e]
  · obtain ⟨p, hp, rfl⟩ := List.mem_map.mp hy
    obtain ⟨i, j, -, -, rfl⟩ := block_mem hp
    refine ⟨![i, j], ?_⟩
    funext a
    fin_cases a <;> simp

lemma block_interior {p : Particle 2 ℝ} (hp : p ∈ block) (hx : p.x = ![5, 5]) :
    Interior (1 / (1 : ℕ)) (2 * width .two * 1) block p := by
  refine ⟨?_, fun q hq _ => ?_⟩
  · rw [hx]; norm_num [width]; exact block_regular
  · obtain ⟨i, j, -, -, rfl⟩ := block_mem hp
    obtain ⟨i, j, -, -, rfl⟩ := block_mem hq
    simp [Particle.init]

/-- `C103` for the block under gravity, with and without MUSL: the run has a file after its step, in which the particle in
the middle has the velocity of free fall although it is under stress. -/
example (musl : Bool) : ∃ t w s1 dt, .particles 1 t w ∈
      filesOf (runProgram (setup musl 1 .vm) true false 10 (start block ![0, -10])) ∧
    StepOf (d := 0) (setup musl 1 .vm) (start block ![0, -10]) s1 dt ![0, -10] w ∧ 0 < dt ∧
    List.Forall₂ (fun p q => p.x = ![5, 5] → p.tau = !![1, 0; 0, 2] ∧ q.v = ![0, -10 * dt] ∧ q.Bmat = 0)
      s1.w.ps w.ps ∧ ∃ p ∈ s1.w.ps, p.x = ![5, 5] := by
  have hne : block ≠ [] := by simp [block, List.product]; exact ⟨0, by norm_num⟩
  have hrest : ∀ p ∈ block, p.v = 0 := fun p hp => by obtain ⟨i, j, -, -, rfl⟩ := block_mem hp; rfl
  obtain ⟨r, h, t, w, hw⟩ := one_step_run musl (.inl rfl) (ps := block) hne hrest ![0, -10]
  have hev : .particles 1 t w ∈ filesOf (runProgram (setup musl 1 .vm) true false 10 (start block ![0, -10])) := by
    rw [h]; exact hw
  rcases run_particles (d := 0) hev (by simp [start]) with ⟨h0, -⟩ | ⟨s1, dt, g, hst, -⟩
  · exact absurd h0 (by norm_num)
  have hdt : 0 < dt := lt_of_lt_of_le (by norm_num [setup, cfg, exConfig]) hst.dt_ge.1
  have hg : g = ![0, -10] := by
    obtain ⟨k, hr, -⟩ := id hst
    have hk := only_begin_of (R := setup musl 1 .vm) rfl hne hrest ![0, -10] k s1 hr
    subst hk
    cases hr
    rw [hst.dt_ge.2, begin_gravity, rampGravity]; rfl
  subst hg
  obtain ⟨m0, hm0, hlat⟩ := run_lattice (d := 0) (R := setup musl 1 .vm) (dx := 1) rfl one_pos rfl rfl hne hst
  have hs1 : s1.w.ps = block ∧ s1.w.plates = [] := by
    obtain ⟨k, hr, -⟩ := hst
    have hk := only_begin_of (R := setup musl 1 .vm) rfl hne hrest ![0, -10] k s1 hr
    subst hk
    cases hr
    rw [begin_w]
    simp [fillMuI, setup, start, mkTransferParams]
  have hn : NoTinyWeights .two 1 w.g s1.w.ps := by
    rw [hs1.1]
    intro p hp j hj
    have hN : ∀ a, N .two ((p.x a - nodeAt w.g j a) / 1) = 0 ∨ 1 / 8 ≤ N .two ((p.x a - nodeAt w.g j a) / 1) := by
      intro a
      obtain ⟨i, hi⟩ := block_int hp a
      obtain ⟨k, hk⟩ := hlat a _ (List.getElem_mem (hj a))
      obtain ⟨l, hl⟩ : ∃ l : ℤ, m0 a = l := by
        rcases (hm0 a).1 with ⟨x, hx, e⟩ | ⟨r, hr, _⟩
        · obtain ⟨q, hq, rfl⟩ := List.mem_map.mp hx
          obtain ⟨l, hl⟩ := block_int hq a
          exact ⟨l, by rw [← e, hl]⟩
        · cases hr
      have : (p.x a - nodeAt w.g j a) / 1 = ((i - (l + k) : ℤ) : ℝ) := by
        rw [nodeAt, List.getD_eq_getElem?_getD, List.getElem?_eq_getElem (hj a), Option.getD_some, hk, hi, hl]
        push_cast; ring
      rw [this]
      exact N2_int _
    rw [shape2]
    rcases hN 0 with h0 | h0
    · left; rw [h0, zero_mul]
    rcases hN 1 with h1 | h1
    · left; rw [h1, mul_zero]
    right
    have := mul_le_mul h0 h1 (by norm_num) (by linarith)
    exact lt_of_lt_of_le (by norm_num) this
  have key := C103_step (d := 0) (R := setup musl 1 .vm) (deg := .two) (dx := 1) (fr := -19 / 20) (m := 3) (vol := 1)
    (mibf := false) (k := 1) rfl (by simp) one_pos (by norm_num) one_pos rfl rfl (fun _ _ => by simp [setup]) hst hn
  refine ⟨t, w, s1, dt, hev, hst, hdt, forall₂_imp_mem key fun p hp q hq hx => ?_, ?_⟩
  · rw [hs1.1] at hp hq
    rw [hs1.2] at hq
    obtain ⟨h1, -, h3, -⟩ := hq (block_interior hp hx) (fun z _ => by simp [setup])
    obtain ⟨i, j, -, -, rfl⟩ := block_mem hp
    refine ⟨rfl, ?_, h3⟩
    rw [h1]
    ext a
    fin_cases a <;> simp [Particle.init, mul_comm]
  · rw [hs1.1]
    exact ⟨_, List.mem_map.mpr ⟨(5, 5), by simp [List.pair_mem_product], rfl⟩, by simp⟩

end

end Verif.Props.RunEx
