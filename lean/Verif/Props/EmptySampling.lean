import Verif.Props.Empty
import Verif.Props.Sampling

/-!
# C132: which boxes give no particles
-/

namespace Verif.Props
open Verif Matrix
noncomputable section

/-- The number of points in one direction is defined for lengths up to 2^31 spacings, and zero exactly if the length is smaller than
the spacing. -/
lemma pointCount_zero {L h : ℝ} (hh : 0 < h) (h0 : 0 ≤ L) (h1 : L < 2 ^ 31 * h) :
    ∃ n : ℤ, pointCount L h = some n ∧ (n.toNat = 0 ↔ L < h) := by
  have q0 : 0 ≤ L / h := div_nonneg h0 hh.le
  have q1 : L / h < 2 ^ 31 := (div_lt_iff₀ hh).mpr h1
  have hc : -(2 ^ 31 + 1) < L / h ∧ L / h < 2 ^ 31 := ⟨by linarith, q1⟩
  refine ⟨⌊L / h⌋, by simp only [pointCount, fdiv, hh.ne', if_false, Option.bind_some, castInt, if_pos hc, if_pos q0], ?_⟩
  rw [Int.toNat_eq_zero, ← div_lt_one hh]
  constructor
  · intro hn
    by_contra hl
    have : (1 : ℤ) ≤ ⌊L / h⌋ := Int.le_floor.mpr (by push_cast; linarith)
    omega
  · intro hl
    have : ⌊L / h⌋ < 1 := Int.floor_lt.mpr (by push_cast; exact hl)
    omega

lemma keep_nil {d : ℕ} (c : (Fin d → ℝ) → Prop) : keep c [] = [] := rfl

/-- **C132** Regular sampling of a rectangle gives no particles if a side is shorter than the spacing of the particles, and without a
crop condition only then. -/
theorem C132_box2 {rho dx ppc Lx Ly : ℝ} (hdx : 0 < dx) (hppc : 0 < ppc) (hx0 : 0 ≤ Lx) (hx : Lx < 2 ^ 31 * (dx / √ppc)) (hy0 : 0 ≤ Ly)
    (hy : Ly < 2 ^ 31 * (dx / √ppc)) (crop : ℕ) : ∃ s, regular2 rho dx ppc Lx Ly crop = some s ∧
      (Lx < dx / √ppc ∨ Ly < dx / √ppc → s.ps = []) ∧ (crop ≠ 1 → s.ps = [] → Lx < dx / √ppc ∨ Ly < dx / √ppc) := by
  have hr : 0 < √ppc := Real.sqrt_pos.mpr hppc
  have hh : 0 < dx / √ppc := div_pos hdx hr
  have e1 : fsqrt ppc = some √ppc := by simp [fsqrt, not_lt.mpr hppc.le]
  have e2 : fdiv dx √ppc = some (dx / √ppc) := by simp [fdiv, hr.ne']
  obtain ⟨nx, e3, z3⟩ := pointCount_zero hh hx0 hx
  obtain ⟨ny, e4, z4⟩ := pointCount_zero hh hy0 hy
  have hp : points2 nx ny (dx / √ppc) 0 = [] ↔ nx.toNat = 0 ∨ ny.toNat = 0 := by
    simp only [points2, List.flatMap_eq_nil_iff, List.map_eq_nil_iff, List.range_eq_nil, List.mem_range]
    constructor
    · intro h
      by_cases hn : nx.toNat = 0
      · exact .inl hn
      · exact .inr (h 0 (Nat.pos_of_ne_zero hn))
    · rintro (h | h) k hk
      · omega
      · exact h
  refine ⟨_, by simp only [regular2, e1, e2, e3, e4, Option.bind_eq_bind, Option.bind_some]; rfl, ?_, ?_⟩
  · rw [← z3, ← z4, ← hp]
    intro h
    simp only [h, crop2, keep_nil, ite_self, mkParticles, List.map_nil]
  · intro hc
    rw [← z3, ← z4, ← hp]
    simp only [crop2, if_neg hc, mkParticles, List.map_eq_nil_iff]
    exact id

/-- **C132** The same for a box in space. -/
theorem C132_box3 {rho dx ppc Lx Ly Lz : ℝ} (hdx : 0 < dx) (hppc : 0 < ppc) (hx0 : 0 ≤ Lx) (hx : Lx < 2 ^ 31 * (dx / cbrt ppc))
    (hy0 : 0 ≤ Ly) (hy : Ly < 2 ^ 31 * (dx / cbrt ppc)) (hz0 : 0 ≤ Lz) (hz : Lz < 2 ^ 31 * (dx / cbrt ppc)) (crop : ℕ) :
    ∃ s, regular3 rho dx ppc Lx Ly Lz crop = some s ∧
      (Lx < dx / cbrt ppc ∨ Ly < dx / cbrt ppc ∨ Lz < dx / cbrt ppc → s.ps = []) ∧
      (crop ≠ 1 → crop ≠ 2 → s.ps = [] → Lx < dx / cbrt ppc ∨ Ly < dx / cbrt ppc ∨ Lz < dx / cbrt ppc) := by
  have hr : 0 < cbrt ppc := cbrt_pos hppc
  have hh : 0 < dx / cbrt ppc := div_pos hdx hr
  have e2 : fdiv dx (cbrt ppc) = some (dx / cbrt ppc) := by simp [fdiv, hr.ne']
  obtain ⟨nx, e3, z3⟩ := pointCount_zero hh hx0 hx
  obtain ⟨ny, e4, z4⟩ := pointCount_zero hh hy0 hy
  obtain ⟨nz, e5, z5⟩ := pointCount_zero hh hz0 hz
  have hp : points3 nx ny nz (dx / cbrt ppc) 0 = [] ↔ nx.toNat = 0 ∨ ny.toNat = 0 ∨ nz.toNat = 0 := by
    simp only [points3, List.flatMap_eq_nil_iff, List.map_eq_nil_iff, List.range_eq_nil, List.mem_range]
    constructor
    · intro h
      by_cases hn : nx.toNat = 0
      · exact .inl hn
      by_cases hm : ny.toNat = 0
      · exact .inr (.inl hm)
      · exact .inr (.inr (h 0 (Nat.pos_of_ne_zero hn) 0 (Nat.pos_of_ne_zero hm)))
    · rintro (h | h | h) k hk l hl
      · omega
      · omega
      · exact h
  refine ⟨_, by simp only [regular3, e2, e3, e4, e5, Option.bind_eq_bind, Option.bind_some]; rfl, ?_, ?_⟩
  · rw [← z3, ← z4, ← z5, ← hp]
    intro h
    simp only [h, crop3, keep_nil, ite_self, mkParticles, List.map_nil]
  · intro hc hc2
    rw [← z3, ← z4, ← z5, ← hp]
    simp only [crop3, if_neg hc, if_neg hc2, mkParticles, List.map_eq_nil_iff]
    exact id

/-- A plate of thickness 1/25 with grid spacing 1/10 and 8 particles per cell (spacing 1/20). -/
example : ∃ s, regular3 1000 (1 / 10) 8 1 1 (1 / 25) 0 = some s ∧ s.ps = [] := by
  have h : cbrt 8 = 2 := by
    have h1 := cbrt_pow (show (0 : ℝ) ≤ 8 by norm_num)
    have h2 := cbrt_pos (show (0 : ℝ) < 8 by norm_num)
    nlinarith [sq_nonneg (cbrt 8 - 2), sq_nonneg (cbrt 8 + 1), mul_pos h2 h2]
  obtain ⟨s, h1, h2, -⟩ := C132_box3 (rho := 1000) (dx := 1 / 10) (ppc := 8) (Lx := 1) (Ly := 1) (Lz := 1 / 25) (by norm_num) (by norm_num)
    (by norm_num) (by rw [h]; norm_num) (by norm_num) (by rw [h]; norm_num) (by norm_num) (by rw [h]; norm_num) 0
  exact ⟨s, h1, h2 (.inr (.inr (by rw [h]; norm_num)))⟩

/-- A square of side 1 is not empty. -/
example : ∃ s, regular2 1000 (1 / 10) 4 1 1 0 = some s ∧ s.ps ≠ [] := by
  have h : √(4 : ℝ) = 2 := by rw [show (4 : ℝ) = 2 ^ 2 by norm_num]; exact Real.sqrt_sq (by norm_num)
  obtain ⟨s, h1, -, h2⟩ := C132_box2 (rho := 1000) (dx := 1 / 10) (ppc := 4) (Lx := 1) (Ly := 1) (by norm_num) (by norm_num)
    (by norm_num) (by rw [h]; norm_num) (by norm_num) (by rw [h]; norm_num) 0
  refine ⟨s, h1, fun he => ?_⟩
  have := h2 (by norm_num) he
  rw [h] at this
  norm_num at this

end
end Verif.Props
