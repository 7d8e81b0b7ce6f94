import Verif.Props.Units
import Verif.Props.EnergyExamples

set_option linter.unusedSectionVars false
set_option linter.unusedSimpArgs false
set_option linter.unusedVariables false

/-!
# C87, C88: concrete cases, and constants of the program that have a unit
-/

namespace Verif.Props.RunEx
open Verif Matrix
noncomputable section

/-- Another unit of time (factor 2), of stress (3), of volume (5), and another convention of `q` (7). -/
def exU : Scales := ⟨1, 2, 3, 5, 7, by norm_num, by norm_num, by norm_num, by norm_num, by norm_num⟩

/-- Millimetres instead of metres. -/
def mm : Scales := ⟨1000, 1, 1, 1000000000, 1, by norm_num, by norm_num, by norm_num, by norm_num, by norm_num⟩

lemma slow_cfg (n : ℕ) : SlowLimit (cfg n) := by
  have e1 : (cfg n).dtMax = 1 := ex_dtMax (1 / 10) n
  refine ⟨?_, ?_⟩
  · norm_num [cfg, exConfig]
  · rw [e1]; norm_num [cfg, exConfig]

lemma slow_cfg' (n : ℕ) : SlowLimit (exU.times (cfg n)) := by
  have e1 : (exU.times (cfg n)).dtMax = 2 := by
    rw [dtMax_scale, show (cfg n).dtMax = 1 from ex_dtMax (1 / 10) n]
    norm_num [exU]
  refine ⟨?_, ?_⟩
  · norm_num [Scales.times, exU, cfg, exConfig]
  · rw [e1]; norm_num [Scales.times, exU, cfg, exConfig]

/-- A concrete run in other units: it writes the file of frame 1 at twice the time, with the converted world. -/
example {ps : List (Particle 2 ℝ)} {objs : List (GenObject 2)} {pl : List (Plate 2)} (hne : ps ≠ [])
    (hv : ∀ p ∈ ps, p.v ⬝ᵥ p.v ≤ 1 / 4) (g : Fin 2 → ℝ) (musl : Bool) (fr : ℝ) : ∃ t w,
    .particles 1 t w ∈ filesOf (runProgram (d := 0) (terrain musl fr objs) true false 10 (start ps g pl)) ∧
    .particles 1 (2 * t) (exU.world w) ∈ filesOf (runProgram (d := 0) (exU.setup (terrain musl fr objs)) true false 10
      ((start ps g pl).scale exU.world exU.time exU.acc)) := by
  obtain ⟨t, w, h⟩ := slow_run (musl := musl) (fr := fr) (objs := objs) (pl := pl) (g := g) hne hv
  refine ⟨t, w, h, ?_⟩
  rw [C87_files2 exU (R := terrain musl fr objs) rfl (fun _ _ => by simp [terrain, blended, setup]) (.inr rfl) (.inr rfl)
    (.inr (by simp [terrain, blended, setup, Ex.mat]))
    (fun h => by simp [terrain, blended, setup, mkTransferParams] at h) (.inr ⟨slow_cfg 1, slow_cfg' 1⟩)]
  exact List.mem_map.mpr ⟨_, h, rfl⟩

/-- Another unit of length: a periodic run, with any model of the material. -/
example (pm : PlasticModel) (s : LoopState 2 (World 2)) :
    runProgram (d := 0) (mm.setup { setup true 1 pm with
        S := ⟨mkTransferParams .two 1 (-1) false 3 1, true, true, false, fun _ => 8, none⟩ }) true false 10
      (s.scale mm.world mm.time mm.acc) =
    (runProgram (d := 0) { setup true 1 pm with
        S := ⟨mkTransferParams .two 1 (-1) false 3 1, true, true, false, fun _ => 8, none⟩ } true false 10 s).scale
      mm.world mm.time mm.acc := by
  refine C87_run2 mm rfl (fun _ _ => by simp [setup]) (.inl rfl) (.inl rfl) (.inl ⟨rfl, rfl, rfl⟩)
    (fun h => by simp [mkTransferParams] at h) (.inr ⟨slow_cfg 1, ?_⟩) true false 10 s
  have e1 : (mm.times (cfg 1)).dtMax = 1 := by
    rw [dtMax_scale, show (cfg 1).dtMax = 1 from ex_dtMax (1 / 10) 1]
    norm_num [mm]
  refine ⟨?_, ?_⟩
  · norm_num [Scales.times, mm, setup, cfg, exConfig]
  · show 1 / 10 ^ 10 * (mm.times (cfg 1)).dtMax ≤ _
    rw [e1]; norm_num [Scales.times, mm, setup, cfg, exConfig]

/-- Another convention of `q`: `q = sqrt(3/2) ||dev(tau)||` instead of `sqrt(1/2) ||dev(tau)||`. -/
example {ps : List (Particle 2 ℝ)} (hne : ps ≠ []) (hv : ∀ p ∈ ps, p.v ⬝ᵥ p.v ≤ 1 / 4) (g : Fin 2 → ℝ) (musl : Bool) (fr : ℝ) :
    ∃ t w, .particles 1 t w ∈ filesOf (runProgram (d := 0) (terrain musl fr []) true false 10 (start ps g [])) ∧
    .particles 1 t (rateConvention √3 w) ∈ filesOf (runProgram (d := 0) { terrain musl fr [] with
      m := forConvention √3 (terrain musl fr []).m } true false 10 ((start ps g []).map (rateConvention √3) id)) ∧
    (terrain musl fr []).m.qPrefac = √(1 / 2) ∧ (forConvention √3 (terrain musl fr []).m).qPrefac = √(3 / 2) := by
  obtain ⟨t, w, h⟩ := slow_run (musl := musl) (fr := fr) (objs := []) (pl := []) (g := g) hne hv
  refine ⟨t, w, h, ?_, ?_, ?_⟩
  · rw [C88_convention2 (R := terrain musl fr []) (Real.sqrt_pos.mpr (by norm_num)) rfl
      (fun _ _ => by simp [terrain, blended, setup]) (.inr (.inl rfl)) rfl]
    cases hr : runProgram (d := 0) (terrain musl fr []) true false 10 (start ps g []) with
    | ub => rw [hr] at h; cases h
    | refused r => rw [hr] at h; exact List.mem_map.mpr ⟨_, h, rfl⟩
    | finished r => rw [hr] at h; exact List.mem_map.mpr ⟨_, h, rfl⟩
    | failed r => rw [hr] at h; exact List.mem_map.mpr ⟨_, h, rfl⟩
    | outOfFuel r => rw [hr] at h; exact List.mem_map.mpr ⟨_, h, rfl⟩
  · simp [terrain, blended, setup, Ex.mat]
  · show √3 * (1 / √2) = _
    rw [Real.sqrt_div (by norm_num), mul_one_div]

/-! ### constants with a unit -/

/-- **C87, false for the mesh.** Without periodic boundaries the mesh depends on the unit of length: the tolerance in
the remeshing is `1e-8 * dx` cells (remesh.cpp:230-280), that is, it has the unit of a length where a number of
cells is meant. Here a mesh of spacing 1 m starts at -3 m if everything is given in metres, and at -4 m if everything
is given in kilometres. -/
theorem C87_mesh_false : ∃ (U : Scales) (dx : ℝ) (b : AxisInit ℝ) (xs : List ℝ), 0 < dx ∧ U.len = 1 / 1000 ∧
    (∃ g, axisContNodes dx b xs = some g ∧ g.head? = some (-3)) ∧
    ∃ g, axisContNodes (U.len * dx) (U.box b) (xs.map (U.len * ·)) = some g ∧ g.head? = some (U.len * -4) := by
  refine ⟨⟨1 / 1000, 1, 1, 1, 1, by norm_num, by norm_num, by norm_num, by norm_num, by norm_num⟩, 1, ⟨0, 0, -3, 3⟩,
    [-(1 + 5 / 10 ^ 9), 0], one_pos, rfl, ?_, ?_⟩
  · have h1 : cellCount (1 : ℝ) (0 - -(1 + 5 / 10 ^ 9)) = 0 := by
      unfold cellCount
      rw [Nat.floor_eq_zero]
      norm_num
    have h2 : cellCount (1 : ℝ) (0 - 0) = 0 := by
      unfold cellCount
      rw [Nat.floor_eq_zero]
      norm_num
    have hl : contLow (1 : ℝ) ⟨0, 0, -3, 3⟩ (-(1 + 5 / 10 ^ 9)) = -3 := by
      unfold contLow
      rw [if_neg (by norm_num)]
      simp only [h1]; norm_num
    have hh : contHigh (1 : ℝ) ⟨0, 0, -3, 3⟩ 0 = 3 := by
      unfold contHigh
      rw [if_neg (by norm_num)]
      simp only [h2]; norm_num
    have e : axisContNodes (1 : ℝ) ⟨0, 0, -3, 3⟩ [-(1 + 5 / 10 ^ 9), 0] = arange (-3) (3 + 1) 1 := by
      unfold axisContNodes
      have m1 : maxElem [-(1 + 5 / 10 ^ 9 : ℝ), 0] = some 0 := by
        simp only [maxElem, List.foldl_cons, List.foldl_nil]; norm_num
      have m2 : minElem [-(1 + 5 / 10 ^ 9 : ℝ), 0] = some (-(1 + 5 / 10 ^ 9)) := by
        simp only [minElem, List.foldl_cons, List.foldl_nil]; norm_num
      rw [m1, m2]
      simp only [Option.bind_eq_bind, Option.bind_some, hl, hh]
    rw [e, arange_eq one_pos]
    refine ⟨_, rfl, ?_⟩
    have : ⌈((3 : ℝ) + 1 - -3) / 1⌉₊ = 7 := by norm_num
    rw [this]
    simp [List.range_succ_eq_map]
  · have hx : ([-(1 + 5 / 10 ^ 9), 0] : List ℝ).map (1 / 1000 * ·) = [1 / 1000 * -(1 + 5 / 10 ^ 9), 0] := by simp
    have h1 : cellCount (1 / 1000 * 1 : ℝ) (1 / 1000 * 0 - 1 / 1000 * -(1 + 5 / 10 ^ 9)) = 1 := by
      unfold cellCount
      rw [Nat.floor_eq_iff (by positivity)]
      norm_num
    have h2 : cellCount (1 / 1000 * 1 : ℝ) (0 - 1 / 1000 * 0) = 0 := by
      unfold cellCount
      rw [Nat.floor_eq_zero]
      norm_num
    have hl : contLow (1 / 1000 * 1 : ℝ) ⟨1 / 1000 * 0, 1 / 1000 * 0, 1 / 1000 * -3, 1 / 1000 * 3⟩ (1 / 1000 * -(1 + 5 / 10 ^ 9)) =
        1 / 1000 * -4 := by
      unfold contLow
      rw [if_neg (by norm_num)]
      simp only [h1]; norm_num
    have hh : contHigh (1 / 1000 * 1 : ℝ) ⟨1 / 1000 * 0, 1 / 1000 * 0, 1 / 1000 * -3, 1 / 1000 * 3⟩ 0 = 3 / 1000 := by
      unfold contHigh
      rw [if_neg (by norm_num)]
      simp only [h2]; norm_num
    have e : axisContNodes (1 / 1000 * 1 : ℝ) ⟨1 / 1000 * 0, 1 / 1000 * 0, 1 / 1000 * -3, 1 / 1000 * 3⟩
        [1 / 1000 * -(1 + 5 / 10 ^ 9), 0] = arange (1 / 1000 * -4) (3 / 1000 + 1 / 1000 * 1) (1 / 1000 * 1) := by
      unfold axisContNodes
      have m1 : maxElem [1 / 1000 * -(1 + 5 / 10 ^ 9 : ℝ), 0] = some 0 := by
        simp only [maxElem, List.foldl_cons, List.foldl_nil]; norm_num
      have m2 : minElem [1 / 1000 * -(1 + 5 / 10 ^ 9 : ℝ), 0] = some (1 / 1000 * -(1 + 5 / 10 ^ 9)) := by
        simp only [minElem, List.foldl_cons, List.foldl_nil]; norm_num
      rw [m1, m2]
      simp only [Option.bind_eq_bind, Option.bind_some, hl, hh]
    refine ⟨_, (congrArg₂ (axisContNodes (1 / 1000 * 1 : ℝ)) (rfl : Scales.box _ _ = ⟨1 / 1000 * 0, 1 / 1000 * 0, 1 / 1000 * -3, 1 / 1000 * 3⟩) hx).trans
      (e.trans (arange_eq (by norm_num))), ?_⟩
    have : ⌈((3 : ℝ) / 1000 + 1 / 1000 * 1 - 1 / 1000 * -4) / (1 / 1000 * 1)⌉₊ = 8 := by norm_num
    rw [this]
    simp [List.range_succ_eq_map]

/-- A cohesion of `1e-11` in the unit of stress. -/
def barely : Material := { Ex.mat .dp with qCohesion := 1 / 10 ^ 11 }

lemma dp_rest {m : Material} (hm : m.plastic = .dp) (q : Particle 2 ℝ) : plasticity abs (Ex.svd 0 0) m 1 q false =
    some (let st := plastDP m 1 (Ex.svd 0 0 q.F) (mkTrial ![0, 0]) ⟨q, ![0, 0], 0, false⟩
      { st with q := { st.q with tau := newTau m (Ex.svd 0 0 q.F) st.hencky st.q.F } }) := by
  have h := Ex.hencky (a := 0) (b := 0) (by norm_num) (by norm_num) q.F
  simp only [plasticity, plastModel, hm, h]
  rfl

lemma rest_norm : (mkTrial ![(0 : ℝ), 0]).norm = 0 := by rw [Ex.norm]; simp
lemma rest_trace : (mkTrial ![(0 : ℝ), 0]).trace = 0 := by rw [Ex.trace]; simp

lemma dp_kept {m : Material} (hm : m.plastic = .dp) (hc : 1e-10 ≤ m.qCohesion) (hd : 0 ≤ m.dPre) (he : 0 < m.eMu)
    {q : Particle 2 ℝ} (hq : q.F = 1) : ∃ st, plasticity abs (Ex.svd 0 0) m 1 q false = some st ∧ st.q.F = 1 := by
  refine ⟨_, dp_rest hm q, ?_⟩
  have h0 : 0 ≤ m.qCohesion := le_trans (by norm_num) hc
  have h1 : ¬ m.dPre * (0 - m.qCohesion / m.eMu) > 0 := by
    have := mul_nonneg hd (div_nonneg h0 he.le)
    linarith [mul_sub m.dPre 0 (m.qCohesion / m.eMu)]
  simp only [plastDP, rest_norm, rest_trace, mul_zero, zero_add, if_neg (not_lt.mpr hc), if_neg h1, hq]

/-- **C87, C88, false for Drucker-Prager.** `DP` compares a stress with the number `1e-10` (plasticity.cpp:69), so the
result depends on the unit of stress and on the convention of `q`: an undeformed particle of a material with a
cohesion of `1e-11` is changed, and is left alone if the unit of stress is a thousand times smaller, or if `q` is
defined with a factor a thousand times larger. -/
theorem C87_dp_false : ∃ (m : Material) (p : Particle 2 ℝ) (svd : Matrix (Fin 2) (Fin 2) ℝ → Svd 2), m.plastic = .dp ∧
    IsSvd p.F (svd p.F) ∧ p.F = 1 ∧ (∃ st, plasticity abs svd m 1 p false = some st ∧ st.q.F ≠ 1) ∧
    (∃ U : Scales, U.len = 1 ∧ U.time = 1 ∧ U.q = 1 ∧ U.stress = 1000 ∧
      ∃ st, plasticity abs svd (U.material m) 1 (U.particle p) false = some st ∧ st.q.F = 1) ∧
    ∃ st, plasticity abs svd (forConvention 1000 m) 1 p false = some st ∧ st.q.F = 1 := by
  have hF : (Ex.part 0 0).F = 1 := by
    ext i j; fin_cases i <;> fin_cases j <;> simp [Ex.part]
  have hb : barely.eMu = √2 := Ex.mat_eMu .dp
  have hd : barely.dPre = √2 := Ex.mat_dPre .dp
  have hk : barely.K 2 = 1 := Ex.mat_K .dp
  let U : Scales := ⟨1, 1, 1000, 1, 1, by norm_num, by norm_num, by norm_num, by norm_num, by norm_num⟩
  refine ⟨barely, Ex.part 0 0, Ex.svd 0 0, rfl, Ex.isSvd 0 0, hF, ⟨_, dp_rest rfl _, ?_⟩, ⟨U, rfl, rfl, rfl, rfl, ?_⟩, ?_⟩
  · have hc : barely.M * 0 + barely.qCohesion < 1e-10 := by norm_num [barely]
    simp only [plastDP, rest_norm, rest_trace, mul_zero] at hc ⊢
    rw [if_pos hc]
    simp only [hk, Svd.expF, Ex.svd, Matrix.one_mul, Matrix.transpose_one, Matrix.mul_one]
    intro h
    have := congrFun (congrFun h 0) 0
    simp only [Matrix.diagonal_apply_eq, Matrix.one_apply_eq, Real.exp_eq_one_iff] at this
    norm_num [barely, Ex.mat] at this
  · refine dp_kept (m := U.material barely) rfl ?_ ?_ ?_ hF
    · show _ ≤ 1 * (1000 : ℝ) * (1 / 10 ^ 11)
      norm_num
    · have := Ex.sq2_pos
      simp only [Material.dPre, Scales.material, barely, Ex.mat, U]; positivity
    · have : (U.material barely).eMu = U.q * U.stress * barely.eMu := eMu_scale U _
      rw [this, hb]; have := Ex.sq2_pos; simp only [U]; positivity
  · refine dp_kept (m := forConvention 1000 barely) rfl ?_ ?_ ?_ hF
    · show _ ≤ (1000 : ℝ) * (1 / 10 ^ 11)
      norm_num
    · have := Ex.sq2_pos
      simp only [Material.dPre, forConvention, barely, Ex.mat]; positivity
    · have e : (forConvention 1000 barely).eMu = 1000 * barely.eMu := by
        simp only [Material.eMu, Material.mu, forConvention]; ring
      rw [e, hb]; have := Ex.sq2_pos; positivity

end
end Verif.Props.RunEx
