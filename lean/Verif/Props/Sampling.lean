import Verif.Model.Sampling
import Mathlib.Data.List.ProdSigma
import Mathlib.Algebra.BigOperators.Fin
import Mathlib.Algebra.Order.BigOperators.Ring.Finset
import Mathlib.Tactic.Linarith
import Mathlib.Tactic.Ring
import Mathlib.Tactic.FieldSimp
import Mathlib.Tactic.FinCases
import Mathlib.Tactic.Positivity
import Mathlib.Tactic.NormNum

set_option linter.unusedSectionVars false
set_option linter.unusedSimpArgs false
set_option linter.unusedVariables false

/-!
# C45, C46: particle sampling
-/

namespace Verif.Props
open Verif

variable {d : ℕ}

/-- Positions of the particles. -/
def positions (s : Sampled d) : List (Fin d → ℝ) := s.ps.map fun q => q.x

/-! ### Lemmas -/

lemma keep_eq (c : (Fin d → ℝ) → Prop) [DecidablePred c] (xs : List (Fin d → ℝ)) :
    keep c xs = xs.filter c := by
  have h : ∀ (xs acc : List (Fin d → ℝ)),
      xs.foldl (fun acc x => if c x then acc ++ [x] else acc) acc = acc ++ xs.filter c := by
    intro xs
    induction xs with
    | nil => intro acc; simp
    | cons x xs ih =>
      intro acc
      rw [List.foldl_cons, ih]
      by_cases hx : c x <;> simp [hx]
  have := h xs []
  rw [List.nil_append] at this
  rw [← this, keep]
  congr! 3
  split_ifs <;> rfl

lemma positions_mk (dx v m : ℝ) (L : Fin d → ℝ) (xs : List (Fin d → ℝ)) :
    positions ⟨dx, v, m, L, mkParticles xs⟩ = xs := by
  simp [positions, mkParticles, List.map_map, Function.comp_def]

lemma mkParticles_init {xs : List (Fin d → ℝ)} {q : Particle d ℝ} (h : q ∈ mkParticles xs) :
    q = { (Particle.init : Particle d ℝ) with x := q.x } := by
  simp only [mkParticles, List.mem_map] at h
  obtain ⟨x, -, rfl⟩ := h
  rfl

lemma mkParticles_length (xs : List (Fin d → ℝ)) : (mkParticles xs).length = xs.length := by
  simp [mkParticles]

lemma castInt_spec {x : ℝ} (hx : 0 ≤ x) {z : ℤ} (h : castInt x = some z) :
    (z.toNat : ℝ) ≤ x ∧ x < z.toNat + 1 := by
  unfold castInt at h
  split_ifs at h with h1
  have hz : z = ⌊x⌋ := (Option.some.inj h).symm
  have h0 : 0 ≤ ⌊x⌋ := Int.floor_nonneg.mpr hx
  have hc : ((⌊x⌋.toNat : ℕ) : ℝ) = (⌊x⌋ : ℝ) := by
    have : ((⌊x⌋.toNat : ℕ) : ℤ) = ⌊x⌋ := Int.toNat_of_nonneg h0
    exact_mod_cast congrArg (Int.cast : ℤ → ℝ) this
  rw [hz, hc]
  exact ⟨Int.floor_le x, Int.lt_floor_add_one x⟩

lemma castInt_total {x : ℝ} (hx : 0 ≤ x) (h : x < 2 ^ 31) : ∃ z, castInt x = some z := by
  unfold castInt
  rw [if_pos ⟨by linarith [show (0 : ℝ) < 2 ^ 31 + 1 by norm_num], h⟩]
  exact ⟨_, rfl⟩

lemma fdiv_of {x y z : ℝ} (h : fdiv x y = some z) : y ≠ 0 ∧ z = x / y := by
  unfold fdiv at h
  split_ifs at h with h0
  exact ⟨h0, (Option.some.inj h).symm⟩

lemma fsqrt_of {x z : ℝ} (h : fsqrt x = some z) : 0 ≤ x ∧ z = Real.sqrt x := by
  unfold fsqrt at h
  split_ifs at h with h0
  exact ⟨not_lt.mp h0, (Option.some.inj h).symm⟩

lemma cbrt_pow {x : ℝ} (hx : 0 ≤ x) : cbrt x * cbrt x * cbrt x = x := by
  rw [cbrt, if_pos hx]
  have : x ^ ((1 : ℝ) / 3) * x ^ ((1 : ℝ) / 3) * x ^ ((1 : ℝ) / 3) = (x ^ ((1 : ℝ) / 3)) ^ (3 : ℕ) := by ring
  rw [this, ← Real.rpow_natCast, ← Real.rpow_mul hx]
  norm_num

lemma cbrt_pos {x : ℝ} (hx : 0 < x) : 0 < cbrt x := by
  rw [cbrt, if_pos hx.le]; exact Real.rpow_pos_of_pos hx _

/-- The points are the lattice points. -/
lemma points2_mem {nx ny : ℤ} {h : ℝ} {lo x : Fin 2 → ℝ} : x ∈ points2 nx ny h lo ↔
    ∃ k : Fin 2 → ℕ, (∀ i, k i < (![nx.toNat, ny.toNat] : Fin 2 → ℕ) i) ∧ ∀ i, x i = lo i + ((k i : ℝ) + 1 / 2) * h := by
  simp only [points2, List.mem_flatMap, List.mem_map, List.mem_range]
  constructor
  · rintro ⟨i, hi, j, hj, rfl⟩
    refine ⟨![i, j], ?_, ?_⟩ <;> intro a <;> fin_cases a
    · exact hi
    · exact hj
    · norm_num
    · norm_num
  · rintro ⟨k, hk, hx⟩
    refine ⟨k 0, hk 0, k 1, hk 1, ?_⟩
    funext a; fin_cases a
    · rw [show x ⟨0, _⟩ = x 0 from rfl, hx 0]; norm_num
    · rw [show x ⟨1, _⟩ = x 1 from rfl, hx 1]; norm_num

lemma points3_mem {nx ny nz : ℤ} {h : ℝ} {lo x : Fin 3 → ℝ} : x ∈ points3 nx ny nz h lo ↔
    ∃ k : Fin 3 → ℕ, (∀ i, k i < (![nx.toNat, ny.toNat, nz.toNat] : Fin 3 → ℕ) i) ∧
      ∀ i, x i = lo i + ((k i : ℝ) + 1 / 2) * h := by
  simp only [points3, List.mem_flatMap, List.mem_map, List.mem_range]
  constructor
  · rintro ⟨i, hi, j, hj, l, hl, rfl⟩
    refine ⟨![i, j, l], ?_, ?_⟩ <;> intro a <;> fin_cases a
    · exact hi
    · exact hj
    · exact hl
    · norm_num
    · norm_num
    · norm_num; rfl
  · rintro ⟨k, hk, hx⟩
    refine ⟨k 0, hk 0, k 1, hk 1, k 2, hk 2, ?_⟩
    funext a; fin_cases a
    · rw [show x ⟨0, _⟩ = x 0 from rfl, hx 0]; norm_num
    · rw [show x ⟨1, _⟩ = x 1 from rfl, hx 1]; norm_num
    · rw [show x ⟨2, _⟩ = x 2 from rfl, hx 2]; norm_num

lemma points2_nodup (nx ny : ℤ) {h : ℝ} (hh : 0 < h) (lo : Fin 2 → ℝ) : (points2 nx ny h lo).Nodup := by
  have e : points2 nx ny h lo = (List.range nx.toNat ×ˢ List.range ny.toNat).map
      fun p => ![lo 0 + ((p.1 : ℝ) + 0.5) * h, lo 1 + ((p.2 : ℝ) + 0.5) * h] := by
    simp only [points2, SProd.sprod, List.product, List.map_flatMap, List.map_map, Function.comp_def]
  rw [e]
  refine List.Nodup.map ?_ (List.Nodup.product List.nodup_range List.nodup_range)
  rintro ⟨a, b⟩ ⟨a', b'⟩ hab
  have h0 := congrFun hab 0
  have h1 := congrFun hab 1
  simp only [Matrix.cons_val_zero, Matrix.cons_val_one, add_right_inj, mul_eq_mul_right_iff, hh.ne', or_false,
    add_left_inj, Nat.cast_inj] at h0 h1
  rw [h0, h1]

lemma points3_nodup (nx ny nz : ℤ) {h : ℝ} (hh : 0 < h) (lo : Fin 3 → ℝ) :
    (points3 nx ny nz h lo).Nodup := by
  have e : points3 nx ny nz h lo = (List.range nx.toNat ×ˢ (List.range ny.toNat ×ˢ List.range nz.toNat)).map
      fun p => ![lo 0 + ((p.1 : ℝ) + 0.5) * h, lo 1 + ((p.2.1 : ℝ) + 0.5) * h, lo 2 + ((p.2.2 : ℝ) + 0.5) * h] := by
    simp only [points3, SProd.sprod, List.product, List.map_flatMap, List.map_map, Function.comp_def]
  rw [e]
  refine List.Nodup.map ?_ (List.Nodup.product List.nodup_range (List.Nodup.product List.nodup_range List.nodup_range))
  rintro ⟨a, b, c⟩ ⟨a', b', c'⟩ hab
  have h0 := congrFun hab 0
  have h1 := congrFun hab 1
  have h2 := congrFun hab 2
  simp only [Matrix.cons_val_zero, Matrix.cons_val_one, Matrix.cons_val, add_right_inj, mul_eq_mul_right_iff, hh.ne',
    or_false, add_left_inj, Nat.cast_inj] at h0 h1 h2
  rw [h0, h1, h2]

lemma points2_length (nx ny : ℤ) (h : ℝ) (lo : Fin 2 → ℝ) :
    (points2 nx ny h lo).length = nx.toNat * ny.toNat := by
  simp [points2, List.length_flatMap]

lemma points3_length (nx ny nz : ℤ) (h : ℝ) (lo : Fin 3 → ℝ) :
    (points3 nx ny nz h lo).length = nx.toNat * (ny.toNat * nz.toNat) := by
  simp [points3, List.length_flatMap]

/-! ### Specification -/

/-- What regular sampling of the box `lo + [0, L]` with the crop condition `c` must produce: as many points
of spacing `h` as fit into the box in each direction, each once, `ppc` of them per cell of size `dx`; exactly
those satisfying `c`; volume `h^d` per particle and mass `rho` times volume; everything else in the initial
state. -/
structure RegularBox (rho dx ppc : ℝ) (lo L : Fin d → ℝ) (c : (Fin d → ℝ) → Prop) (h : ℝ) (n : Fin d → ℕ)
    (s : Sampled d) : Prop where
  pos : 0 < h
  ppc : h ^ d * ppc = dx ^ d
  fits : ∀ i, n i * h ≤ L i ∧ L i < (n i + 1) * h
  dx : s.dx = dx
  len : s.L = L
  vol : s.volume = h ^ d
  mass : s.mass = rho * s.volume
  init : ∀ q ∈ s.ps, q = { (Particle.init : Particle d ℝ) with x := q.x }
  nodup : (positions s).Nodup
  mem : ∀ x, x ∈ positions s ↔ c x ∧
    ∃ k : Fin d → ℕ, (∀ i, k i < n i) ∧ ∀ i, x i = lo i + ((k i : ℝ) + 1 / 2) * h
  count_le : s.ps.length ≤ ∏ i, n i
  count : (∀ x, c x) → s.ps.length = ∏ i, n i

/-- The crop condition of the two-dimensional samplers: 1 is the gate, everything else no crop. The points are at least
half a cell below the parabola which has its lowest point 0.05 above the ground at the end of the box. -/
def crop2Cond (crop : ℕ) (Lx dx : ℝ) (x : Fin 2 → ℝ) : Prop :=
  crop = 1 → x 1 + dx / 2 < 0.05 + (10 * (Lx - x 0)) ^ 2

/-- Horizontal distance of a point to the axis of the box. -/
noncomputable def axisDist (Lx Lz : ℝ) (x : Fin 3 → ℝ) : ℝ := √((x 0 - Lx / 2) ^ 2 + (x 2 - Lz / 2) ^ 2)

/-- The crop condition of the three-dimensional samplers: 1 is a cylinder of diameter `Lx`, 2 a silo with the radius
`tanh y + 1` at height `y`. -/
def crop3Cond (crop : ℕ) (Lx Lz : ℝ) (x : Fin 3 → ℝ) : Prop :=
  (crop = 1 → axisDist Lx Lz x < |Lx| / 2) ∧ (crop = 2 → axisDist Lx Lz x < Real.tanh (x 1) + 1)

lemma inGate_iff {Lx dx : ℝ} {x : Fin 2 → ℝ} : inGate Lx dx x ↔ x 1 + dx / 2 < 0.05 + (10 * (Lx - x 0)) ^ 2 := by
  unfold inGate
  rw [show 0.05 + 100 * (x 0 - Lx) * (x 0 - Lx) - 0.5 * dx = 0.05 + (10 * (Lx - x 0)) ^ 2 - dx / 2 by ring]
  exact lt_sub_iff_add_lt

lemma inCylinder_iff {Lx Lz : ℝ} {x : Fin 3 → ℝ} : inCylinder Lx Lz x ↔ axisDist Lx Lz x < |Lx| / 2 := by
  have h : |Lx| / 2 = √(Lx / 2 * (Lx / 2)) := by rw [Real.sqrt_mul_self_eq_abs, abs_div, abs_two]
  unfold inCylinder axisDist
  rw [h, Real.sqrt_lt_sqrt_iff (by positivity), sq, sq]

lemma inSilo_iff {Lx Lz : ℝ} {x : Fin 3 → ℝ} : inSilo Lx Lz x ↔ axisDist Lx Lz x < Real.tanh (x 1) + 1 := by
  have h : 0 < Real.tanh (x 1) + 1 := by have := Real.neg_one_lt_tanh (x 1); linarith
  unfold inSilo axisDist
  rw [Real.sqrt_lt' h, sq, sq, sq]

open Classical in
lemma crop2_eq (crop : ℕ) (Lx dx : ℝ) (xs) : crop2 crop Lx dx xs = xs.filter (crop2Cond crop Lx dx) := by
  unfold crop2 crop2Cond
  split_ifs with h
  · rw [keep_eq]; simp [h, inGate_iff]
  · simp [h]

open Classical in
lemma crop3_eq (crop : ℕ) (Lx Lz : ℝ) (xs) : crop3 crop Lx Lz xs = xs.filter (crop3Cond crop Lx Lz) := by
  unfold crop3 crop3Cond
  split_ifs with h h'
  · rw [keep_eq]; simp [h, inCylinder_iff]
  · rw [keep_eq]; simp [h', inSilo_iff]
  · simp [h, h']

lemma fits_of {L h : ℝ} (hh : 0 < h) (hL : 0 ≤ L) {z : ℤ} (hz : pointCount L h = some z) :
    (z.toNat : ℝ) * h ≤ L ∧ L < (z.toNat + 1) * h := by
  rw [pointCount, fdiv, if_neg hh.ne', Option.bind_some] at hz
  obtain ⟨h1, h2⟩ := castInt_spec (div_nonneg hL hh.le) hz
  exact ⟨(le_div_iff₀ hh).mp h1, (div_lt_iff₀ hh).mp h2⟩

open Classical in
lemma regular2_box {rho dx ppc h : ℝ} {lo L : Fin 2 → ℝ} {c : (Fin 2 → ℝ) → Prop} {nx ny : ℤ} (hh : 0 < h)
    (hp : h ^ 2 * ppc = dx ^ 2) (hL : ∀ i, 0 ≤ L i) (hx : pointCount (L 0) h = some nx)
    (hy : pointCount (L 1) h = some ny) :
    RegularBox rho dx ppc lo L c h ![nx.toNat, ny.toNat]
      ⟨dx, h * h, rho * (h * h), ![L 0, L 1], mkParticles ((points2 nx ny h lo).filter c)⟩ := by
  refine ⟨hh, hp, ?_, rfl, ?_, by ring, rfl, fun q hq => mkParticles_init hq, ?_, ?_, ?_, ?_⟩
  · intro i; fin_cases i
    · exact fits_of hh (hL 0) hx
    · exact fits_of hh (hL 1) hy
  · funext i; fin_cases i <;> rfl
  · rw [positions_mk]; exact (points2_nodup nx ny hh lo).filter _
  · intro x
    rw [positions_mk, List.mem_filter, points2_mem]
    simp only [decide_eq_true_eq]
    exact and_comm
  · rw [mkParticles_length, Fin.prod_univ_two]
    exact (List.length_filter_le _ _).trans (points2_length nx ny h lo).le
  · intro hc
    rw [mkParticles_length, Fin.prod_univ_two, List.filter_eq_self.mpr (by simp [hc])]
    exact points2_length nx ny h lo

open Classical in
lemma regular3_box {rho dx ppc h : ℝ} {lo L : Fin 3 → ℝ} {c : (Fin 3 → ℝ) → Prop} {nx ny nz : ℤ} (hh : 0 < h)
    (hp : h ^ 3 * ppc = dx ^ 3) (hL : ∀ i, 0 ≤ L i) (hx : pointCount (L 0) h = some nx)
    (hy : pointCount (L 1) h = some ny) (hz : pointCount (L 2) h = some nz) :
    RegularBox rho dx ppc lo L c h ![nx.toNat, ny.toNat, nz.toNat]
      ⟨dx, h * h * h, rho * (h * h * h), ![L 0, L 1, L 2], mkParticles ((points3 nx ny nz h lo).filter c)⟩ := by
  refine ⟨hh, hp, ?_, rfl, ?_, by ring, rfl, fun q hq => mkParticles_init hq, ?_, ?_, ?_, ?_⟩
  · intro i; fin_cases i
    · exact fits_of hh (hL 0) hx
    · exact fits_of hh (hL 1) hy
    · exact fits_of hh (hL 2) hz
  · funext i; fin_cases i <;> rfl
  · rw [positions_mk]; exact (points3_nodup nx ny nz hh lo).filter _
  · intro x
    rw [positions_mk, List.mem_filter, points3_mem]
    simp only [decide_eq_true_eq]
    exact and_comm
  · rw [mkParticles_length, Fin.prod_univ_three]
    refine (List.length_filter_le _ _).trans ((points3_length nx ny nz h lo).trans ?_).le
    exact (mul_assoc _ _ _).symm
  · intro hc
    rw [mkParticles_length, Fin.prod_univ_three, List.filter_eq_self.mpr (by simp [hc])]
    exact (points3_length nx ny nz h lo).trans (mul_assoc _ _ _).symm

/-! ### C45 -/

/-- **C45** Two dimensions. -/
theorem C45_regular2 {rho dx ppc Lx Ly : ℝ} {crop : ℕ} {s : Sampled 2} (hdx : 0 < dx) (hppc : 0 < ppc)
    (hx : 0 ≤ Lx) (hy : 0 ≤ Ly) (hs : regular2 rho dx ppc Lx Ly crop = some s) :
    ∃ h n, RegularBox rho dx ppc 0 ![Lx, Ly] (crop2Cond crop Lx dx) h n s := by
  simp only [regular2, Option.bind_eq_bind, Option.bind_eq_some_iff, Option.some.injEq] at hs
  obtain ⟨r, hr, h, hh, nx, hnx, ny, hny, rfl⟩ := hs
  obtain ⟨-, rfl⟩ := fsqrt_of hr
  obtain ⟨-, rfl⟩ := fdiv_of hh
  have hq := Real.sqrt_pos.mpr hppc
  rw [crop2_eq]
  refine ⟨_, _, regular2_box (L := ![Lx, Ly]) (div_pos hdx hq) ?_ ?_ hnx hny⟩
  · rw [div_pow, Real.sq_sqrt hppc.le]; field_simp
  · intro i; fin_cases i <;> assumption

/-- **C45** Three dimensions. -/
theorem C45_regular3 {rho dx ppc Lx Ly Lz : ℝ} {crop : ℕ} {s : Sampled 3} (hdx : 0 < dx) (hppc : 0 < ppc)
    (hx : 0 ≤ Lx) (hy : 0 ≤ Ly) (hz : 0 ≤ Lz) (hs : regular3 rho dx ppc Lx Ly Lz crop = some s) :
    ∃ h n, RegularBox rho dx ppc 0 ![Lx, Ly, Lz] (crop3Cond crop Lx Lz) h n s := by
  simp only [regular3, Option.bind_eq_bind, Option.bind_eq_some_iff, Option.some.injEq] at hs
  obtain ⟨h, hh, nx, hnx, ny, hny, nz, hnz, rfl⟩ := hs
  obtain ⟨-, rfl⟩ := fdiv_of hh
  have hq := cbrt_pos hppc
  rw [crop3_eq]
  refine ⟨_, _, regular3_box (L := ![Lx, Ly, Lz]) (div_pos hdx hq) ?_ ?_ hnx hny hnz⟩
  · rw [div_pow, show cbrt ppc ^ 3 = cbrt ppc * cbrt ppc * cbrt ppc by ring, cbrt_pow hppc.le]; field_simp
  · intro i; fin_cases i <;> assumption

open Classical in
/-- **C45** Sampling the inside of a level set object, two dimensions. -/
theorem C45_regularVdb2 {rho dx ppc : ℝ} {lo hi : Fin 2 → ℝ} {inside : (Fin 2 → ℝ) → Prop} {s : Sampled 2}
    (hdx : 0 < dx) (hppc : 0 < ppc) (hb : ∀ i, lo i ≤ hi i) (hs : regularVdb2 rho dx ppc lo hi inside = some s) :
    ∃ h n, RegularBox rho dx ppc lo (hi - lo) inside h n s := by
  simp only [regularVdb2, Option.bind_eq_bind, Option.bind_eq_some_iff, Option.some.injEq] at hs
  obtain ⟨r, hr, h, hh, nx, hnx, ny, hny, rfl⟩ := hs
  obtain ⟨-, rfl⟩ := fsqrt_of hr
  obtain ⟨-, rfl⟩ := fdiv_of hh
  have hq := Real.sqrt_pos.mpr hppc
  rw [keep_eq]
  refine ⟨_, _, regular2_box (L := hi - lo) (div_pos hdx hq) ?_ ?_ hnx hny⟩
  · rw [div_pow, Real.sq_sqrt hppc.le]; field_simp
  · intro i; exact sub_nonneg.mpr (hb i)

open Classical in
/-- **C45** Sampling the inside of a level set object, three dimensions. -/
theorem C45_regularVdb3 {rho dx ppc : ℝ} {lo hi : Fin 3 → ℝ} {inside : (Fin 3 → ℝ) → Prop} {s : Sampled 3}
    (hdx : 0 < dx) (hppc : 0 < ppc) (hb : ∀ i, lo i ≤ hi i) (hs : regularVdb3 rho dx ppc lo hi inside = some s) :
    ∃ h n, RegularBox rho dx ppc lo (hi - lo) inside h n s := by
  simp only [regularVdb3, Option.bind_eq_bind, Option.bind_eq_some_iff, Option.some.injEq] at hs
  obtain ⟨h, hh, nx, hnx, ny, hny, nz, hnz, rfl⟩ := hs
  obtain ⟨-, rfl⟩ := fdiv_of hh
  have hq := cbrt_pos hppc
  rw [keep_eq]
  refine ⟨_, _, regular3_box (L := hi - lo) (div_pos hdx hq) ?_ ?_ hnx hny hnz⟩
  · rw [div_pow, show cbrt ppc ^ 3 = cbrt ppc * cbrt ppc * cbrt ppc by ring, cbrt_pow hppc.le]; field_simp
  · intro i; exact sub_nonneg.mpr (hb i)

section
variable {rho dx ppc : ℝ} {lo L : Fin d → ℝ} {c : (Fin d → ℝ) → Prop} {h : ℝ} {n : Fin d → ℕ} {s : Sampled d}

/-- **C45** All points lie inside the box, at least half a spacing away from its faces. -/
theorem C45_inside (b : RegularBox rho dx ppc lo L c h n s) {x : Fin d → ℝ} (hx : x ∈ positions s) (i : Fin d) :
    lo i + h / 2 ≤ x i ∧ x i ≤ lo i + L i - h / 2 := by
  obtain ⟨-, k, hk, hxk⟩ := (b.mem x).mp hx
  have hp := b.pos
  have hf := (b.fits i).1
  have h1 : ((k i : ℝ) + 1) ≤ n i := by exact_mod_cast hk i
  have h2 := mul_le_mul_of_nonneg_right h1 hp.le
  have h3 : 0 ≤ (k i : ℝ) * h := by positivity
  rw [hxk i]
  constructor <;> nlinarith

/-- **C45** Coordinates of two points differ by a whole number of spacings; different points are at least one
spacing apart in some direction. -/
theorem C45_spacing (b : RegularBox rho dx ppc lo L c h n s) {x y : Fin d → ℝ} (hx : x ∈ positions s)
    (hy : y ∈ positions s) : (∀ i, ∃ z : ℤ, x i - y i = z * h) ∧ (x ≠ y → ∃ i, h ≤ |x i - y i|) := by
  obtain ⟨-, k, -, hxk⟩ := (b.mem x).mp hx
  obtain ⟨-, l, -, hyl⟩ := (b.mem y).mp hy
  have e : ∀ i, x i - y i = (((k i : ℤ) - (l i : ℤ) : ℤ) : ℝ) * h := by
    intro i; rw [hxk i, hyl i]; push_cast; ring
  refine ⟨fun i => ⟨_, e i⟩, fun hne => ?_⟩
  have : ∃ i, k i ≠ l i := by
    by_contra hc
    push Not at hc
    exact hne (funext fun i => by rw [hxk i, hyl i, hc i])
  obtain ⟨i, hi⟩ := this
  refine ⟨i, ?_⟩
  rw [e i, abs_mul, abs_of_pos b.pos]
  have h1 : (1 : ℤ) ≤ |(k i : ℤ) - (l i : ℤ)| := Int.one_le_abs (sub_ne_zero.mpr (by exact_mod_cast hi))
  have h2 : (1 : ℝ) ≤ |(((k i : ℤ) - (l i : ℤ) : ℤ) : ℝ)| := by exact_mod_cast h1
  nlinarith [b.pos]

/-- **C45** The total mass never exceeds that of the box; without crop it is at least that of the box
shortened by one spacing in each direction. -/
theorem C45_mass (b : RegularBox rho dx ppc lo L c h n s) (hr : 0 ≤ rho) :
    s.ps.length * s.mass ≤ rho * ∏ i, L i ∧
    ((∀ x, c x) → s.ps.length * s.mass = rho * ∏ i, (n i * h) ∧
      ((∀ i, h ≤ L i) → rho * ∏ i, (L i - h) ≤ s.ps.length * s.mass)) := by
  have hp := b.pos
  have hprod : ∏ i, ((n i : ℝ) * h) = ((∏ i, n i : ℕ) : ℝ) * h ^ d := by
    rw [Finset.prod_mul_distrib, Finset.prod_const, Finset.card_univ, Fintype.card_fin]; push_cast; rfl
  have hle : ∏ i, ((n i : ℝ) * h) ≤ ∏ i, L i :=
    Finset.prod_le_prod (fun i _ => by positivity) fun i _ => (b.fits i).1
  have hv : 0 ≤ h ^ d := by positivity
  rw [b.mass, b.vol]
  refine ⟨?_, fun hc => ⟨?_, fun hL => ?_⟩⟩
  · have h1 : (s.ps.length : ℝ) ≤ ((∏ i, n i : ℕ) : ℝ) := by exact_mod_cast b.count_le
    calc (s.ps.length : ℝ) * (rho * h ^ d) = rho * (s.ps.length * h ^ d) := by ring
      _ ≤ rho * (((∏ i, n i : ℕ) : ℝ) * h ^ d) :=
          mul_le_mul_of_nonneg_left (mul_le_mul_of_nonneg_right h1 hv) hr
      _ ≤ rho * ∏ i, L i := by rw [← hprod]; exact mul_le_mul_of_nonneg_left hle hr
  · rw [b.count hc, hprod]; ring
  · rw [b.count hc, show ((∏ i, n i : ℕ) : ℝ) * (rho * h ^ d) = rho * (((∏ i, n i : ℕ) : ℝ) * h ^ d) by ring, ← hprod]
    refine mul_le_mul_of_nonneg_left (Finset.prod_le_prod (fun i _ => sub_nonneg.mpr (hL i)) fun i _ => ?_) hr
    have := (b.fits i).2
    linarith

end

/-- Regular sampling is defined whenever the numbers of points fit into an `int`. -/
theorem C45_defined2 (rho : ℝ) {dx ppc Lx Ly : ℝ} (crop : ℕ) (hdx : 0 < dx) (hppc : 0 < ppc) (hx : 0 ≤ Lx)
    (hy : 0 ≤ Ly) (h1 : Lx * Real.sqrt ppc < 2 ^ 31 * dx) (h2 : Ly * Real.sqrt ppc < 2 ^ 31 * dx) :
    ∃ s, regular2 rho dx ppc Lx Ly crop = some s := by
  have hq := Real.sqrt_pos.mpr hppc
  have hh : 0 < dx / Real.sqrt ppc := div_pos hdx hq
  obtain ⟨nx, hnx⟩ := castInt_total (x := Lx / (dx / Real.sqrt ppc)) (by positivity) (by
    rw [div_lt_iff₀ hh]; field_simp; linarith)
  obtain ⟨ny, hny⟩ := castInt_total (x := Ly / (dx / Real.sqrt ppc)) (by positivity) (by
    rw [div_lt_iff₀ hh]; field_simp; linarith)
  simp only [regular2, pointCount, Option.bind_eq_bind, fsqrt, if_neg (not_lt.mpr hppc.le), fdiv, if_neg hq.ne', if_neg hh.ne',
    Option.bind_some, hnx, hny]
  exact ⟨_, rfl⟩

theorem C45_defined3 (rho : ℝ) {dx ppc Lx Ly Lz : ℝ} (crop : ℕ) (hdx : 0 < dx) (hppc : 0 < ppc) (hx : 0 ≤ Lx)
    (hy : 0 ≤ Ly) (hz : 0 ≤ Lz) (h1 : Lx * cbrt ppc < 2 ^ 31 * dx) (h2 : Ly * cbrt ppc < 2 ^ 31 * dx)
    (h3 : Lz * cbrt ppc < 2 ^ 31 * dx) : ∃ s, regular3 rho dx ppc Lx Ly Lz crop = some s := by
  have hq := cbrt_pos hppc
  have hh : 0 < dx / cbrt ppc := div_pos hdx hq
  obtain ⟨nx, hnx⟩ := castInt_total (x := Lx / (dx / cbrt ppc)) (by positivity) (by
    rw [div_lt_iff₀ hh]; field_simp; linarith)
  obtain ⟨ny, hny⟩ := castInt_total (x := Ly / (dx / cbrt ppc)) (by positivity) (by
    rw [div_lt_iff₀ hh]; field_simp; linarith)
  obtain ⟨nz, hnz⟩ := castInt_total (x := Lz / (dx / cbrt ppc)) (by positivity) (by
    rw [div_lt_iff₀ hh]; field_simp; linarith)
  simp only [regular3, pointCount, Option.bind_eq_bind, fdiv, if_neg hq.ne', if_neg hh.ne',
    Option.bind_some, hnx, hny, hnz]
  exact ⟨_, rfl⟩

/-! ### C46 -/

/-- What random sampling must produce from the points `xs` of the sampler: `dx` such that a cell of volume
`dx^d` holds `ppc` of the `xs.length` points on average, the volume of the box divided evenly, and the
points satisfying the crop condition in the order of the sampler. -/
structure RandomBox (rho ppc : ℝ) (L : Fin d → ℝ) (c : (Fin d → ℝ) → Prop) (xs : List (Fin d → ℝ))
    (s : Sampled d) : Prop where
  dx_nonneg : 0 ≤ s.dx
  ppc : xs.length * s.dx ^ d = ppc * ∏ i, L i
  len : s.L = L
  vol : xs.length * s.volume = ∏ i, L i
  mass : s.mass = rho * s.volume
  init : ∀ q ∈ s.ps, q = { (Particle.init : Particle d ℝ) with x := q.x }
  kept : (positions s).Sublist xs ∧ ∀ x, x ∈ positions s ↔ x ∈ xs ∧ c x
  count : ∀ x, c x → (s.ps.map fun q => q.x).count x = xs.count x
  all : (∀ x ∈ xs, c x) → positions s = xs

open Classical in
lemma random_box {rho ppc dx vol : ℝ} {L : Fin d → ℝ} {c : (Fin d → ℝ) → Prop} {xs : List (Fin d → ℝ)}
    (h0 : 0 ≤ dx) (hp : xs.length * dx ^ d = ppc * ∏ i, L i) (hv : xs.length * vol = ∏ i, L i) :
    RandomBox rho ppc L c xs ⟨dx, vol, rho * vol, L, mkParticles (xs.filter c)⟩ := by
  refine ⟨h0, hp, rfl, hv, rfl, fun q hq => mkParticles_init hq, ⟨?_, ?_⟩, ?_, ?_⟩
  · rw [positions_mk]; exact List.filter_sublist
  · intro x; rw [positions_mk, List.mem_filter]; simp
  · intro x hx
    have : (mkParticles (xs.filter c)).map (fun q => q.x) = xs.filter c := positions_mk dx vol 0 L _
    rw [this, List.count_filter (by simpa using hx)]
  · intro hc
    rw [positions_mk, List.filter_eq_self.mpr (by simpa using hc)]

/-- **C46** Two dimensions. -/
theorem C46_random2 {rho ppc Lx Ly : ℝ} {crop : ℕ} {xs : List (Fin 2 → ℝ)} {s : Sampled 2}
    (hs : sample2 rho ppc Lx Ly crop xs = some s) :
    RandomBox rho ppc ![Lx, Ly] (crop2Cond crop Lx s.dx) xs s := by
  simp only [sample2, Option.bind_eq_bind, Option.bind_eq_some_iff, Option.some.injEq] at hs
  obtain ⟨r, hr, dx, hdx, vol, hvol, rfl⟩ := hs
  obtain ⟨hn, rfl⟩ := fdiv_of hr
  obtain ⟨h0, rfl⟩ := fsqrt_of hdx
  obtain ⟨hp, rfl⟩ := fdiv_of hvol
  have hsq := Real.mul_self_sqrt h0
  rw [crop2_eq]
  refine random_box (Real.sqrt_nonneg _) ?_ ?_
  · rw [sq, hsq, Fin.prod_univ_two]; simp only [Matrix.cons_val_zero, Matrix.cons_val_one]; field_simp
  · rw [hsq, Fin.prod_univ_two]; simp only [Matrix.cons_val_zero, Matrix.cons_val_one]; field_simp

/-- **C46** Three dimensions. -/
theorem C46_random3 {rho ppc Lx Ly Lz : ℝ} {crop : ℕ} {xs : List (Fin 3 → ℝ)} {s : Sampled 3}
    (hppc : 0 < ppc) (hx : 0 ≤ Lx) (hy : 0 ≤ Ly) (hz : 0 ≤ Lz)
    (hs : sample3 rho ppc Lx Ly Lz crop xs = some s) :
    RandomBox rho ppc ![Lx, Ly, Lz] (crop3Cond crop Lx Lz) xs s := by
  simp only [sample3, Option.bind_eq_bind, Option.bind_eq_some_iff, Option.some.injEq] at hs
  obtain ⟨r, hr, vol, hvol, rfl⟩ := hs
  obtain ⟨hn, rfl⟩ := fdiv_of hr
  obtain ⟨hp, rfl⟩ := fdiv_of hvol
  have h0 : 0 ≤ ppc / xs.length * Lx * Ly * Lz := by positivity
  have hsq := cbrt_pow h0
  have hpos : 0 ≤ cbrt (ppc / xs.length * Lx * Ly * Lz) := by
    rw [cbrt, if_pos h0]; exact Real.rpow_nonneg h0 _
  rw [crop3_eq]
  refine random_box hpos ?_ ?_
  · rw [pow_succ, sq, hsq, Fin.prod_univ_three]; simp only [Matrix.cons_val_zero, Matrix.cons_val_one, Matrix.cons_val]; field_simp
  · rw [hsq, Fin.prod_univ_three]; simp only [Matrix.cons_val_zero, Matrix.cons_val_one, Matrix.cons_val]; field_simp

open Classical in
/-- **C46** Level set objects, two dimensions. -/
theorem C46_randomVdb2 {rho ppc : ℝ} {lo hi : Fin 2 → ℝ} {inside : (Fin 2 → ℝ) → Prop}
    {xs : List (Fin 2 → ℝ)} {s : Sampled 2} (hs : sampleVdb2 rho ppc lo hi inside xs = some s) :
    RandomBox rho ppc (hi - lo) inside xs s := by
  simp only [sampleVdb2, Option.bind_eq_bind, Option.bind_eq_some_iff, Option.some.injEq] at hs
  obtain ⟨r, hr, dx, hdx, vol, hvol, rfl⟩ := hs
  obtain ⟨hn, rfl⟩ := fdiv_of hr
  obtain ⟨h0, rfl⟩ := fsqrt_of hdx
  obtain ⟨hp, rfl⟩ := fdiv_of hvol
  have hsq := Real.mul_self_sqrt h0
  have hL : ![(hi - lo) 0, (hi - lo) 1] = hi - lo := by funext i; fin_cases i <;> rfl
  rw [keep_eq, hL]
  refine random_box (Real.sqrt_nonneg _) ?_ ?_
  · rw [sq, hsq, Fin.prod_univ_two]; field_simp
  · rw [hsq, Fin.prod_univ_two]; field_simp

open Classical in
/-- **C46** Level set objects, three dimensions. -/
theorem C46_randomVdb3 {rho ppc : ℝ} {lo hi : Fin 3 → ℝ} {inside : (Fin 3 → ℝ) → Prop}
    {xs : List (Fin 3 → ℝ)} {s : Sampled 3} (hppc : 0 < ppc) (hb : ∀ i, lo i ≤ hi i)
    (hs : sampleVdb3 rho ppc lo hi inside xs = some s) :
    RandomBox rho ppc (hi - lo) inside xs s := by
  simp only [sampleVdb3, Option.bind_eq_bind, Option.bind_eq_some_iff, Option.some.injEq] at hs
  obtain ⟨r, hr, vol, hvol, rfl⟩ := hs
  obtain ⟨hn, rfl⟩ := fdiv_of hr
  obtain ⟨hp, rfl⟩ := fdiv_of hvol
  have b0 : 0 ≤ (hi - lo) 0 := sub_nonneg.mpr (hb 0)
  have b1 : 0 ≤ (hi - lo) 1 := sub_nonneg.mpr (hb 1)
  have b2 : 0 ≤ (hi - lo) 2 := sub_nonneg.mpr (hb 2)
  have h0 : 0 ≤ ppc / xs.length * (hi - lo) 0 * (hi - lo) 1 * (hi - lo) 2 := by positivity
  have hsq := cbrt_pow h0
  have hpos : 0 ≤ cbrt (ppc / xs.length * (hi - lo) 0 * (hi - lo) 1 * (hi - lo) 2) := by
    rw [cbrt, if_pos h0]; exact Real.rpow_nonneg h0 _
  have hL : ![(hi - lo) 0, (hi - lo) 1, (hi - lo) 2] = hi - lo := by funext i; fin_cases i <;> rfl
  rw [keep_eq, hL]
  refine random_box hpos ?_ ?_
  · rw [pow_succ, sq, hsq, Fin.prod_univ_three]; field_simp
  · rw [hsq, Fin.prod_univ_three]; field_simp

/-- **C46** Without crop the total mass is the density times the volume of the box. -/
theorem C46_mass {rho ppc : ℝ} {L : Fin d → ℝ} {c : (Fin d → ℝ) → Prop} {xs : List (Fin d → ℝ)} {s : Sampled d}
    (b : RandomBox rho ppc L c xs s) (hc : ∀ x ∈ xs, c x) : s.ps.length * s.mass = rho * ∏ i, L i := by
  have : s.ps.length = xs.length := by
    have := congrArg List.length (b.all hc)
    simpa [positions] using this
  rw [this, b.mass, ← b.vol]; ring

/-! ### Concrete cases -/

/-- A unit box with cells of 1/2 and four points per cell: sixteen points of mass 1/16 each. -/
example : ∃ s, regular2 1 (1 / 2) 4 1 1 0 = some s ∧ s.ps.length = 16 ∧ s.ps.length * s.mass = 1 := by
  obtain ⟨s, hs⟩ := C45_defined2 1 (dx := 1 / 2) (ppc := 4) (Lx := 1) (Ly := 1) 0 (by norm_num) (by norm_num)
    (by norm_num) (by norm_num)
    (by rw [show (4 : ℝ) = 2 ^ 2 by norm_num, Real.sqrt_sq (by norm_num)]; norm_num)
    (by rw [show (4 : ℝ) = 2 ^ 2 by norm_num, Real.sqrt_sq (by norm_num)]; norm_num)
  obtain ⟨h, n, b⟩ := C45_regular2 (by norm_num) (by norm_num) (by norm_num) (by norm_num) hs
  have hh : h = 1 / 4 := by
    have h1 := b.ppc
    have h2 := b.pos
    nlinarith
  have hn : ∀ i, n i = 4 := by
    intro i
    have h1 := b.fits i
    have hL : (![1, 1] : Fin 2 → ℝ) i = 1 := by fin_cases i <;> rfl
    rw [hh, hL] at h1
    have h2 : (n i : ℝ) < 5 := by linarith
    have h3 : (3 : ℝ) < n i := by linarith
    have h4 : n i < 5 := by exact_mod_cast h2
    have h5 : 3 < n i := by exact_mod_cast h3
    omega
  have hc : s.ps.length = 16 := by
    rw [b.count (by intro x h; cases h), Fin.prod_univ_two, hn, hn]; norm_num
  refine ⟨s, hs, hc, ?_⟩
  rw [hc, b.mass, b.vol, hh]
  norm_num

/-- Three random points in a box of size 2 x 3 with density 5: total mass 30. -/
example : ∃ s, sample2 5 6 2 3 0 [![1, 1], ![1, 2], ![0, 3]] = some s ∧ s.ps.length * s.mass = 30 := by
  have : ∃ s, sample2 5 6 2 3 0 [![1, 1], ![1, 2], ![0, 3]] = some s := by
    simp only [sample2, fdiv, fsqrt, List.length_cons, List.length_nil, Option.bind_eq_bind]
    norm_num
  obtain ⟨s, hs⟩ := this
  refine ⟨s, hs, ?_⟩
  rw [C46_mass (C46_random2 hs) (by intro x _ h; cases h), Fin.prod_univ_two]
  norm_num

end Verif.Props
