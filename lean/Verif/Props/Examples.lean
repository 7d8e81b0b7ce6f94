import Verif.Props.WallMomentum
import Verif.Props.Momentum
import Verif.Props.Bounds
import Mathlib.LinearAlgebra.Matrix.Notation

set_option linter.unusedSectionVars false
set_option linter.unusedSimpArgs false

/-!
# Concrete cases meeting the hypotheses of the transfer and step theorems

A two-dimensional grid of 6 x 6 nodes with spacing 1 and two particles in general position.
-/

namespace Verif.Props.Ex
open Verif Matrix

/-- 6 x 6 nodes. -/
def grid : Axes 2 ℚ := fun _ => [0, 1, 2, 3, 4, 5]

/-- A moving, stressed particle with affine velocity. -/
def p1 : Particle 2 ℚ :=
  { Particle.init with x := ![23/10, 26/10], v := ![1, 2], Bmat := !![1, 2; 3, 4], tau := !![5, 1; 1, -2]
                       F := !![1, 1/10; 0, 1], muI := 1/2 }
/-- A second one, in another cell. -/
def p2 : Particle 2 ℚ :=
  { Particle.init with x := ![31/10, 14/10], v := ![-1, 1/3], Bmat := !![0, 1; -1, 0], tau := !![1, 0; 0, 1]
                       muI := 3/4 }

def parts : List (Particle 2 ℚ) := [p1, p2]

/-- Two threads, which finish in the "wrong" order. -/
def threads : List (List (Particle 2 ℚ)) := [[p2], [p1]]

lemma threads_perm : threads.flatten.Perm parts := List.Perm.swap _ _ _

lemma uniform : ∀ a, UniformAxis (1 : ℚ) (grid a) := fun a => ⟨0, by
  simp only [grid, List.length_cons, List.length_nil, List.range_succ, List.range_zero]; norm_num⟩

lemma inside {x y : ℚ} (hx : 1 ≤ x ∧ x < 4) (hy : 1 ≤ y ∧ y < 4) :
    ∀ a, InsideAxis (1 : ℚ) (grid a) (![x, y] a) := by
  intro a
  refine ⟨0, 5, rfl, rfl, ?_⟩
  fin_cases a
  · show 0 + 1 ≤ x ∧ x < 5 - 1
    constructor <;> linarith [hx.1, hx.2]
  · show 0 + 1 ≤ y ∧ y < 5 - 1
    constructor <;> linarith [hy.1, hy.2]

lemma good : GoodGrid 1 grid parts := ⟨one_pos, uniform, fun p hp => by
  simp only [parts, List.mem_cons, List.not_mem_nil, or_false] at hp
  rcases hp with rfl | rfl
  · exact inside (by norm_num) (by norm_num)
  · exact inside (by norm_num) (by norm_num)⟩

/-- Finite check that no weight is tiny. -/
lemma noTiny_of {deg : Deg} {ps : List (Particle 2 ℚ)} (h : ∀ p ∈ ps, ∀ j < 6, ∀ k < 6,
    N deg (p.x 0 - (grid 0).getD j 0) * N deg (p.x 1 - (grid 1).getD k 0) = 0 ∨
    1 / 10 ^ 25 < N deg (p.x 0 - (grid 0).getD j 0) * N deg (p.x 1 - (grid 1).getD k 0)) :
    NoTinyWeights deg 1 grid ps := by
  intro p hp i hi
  have := h p hp (i 0) (hi 0) (i 1) (hi 1)
  simpa only [shape, Fin.prod_univ_two, nodeAt, div_one] using this

lemma noTiny2 : NoTinyWeights .two 1 grid parts := noTiny_of (by
  intro p hp
  simp only [parts, List.mem_cons, List.not_mem_nil, or_false] at hp
  rcases hp with rfl | rfl <;> decide +kernel)

lemma noTiny3 : NoTinyWeights .three 1 grid parts := noTiny_of (by
  intro p hp
  simp only [parts, List.mem_cons, List.not_mem_nil, or_false] at hp
  rcases hp with rfl | rfl <;> decide +kernel)

lemma good_threads : GoodGrid 1 grid threads.flatten := good.perm threads_perm
lemma noTiny_threads : NoTinyWeights .two 1 grid threads.flatten := fun p hp =>
  noTiny2 p (threads_perm.mem_iff.mp hp)

/-- Total mass 2 · 3. -/
example := C01_total (deg := .two) (fr := -19/20) (m := 3) (vol := 1) (mibf := true) good_threads noTiny_threads
example := C01_bounds (deg := .three) (fr := -19/20) (m := 3) (vol := 1) (mibf := true) good_threads (by norm_num)
example := C02_momentum (deg := .two) (fr := -19/20) (m := 3) (vol := 1) (mibf := true) good_threads noTiny_threads
example : momentum (3 : ℚ) parts = ![0, 7] := by
  simp only [momentum, parts, p1, p2, List.map_cons, List.map_nil, List.sum_cons, List.sum_nil]
  ext a; fin_cases a <;> norm_num
example := C54_p2g_nodes (deg := .two) (fr := -19/20) (m := 3) (vol := 1) (mibf := true) good_threads
example := C03_p2g (mkTransferParams .two (1 : ℚ) (-19/20) false 3 1) grid threads [parts] (by simpa using threads_perm)

def settings (musl : Bool) (fr : ℚ) : StepParams 2 ℚ :=
  ⟨mkTransferParams .two 1 fr false 3 1, musl, false, false, 1, none⟩

/-- A constitutive update that changes `F` and `tau` (an elastic law). -/
def law (p : Particle 2 ℚ) : Particle 2 ℚ := { p with tau := p.F + p.Fᵀ - 2 }
lemma law_keeps : KeepsMotion law := ⟨fun _ => rfl, fun _ => rfl, fun _ => rfl, fun _ => rfl, fun _ => rfl⟩

def noWall : ℕ → (Fin 2 → ℚ) → (Fin 2 → ℚ) → (Fin 2 → ℚ) := fun _ _ v => v

example (musl : Bool) := C04_step (S := settings musl (-19/20)) (dt := 1/100) (grav := ![0, -10]) rfl (by simp)
  (by norm_num) good noTiny2 threads_perm (bc := noWall) (fun _ _ _ => rfl) law_keeps
/-- A sticky floor at height 1. -/
def floor : ℕ → (Fin 2 → ℚ) → (Fin 2 → ℚ) → (Fin 2 → ℚ) := fun _ X v => if X 1 ≤ 1 then 0 else v
example (musl : Bool) := C69_step (S := settings musl (-19/20)) (dt := 1/100) (grav := ![0, -10]) (bc := floor) rfl
  (by simp) (by norm_num) good noTiny2 threads_perm law_keeps
example := C06_p2g (deg := .two) (fr := -19/20) (m := 3) (vol := 1) (mibf := false) (by simp) (by norm_num)
  good_threads noTiny_threads
lemma tau_sym : ∀ p ∈ parts, p.tauᵀ = p.tau := by
  intro p hp
  simp only [parts, List.mem_cons, List.not_mem_nil, or_false] at hp
  rcases hp with rfl | rfl <;> ext i j <;> fin_cases i <;> fin_cases j <;> rfl
example := C06_step (S := settings false (-2)) (dt := 1/100) (grav := ![0, -10]) rfl (by simp)
  (by norm_num) (by norm_num) rfl rfl good noTiny2 threads_perm (bc := noWall) (fun _ _ _ => rfl) law_keeps tau_sym

/-- Stress-free particles moving together. -/
def rigid : List (Particle 2 ℚ) := parts.map fun p => { p with v := ![1, 2], Bmat := 0, tau := 0 }
lemma mem_rigid {p : Particle 2 ℚ} (h : p ∈ rigid) : p.v = ![1, 2] ∧ p.Bmat = 0 ∧ p.tau = 0 ∧
    ∃ q ∈ parts, q.x = p.x := by
  obtain ⟨q, hq, rfl⟩ := List.mem_map.mp h
  exact ⟨rfl, rfl, rfl, q, hq, rfl⟩
lemma rigid_good : GoodGrid 1 grid rigid := ⟨one_pos, uniform, fun p hp => by
  obtain ⟨_, _, _, q, hq, e⟩ := mem_rigid hp
  rw [← e]; exact good.inside q hq⟩
lemma rigid_noTiny : NoTinyWeights .two 1 grid rigid := fun p hp => by
  obtain ⟨_, _, _, q, hq, e⟩ := mem_rigid hp
  rw [← e]; exact noTiny2 q hq
example (musl : Bool) := C07_rigid (S := settings musl (-19/20)) (dt := 1/100) (threads := [rigid]) rfl (by simp)
  (by norm_num) rfl rfl rigid_good rigid_noTiny (by simp) (bc := noWall) (fun _ _ _ => rfl)
  law_keeps (c := ![1, 2]) (fun _ h => (mem_rigid h).1) (fun _ h => (mem_rigid h).2.1)
  (fun _ h => (mem_rigid h).2.2.1)

/-- Nodal velocities of an affine field: node `i` is at position `i`. -/
def affine : EulerArr 2 ℚ := ⟨fun l => ![1, 2] + !![1, 2; 3, 4] *ᵥ ![((l / 6 : ℕ) : ℚ), ((l % 6 : ℕ) : ℚ)], 0⟩
lemma affine_nodes : ∀ i, IsNode grid i → affine.v (flatIndex grid.size i) =
    ![1, 2] + !![1, 2; 3, 4] *ᵥ nodeAt grid i := by
  intro i hi
  have h0 : i 0 < 6 := hi 0
  have h1 : i 1 < 6 := hi 1
  have hn : nodeAt grid i = ![((i 0 : ℕ) : ℚ), ((i 1 : ℕ) : ℚ)] := by
    have : ∀ k < 6, ([0, 1, 2, 3, 4, 5] : List ℚ).getD k 0 = k := by decide +kernel
    funext a; fin_cases a
    · exact this _ h0
    · exact this _ h1
  have hf : flatIndex grid.size i = i 0 * 6 + i 1 := by
    simp [flatIndex, Axes.size, grid, List.finRange_succ]
  simp only [affine]
  rw [hn, hf, show (i 0 * 6 + i 1) / 6 = i 0 by omega, show (i 0 * 6 + i 1) % 6 = i 1 by omega]
example := C08_g2p (deg := .two) (fr := -1) (m := 3) (vol := 1) (mibf := false) (dt := 1/100) (by simp)
  law_keeps good ![1, 2] !![1, 2; 3, 4] affine_nodes

/-- Particles carrying an affine field. -/
def affineParts : List (Particle 2 ℚ) :=
  parts.map fun p => { p with v := ![1, 2] + !![1, 2; 3, 4] *ᵥ p.x, Bmat := (1/4 : ℚ) • !![1, 2; 3, 4] }
example := C08_p2g (deg := .two) (dx := (1 : ℚ)) (g := grid) (fr := -1) (m := 3) (vol := 1) (mibf := false) (threads := [affineParts])
  (by norm_num) (by norm_num)
  ⟨one_pos, uniform, fun p hp => by
    simp only [List.flatten_cons, List.flatten_nil, List.append_nil] at hp
    obtain ⟨q, hq, rfl⟩ := List.mem_map.mp hp
    exact good.inside q hq⟩ ![1, 2] !![1, 2; 3, 4]
  (fun p hp => by
    simp only [List.flatten_cons, List.flatten_nil, List.append_nil] at hp
    obtain ⟨q, hq, rfl⟩ := List.mem_map.mp hp; rfl)
  (fun p hp => by
    simp only [List.flatten_cons, List.flatten_nil, List.append_nil] at hp
    obtain ⟨q, hq, rfl⟩ := List.mem_map.mp hp
    simp only [mkTransferParams, smul_smul]; norm_num)
example := C09_p2g (deg := .two) (fr := 19/20) (m := 3) (vol := 1) (mibf := false) (by norm_num) good_threads
example := C09_g2p (deg := .two) (fr := 19/20) (m := 3) (vol := 1) (mibf := false) (dt := 1/100) (e := affine)
  law_keeps good
example := C10_p2g (deg := .two) (fr := 19/20) (m := 3) (vol := 1) (mibf := false) (by norm_num) (by norm_num)
  good_threads
example := C10_g2p (deg := .two) (fr := 0) (m := 3) (vol := 1) (mibf := false) (dt := 1/100) (e := affine)
  law_keeps (by norm_num) good noTiny2 threads_perm
example := C48_musl (deg := .two) (fr := -19/20) (m := 3) (vol := 1) (mibf := false) (by norm_num)
  good_threads noTiny_threads (ts' := [parts]) (by simpa using (threads_perm.map fun p => p.x).symm)
example := C50_friction (deg := .two) (fr := -19/20) (m := 3) (vol := 1) good_threads
example := C55_g2p_sums (deg := .two) (fr := -19/20) (m := 3) (vol := 1) (mibf := false) (dt := 1/100)
  (e := affine) (plast := law) good

/-- A particle exactly on a grid line (first coordinate 2). -/
def onLine : Particle 2 ℚ := { Particle.init with x := ![2, 26/10] }
lemma onLine_good : GoodGrid 1 grid [onLine] := ⟨one_pos, uniform, fun p hp => by
  simp only [List.mem_cons, List.not_mem_nil, or_false] at hp
  rw [hp]; exact inside (by norm_num) (by norm_num)⟩
/-- It is deformed although the velocity is uniform. -/
example : ∃ qs, G2P (mkTransferParams .one (1 : ℚ) 0 false 3 1) false (1/100) id grid
    ⟨fun _ => ![1, 2], 0⟩ [onLine] = some qs ∧ ∀ q ∈ qs, q.F = !![1 + 1/100, 0; 2/100, 1] := by
  obtain ⟨qs, h1, h2⟩ := C53_deforms (dx := 1) (fr := 0) (m := 3) (vol := 1) (mibf := false) (dt := 1/100)
    (plast := id) onLine_good ![1, 2] (e := ⟨fun _ => ![1, 2], 0⟩) (fun _ _ => rfl)
  refine ⟨qs, h1, ?_⟩
  cases h2 with
  | cons h h' =>
    cases h'
    obtain ⟨r, e1, e2⟩ := h
    intro q hq
    simp only [List.mem_cons, List.not_mem_nil, or_false] at hq
    rw [hq, e1, id]
    have a0 : onLine.x 0 ∈ grid 0 := by decide +kernel
    have a1 : onLine.x 1 ∉ grid 1 := by decide +kernel
    have e3 : (fun b => if onLine.x b ∈ grid b then (1 : ℚ) / 1 else 0) = ![1, 0] := by
      funext b; fin_cases b
      · exact (if_pos a0).trans (div_one 1)
      · exact if_neg a1
    have e4 : onLine.F = 1 := rfl
    rw [e2, e4, e3, mul_one]
    ext i j
    fin_cases i <;> fin_cases j <;> norm_num [vecMulVec_apply, Matrix.one_apply]

end Verif.Props.Ex
