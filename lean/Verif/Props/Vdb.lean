import Verif.Model.Vdb
import Verif.Props.Walls
import Verif.Props.Sampling
import Mathlib.Algebra.BigOperators.Field

set_option linter.unusedSectionVars false
set_option linter.unusedSimpArgs false
set_option linter.unusedVariables false

/-!
# C96: terrain and bodies from level set files
-/

namespace Verif.Props
open Verif Matrix
noncomputable section

/-- The point of space that a point of a simulation stands for: itself in 3D, `(x, y, 0)` in 2D. -/
def inSpace {d : ℕ} (X : Fin d → ℝ) : Fin 3 → ℝ := fun a => if h : a.val < d then X ⟨a.val, h⟩ else 0

lemma embed3_eq {d : ℕ} (X : Fin d → ℝ) : embed3 X = inSpace X := rfl

example (x y : ℝ) : inSpace ![x, y] = ![x, y, 0] := by funext a; fin_cases a <;> rfl
example (x y z : ℝ) : inSpace ![x, y, z] = ![x, y, z] := by funext a; fin_cases a <;> rfl

/-! ### trilinear interpolation -/

lemma corner_sum (g : Fin 3 → Fin 2 → ℝ) : ∑ b : Fin 3 → Fin 2, ∏ a, g a (b a) = ∏ a, ∑ j, g a j := by
  rw [Finset.prod_univ_sum]
  simp

/-- Weights of the two neighbours on an axis. -/
def w1 (u : ℝ) (j : Fin 2) : ℝ := if j = 0 then 1 - u else u

lemma cellWeight_eq (c : Fin 3 → ℝ) (b : Fin 3 → Fin 2) : cellWeight c b = ∏ a, w1 (Int.fract (c a)) (b a) := rfl

lemma w1_sum (u : ℝ) : ∑ j, w1 u j = 1 := by simp [w1]

lemma cellWeight_sum (c : Fin 3 → ℝ) : ∑ b, cellWeight c b = 1 := by
  simp only [cellWeight_eq]
  rw [corner_sum (fun a => w1 (Int.fract (c a)))]
  simp only [w1_sum, Finset.prod_const_one]

lemma cellWeight_nonneg (c : Fin 3 → ℝ) (b : Fin 3 → Fin 2) : 0 ≤ cellWeight c b := by
  refine Finset.prod_nonneg fun a _ => ?_
  have := Int.fract_nonneg (c a)
  have := (Int.fract_lt_one (c a)).le
  split_ifs <;> linarith

lemma cellWeight_axis (c : Fin 3 → ℝ) (e : Fin 3) (f : Fin 2 → ℝ) :
    ∑ b, cellWeight c b * f (b e) = ∑ j, w1 (Int.fract (c e)) j * f j := by
  have h : ∀ b : Fin 3 → Fin 2, cellWeight c b * f (b e) =
      ∏ a, w1 (Int.fract (c a)) (b a) * (if a = e then f (b a) else 1) := by
    intro b
    rw [Finset.prod_mul_distrib, ← cellWeight_eq]
    congr 1
    simp
  simp only [h]
  rw [corner_sum (fun a j => w1 (Int.fract (c a)) j * if a = e then f j else 1)]
  rw [Finset.prod_eq_single e]
  · simp
  · intro a _ ha
    simp only [ha, if_false, mul_one, w1_sum]
  · simp

/-- The mean of the corners is the point. -/
lemma cellWeight_mean (c : Fin 3 → ℝ) (e : Fin 3) : ∑ b, cellWeight c b * (cellCorner c b e : ℝ) = c e := by
  have h := cellWeight_axis c e fun j => (⌊c e⌋ : ℝ) + (j.val : ℝ)
  have e1 : ∀ b : Fin 3 → Fin 2, ((cellCorner c b e : ℤ) : ℝ) = (⌊c e⌋ : ℝ) + ((b e).val : ℝ) := by
    intro b; simp [cellCorner]
  simp only [e1]
  rw [h]
  have := Int.floor_add_fract (c e)
  simp [w1]
  linarith

/-- Their mean squared distance to the point. -/
lemma cellWeight_var (c : Fin 3 → ℝ) (e : Fin 3) :
    ∑ b, cellWeight c b * ((cellCorner c b e : ℝ) - c e) ^ 2 ≤ 1 / 4 := by
  have h := cellWeight_axis c e fun j => ((⌊c e⌋ : ℝ) + (j.val : ℝ) - c e) ^ 2
  have e1 : ∀ b : Fin 3 → Fin 2, ((cellCorner c b e : ℤ) : ℝ) = (⌊c e⌋ : ℝ) + ((b e).val : ℝ) := by
    intro b; simp [cellCorner]
  simp only [e1]
  rw [h]
  have hf := Int.floor_add_fract (c e)
  have h0 : (⌊c e⌋ : ℝ) - c e = -Int.fract (c e) := by linarith
  have h1 : (⌊c e⌋ : ℝ) + 1 - c e = 1 - Int.fract (c e) := by linarith
  simp [w1, h0, h1]
  nlinarith [sq_nonneg (Int.fract (c e) - 1 / 2)]

/-- Interpolation of a constant. -/
lemma boxSample_const {V : Type*} [AddCommMonoid V] [Module ℝ V] {f : (Fin 3 → ℤ) → V} {c : Fin 3 → ℝ} {v : V}
    (h : ∀ b, f (cellCorner c b) = v) : boxSample f c = v := by
  simp only [boxSample, h]
  rw [← Finset.sum_smul, cellWeight_sum, one_smul]

/-! ### spec -/

/-- Euclidean distance. -/
def dist3 (x y : Fin 3 → ℝ) : ℝ := Real.sqrt (∑ a, (x a - y a) ^ 2)

/-- `phi` changes at most as fast as the position: a signed distance (negative inside). -/
def SignedDistance (phi : (Fin 3 → ℝ) → ℝ) : Prop := ∀ x y, |phi x - phi y| ≤ dist3 x y

/-- The voxels around `X` hold the signed distance `phi`, cut off at `±B` ("narrow band"). -/
def Holds (G : VdbGrid) (B : ℝ) (phi : (Fin 3 → ℝ) → ℝ) (X : Fin 3 → ℝ) : Prop :=
  ∀ k : Fin 3 → ℤ, (∀ a, |G.world k a - X a| ≤ G.h) → G.value k = max (-B) (min B (phi (G.world k)))

lemma clamp_lip (B x y : ℝ) : |max (-B) (min B x) - max (-B) (min B y)| ≤ |x - y| := by
  refine (abs_max_sub_max_le_max _ _ _ _).trans ?_
  rw [sub_self, abs_zero, max_eq_right (abs_nonneg _)]
  refine (abs_min_sub_min_le_max _ _ _ _).trans ?_
  rw [sub_self, abs_zero, max_eq_right (abs_nonneg _)]

lemma corner_near (G : VdbGrid) (hh : 0 < G.h) (X : Fin 3 → ℝ) (b a) :
    G.world (cellCorner (G.index X) b) a - X a = G.h * ((cellCorner (G.index X) b a : ℝ) - G.index X a) := by
  simp only [VdbGrid.world, VdbGrid.index]
  field_simp
  ring

lemma corner_close (G : VdbGrid) (hh : 0 < G.h) (X : Fin 3 → ℝ) (b a) :
    |G.world (cellCorner (G.index X) b) a - X a| ≤ G.h := by
  rw [corner_near G hh, abs_mul, abs_of_pos hh]
  have h1 := Int.floor_add_fract (G.index X a)
  have h2 := Int.fract_nonneg (G.index X a)
  have h3 := (Int.fract_lt_one (G.index X a)).le
  have : |(cellCorner (G.index X) b a : ℝ) - G.index X a| ≤ 1 := by
    have e : ((cellCorner (G.index X) b a : ℤ) : ℝ) = (⌊G.index X a⌋ : ℝ) + ((b a).val : ℝ) := by simp [cellCorner]
    rw [e, abs_le]
    have hb : ((b a).val : ℝ) ≤ 1 := by exact_mod_cast (show (b a).val ≤ 1 by omega)
    have hb0 : (0 : ℝ) ≤ ((b a).val : ℝ) := Nat.cast_nonneg _
    constructor <;> linarith
  nlinarith

/-- The interpolated level set differs from the true one by at most `√3/2` voxels. -/
lemma sample_error {G : VdbGrid} (hh : 0 < G.h) {psi : (Fin 3 → ℝ) → ℝ} (hpsi : SignedDistance psi) {X : Fin 3 → ℝ}
    (hG : ∀ b, G.value (cellCorner (G.index X) b) = psi (G.world (cellCorner (G.index X) b))) :
    |boxSample G.value (G.index X) - psi X| ≤ √3 / 2 * G.h := by
  set c := G.index X with hc
  have h3 : (0 : ℝ) < √3 := Real.sqrt_pos.mpr (by norm_num)
  have h33 : √3 * √3 = 3 := Real.mul_self_sqrt (by norm_num)
  set t := √3 / 2 * G.h with ht
  have htp : 0 < t := by positivity
  have htt : t ^ 2 = 3 / 4 * G.h ^ 2 := by rw [ht]; nlinarith
  have e1 : boxSample G.value c - psi X = ∑ b, cellWeight c b * (psi (G.world (cellCorner c b)) - psi X) := by
    simp only [mul_sub, Finset.sum_sub_distrib, ← Finset.sum_mul, cellWeight_sum, one_mul, boxSample, smul_eq_mul, hG]
  rw [e1]
  have key : ∀ b, |cellWeight c b * (psi (G.world (cellCorner c b)) - psi X)| ≤
      cellWeight c b * ((∑ a, (G.world (cellCorner c b) a - X a) ^ 2 + t ^ 2) / (2 * t)) := by
    intro b
    rw [abs_mul, abs_of_nonneg (cellWeight_nonneg c b)]
    refine mul_le_mul_of_nonneg_left ((hpsi _ _).trans ?_) (cellWeight_nonneg c b)
    unfold dist3
    set S := ∑ a, (G.world (cellCorner c b) a - X a) ^ 2
    have hS : 0 ≤ S := Finset.sum_nonneg fun a _ => sq_nonneg _
    rw [le_div_iff₀ (by positivity)]
    nlinarith [Real.sq_sqrt hS, sq_nonneg (√S - t)]
  refine (Finset.abs_sum_le_sum_abs _ _).trans ((Finset.sum_le_sum fun b _ => key b).trans ?_)
  have e2 : ∑ b, cellWeight c b * ((∑ a, (G.world (cellCorner c b) a - X a) ^ 2 + t ^ 2) / (2 * t)) =
      (G.h ^ 2 * ∑ a, ∑ b, cellWeight c b * ((cellCorner c b a : ℝ) - c a) ^ 2 + t ^ 2) / (2 * t) := by
    have : ∀ b, cellWeight c b * ((∑ a, (G.world (cellCorner c b) a - X a) ^ 2 + t ^ 2) / (2 * t)) =
        (G.h ^ 2 * ∑ a, cellWeight c b * ((cellCorner c b a : ℝ) - c a) ^ 2) / (2 * t) +
          cellWeight c b * (t ^ 2 / (2 * t)) := by
      intro b
      have e : ∑ a, (G.world (cellCorner c b) a - X a) ^ 2 = G.h ^ 2 * ∑ a, ((cellCorner c b a : ℝ) - c a) ^ 2 := by
        rw [Finset.mul_sum]
        refine Finset.sum_congr rfl fun a _ => ?_
        rw [hc, corner_near G hh]; ring
      rw [e, ← Finset.mul_sum]; ring
    simp only [this]
    rw [Finset.sum_add_distrib, ← Finset.sum_mul, cellWeight_sum, ← Finset.sum_div, ← Finset.mul_sum, Finset.sum_comm]
    ring
  rw [e2]
  have e3 : ∑ a : Fin 3, ∑ b, cellWeight c b * ((cellCorner c b a : ℝ) - c a) ^ 2 ≤ 3 / 4 := by
    refine (Finset.sum_le_sum fun a _ => cellWeight_var c a).trans ?_
    norm_num
  rw [div_le_iff₀ (by positivity)]
  nlinarith [sq_nonneg G.h]

/-! ### claims -/

variable {d : ℕ} {hd : d ≤ 3} {G : VdbGrid} {bc : BC} {μ : ℝ}

/-- **C96** The surface of a terrain from a level set file is at most `√3/2` voxels away from the true one. -/
theorem C96_surface (hh : 0 < G.h) {phi : (Fin 3 → ℝ) → ℝ} (hphi : SignedDistance phi) {B : ℝ} (hB : √3 / 2 * G.h < B)
    {X : Fin d → ℝ} (hG : Holds G B phi (inSpace X)) :
    (phi (inSpace X) < -(√3 / 2 * G.h) → (objectVdb hd G bc μ).inside X) ∧
    ((objectVdb hd G bc μ).inside X → phi (inSpace X) ≤ √3 / 2 * G.h) := by
  set psi : (Fin 3 → ℝ) → ℝ := fun x => max (-B) (min B (phi x)) with hpsi
  have hl : SignedDistance psi := fun x y => (clamp_lip _ _ _).trans (hphi x y)
  have he := sample_error (G := G) hh hl (X := inSpace X) fun b => hG _ fun a => corner_close G hh _ b a
  rw [abs_le] at he
  have h3 : 0 ≤ √3 / 2 * G.h := by positivity
  constructor
  · intro h
    show boxSample G.value (G.index (inSpace X)) ≤ 0
    have : psi (inSpace X) ≤ -(√3 / 2 * G.h) := max_le (by linarith) ((min_le_right _ _).trans h.le)
    linarith [he.2]
  · intro h
    have h : boxSample G.value (G.index (inSpace X)) ≤ 0 := h
    have h1 : psi (inSpace X) ≤ √3 / 2 * G.h := by linarith [he.1]
    have h2 : min B (phi (inSpace X)) ≤ √3 / 2 * G.h := (le_max_right _ _).trans h1
    rcases min_le_iff.mp h2 with h | h
    · linarith
    · exact h

/-- A plane: the signed distance to it is `n · x + b`. -/
def planeDist (n : Fin 3 → ℝ) (b : ℝ) (x : Fin 3 → ℝ) : ℝ := ∑ a, n a * x a + b

/-- The voxels around `X` are active, and they and their neighbours hold the distance to the plane. -/
def HoldsPlane (G : VdbGrid) (n : Fin 3 → ℝ) (b : ℝ) (X : Fin 3 → ℝ) : Prop :=
  (∀ k : Fin 3 → ℤ, (∀ a, |G.world k a - X a| ≤ G.h) → G.active k) ∧
  ∀ k : Fin 3 → ℤ, (∀ a, |G.world k a - X a| ≤ 2 * G.h) → G.value k = planeDist n b (G.world k)

lemma sample_plane (hh : 0 < G.h) {n : Fin 3 → ℝ} {b : ℝ} {X : Fin 3 → ℝ} (hG : HoldsPlane G n b X) :
    boxSample G.value (G.index X) = planeDist n b X := by
  have h1 : ∀ c, G.value (cellCorner (G.index X) c) = planeDist n b (G.world (cellCorner (G.index X) c)) := fun c =>
    hG.2 _ fun a => (corner_close G hh X c a).trans (by linarith)
  simp only [boxSample, h1, smul_eq_mul, planeDist, mul_add, Finset.sum_add_distrib, ← Finset.sum_mul, cellWeight_sum, one_mul]
  congr 1
  simp only [Finset.mul_sum]
  rw [Finset.sum_comm]
  refine Finset.sum_congr rfl fun a _ => ?_
  have h2 := cellWeight_mean (G.index X) a
  have h3 : ∀ c, cellWeight (G.index X) c * (n a * G.world (cellCorner (G.index X) c) a) =
      n a * (G.origin a * cellWeight (G.index X) c + G.h * (cellWeight (G.index X) c * (cellCorner (G.index X) c a : ℝ))) := by
    intro c; simp only [VdbGrid.world]; ring
  simp only [h3]
  rw [← Finset.mul_sum, Finset.sum_add_distrib, ← Finset.mul_sum, ← Finset.mul_sum, cellWeight_sum, h2]
  simp only [VdbGrid.index]
  field_simp
  ring

lemma grad_plane (hh : 0 < G.h) {n : Fin 3 → ℝ} {b : ℝ} {X : Fin 3 → ℝ} (hG : HoldsPlane G n b X) :
    boxSample G.grad (G.index X) = n := by
  refine boxSample_const fun c => ?_
  have hc := fun a => corner_close G hh X c a
  set k := cellCorner (G.index X) c
  have hnear : ∀ (e : Fin 3) (s : ℤ), |s| ≤ 1 → ∀ a, |G.world (Function.update k e (k e + s)) a - X a| ≤ 2 * G.h := by
    intro e s hs a
    have : G.world (Function.update k e (k e + s)) a - X a = (G.world k a - X a) + (if a = e then G.h * s else 0) := by
      by_cases ha : a = e
      · subst ha; simp [VdbGrid.world]; ring
      · simp [VdbGrid.world, ha]
    rw [this]
    refine (abs_add_le _ _).trans ?_
    have h2 : |if a = e then G.h * (s : ℝ) else 0| ≤ G.h := by
      split_ifs
      · rw [abs_mul, abs_of_pos hh]
        have : |(s : ℝ)| ≤ 1 := by exact_mod_cast hs
        nlinarith
      · simpa using hh.le
    linarith [hc a]
  unfold VdbGrid.grad
  rw [if_pos (hG.1 k hc)]
  funext e
  have hv : ∀ s : ℤ, |s| ≤ 1 → G.value (Function.update k e (k e + s)) =
      planeDist n b (G.world k) + n e * (G.h * s) := by
    intro s hs
    rw [hG.2 _ (hnear e s hs)]
    have hw : ∀ a, G.world (Function.update k e (k e + s)) a = G.world k a + (if a = e then G.h * s else 0) := by
      intro a
      by_cases ha : a = e
      · subst ha; simp [VdbGrid.world]; ring
      · simp [VdbGrid.world, ha]
    simp only [planeDist, hw, mul_add, Finset.sum_add_distrib, mul_ite, mul_zero, Finset.sum_ite_eq', Finset.mem_univ, if_true]
    ring
  have h1 := hv 1 (by simp)
  have h2 := hv (-1) (by simp)
  show (G.value (Function.update k e (k e + 1)) - G.value (Function.update k e (k e - 1))) / (2 * G.h) = n e
  rw [h1, show k e - 1 = k e + -1 from rfl, h2]
  push_cast
  field_simp
  ring

/-- **C96** A plane in a level set file is exactly the plane: a point is inside if and only if it is on or behind it, and the
normal there is the normal of the plane (in 2D: of its intersection with `z = 0`). -/
theorem C96_plane (hh : 0 < G.h) {n : Fin 3 → ℝ} {b : ℝ} {X : Fin d → ℝ} (hG : HoldsPlane G n b (inSpace X))
    (hn : ∃ a : Fin d, n (Fin.castLE hd a) ≠ 0) :
    ((objectVdb hd G bc μ).inside X ↔ planeDist n b (inSpace X) ≤ 0) ∧
    (objectVdb hd G bc μ).normal X =
      (1 / Real.sqrt (∑ a : Fin d, n (Fin.castLE hd a) ^ 2)) • fun a => n (Fin.castLE hd a) := by
  constructor
  · show boxSample G.value (G.index (inSpace X)) ≤ 0 ↔ _
    rw [sample_plane hh hG]
  · simp only [objectVdb, embed3_eq, grad_plane hh hG]
    have e : vnorm (fun a : Fin d => n (Fin.castLE hd a)) = Real.sqrt (∑ a : Fin d, n (Fin.castLE hd a) ^ 2) := by
      simp only [vnorm, dotProduct, sq]
    have hp : 0 < ∑ a : Fin d, n (Fin.castLE hd a) ^ 2 := by
      obtain ⟨a, ha⟩ := hn
      exact lt_of_lt_of_le (by positivity) (Finset.single_le_sum (f := fun a : Fin d => n (Fin.castLE hd a) ^ 2)
        (fun i _ => sq_nonneg _) (Finset.mem_univ a))
    rw [e, if_pos (Real.sqrt_pos.mpr hp).ne']

/-- **C96** Every normal has length one or zero. -/
theorem C96_normal (X : Fin d → ℝ) : (∑ a, (objectVdb hd G bc μ).normal X a ^ 2 = 1) ∨
    (objectVdb hd G bc μ).normal X = 0 := by
  simp only [objectVdb]
  split_ifs with h
  · left
    set r : Fin d → ℝ := fun a => boxSample G.grad (G.index (embed3 X)) (Fin.castLE hd a)
    have h2 : vnorm r ^ 2 = ∑ a, r a ^ 2 := by
      rw [vnorm, Real.sq_sqrt (dot_self_nonneg r)]
      simp [dotProduct, sq]
    simp only [Pi.smul_apply, smul_eq_mul, mul_pow, ← Finset.mul_sum]
    rw [← h2]
    field_simp
  · right; rfl

/-- **C96** Terrain from a level set file never speeds up a node. -/
theorem C96_energy {fr : ℝ → ℝ} (hμ : 0 ≤ fr μ) (X v : Fin d → ℝ) :
    let u := collideObjects fr X [objectVdb hd G bc μ] v
    ∑ a, u a ^ 2 ≤ ∑ a, v a ^ 2 := by
  have e : ∀ w : Fin d → ℝ, ∑ a, w a ^ 2 = w ⬝ᵥ w := fun w => by simp [dotProduct, sq]
  simp only [e]
  rcases C96_normal (hd := hd) (G := G) (bc := bc) (μ := μ) X with h | h
  · refine collideObjects_energy (fun o ho => ?_) (fun o ho _ => ?_) v
    · rw [List.mem_singleton.mp ho]; exact hμ
    · rw [List.mem_singleton.mp ho, ← e]; exact h
  · simp only [collideObjects, List.foldl_cons, List.foldl_nil, h]
    split_ifs
    · cases bc <;> simp [objectRel, objectVdb, dot_self_nonneg]
    · exact le_rfl

/-- **C96** Where no voxel around the node is active - deep inside a level set whose interior was not filled - there is no
normal, and terrain with slip does not act at all; without slip the node is stopped all the same. -/
theorem C96_unfilled {fr : ℝ → ℝ} {X v : Fin d → ℝ} (hh : 0 < G.h)
    (hG : ∀ k : Fin 3 → ℤ, (∀ a, |G.world k a - inSpace X a| ≤ G.h) → ¬ G.active k) (hin : (objectVdb hd G bc μ).inside X) :
    collideObjects fr X [objectVdb hd G bc μ] v = if bc = .noSlip then 0 else v := by
  have h0 : boxSample G.grad (G.index (inSpace X)) = 0 := boxSample_const fun c => by
    rw [VdbGrid.grad, if_neg (hG _ fun a => corner_close G hh _ c a)]
  have hn : (objectVdb hd G bc μ).normal X = 0 := by
    simp only [objectVdb, embed3_eq, h0]
    rw [if_neg]
    simp [vnorm, dotProduct]
  simp only [collideObjects, List.foldl_cons, List.foldl_nil, hn, if_pos hin]
  cases bc <;> simp [objectRel, objectVdb]

/-- The particles `s` of a level set sampled at the points `pts`: points deeper than `√3/2` voxels in the body are taken,
points more than that outside are not. -/
def SampledFrom (phi : (Fin 3 → ℝ) → ℝ) (h : ℝ) (pts : (Fin d → ℝ) → Prop) (s : Sampled d) : Prop :=
  (∀ p ∈ s.ps, pts p.x ∧ phi (inSpace p.x) ≤ √3 / 2 * h) ∧
  ∀ x, pts x → phi (inSpace x) < -(√3 / 2 * h) → ∃ p ∈ s.ps, p.x = x

/-- The points of a square or cubic lattice of spacing `l` that are at least half a spacing inside the box. -/
def LatticePoint (lo hi : Fin d → ℝ) (l : ℝ) (x : Fin d → ℝ) : Prop :=
  ∀ a, x a + l / 2 ≤ hi a ∧ ∃ k : ℕ, x a = lo a + ((k : ℝ) + 1 / 2) * l

lemma sampled_regular {rho dx ppc l : ℝ} {lo hi : Fin d → ℝ} {n : Fin d → ℕ} {s : Sampled d} {phi : (Fin 3 → ℝ) → ℝ} {B : ℝ}
    (hh : 0 < G.h) (hphi : SignedDistance phi) (hB : √3 / 2 * G.h < B) (hG : ∀ X, Holds G B phi X)
    (hs : RegularBox rho dx ppc lo (hi - lo) (objectVdb hd G bc μ).inside l n s) :
    0 < l ∧ l ^ d * ppc = dx ^ d ∧ SampledFrom phi G.h (LatticePoint lo hi l) s := by
  refine ⟨hs.pos, hs.ppc, ?_, ?_⟩
  · intro p hp
    have hx : p.x ∈ positions s := List.mem_map.mpr ⟨p, hp, rfl⟩
    obtain ⟨hin, k, hk, hxk⟩ := (hs.mem _).mp hx
    refine ⟨fun a => ⟨?_, k a, hxk a⟩, (C96_surface hh hphi hB (hG _)).2 hin⟩
    have := (C45_inside hs hx a).2
    simp only [Pi.sub_apply] at *
    linarith
  · intro x hx hdeep
    choose h1 k hxk using hx
    have hk : ∀ a, k a < n a := by
      intro a
      have h2 := (hs.fits a).2
      have h3 := h1 a
      rw [hxk a] at h3
      simp only [Pi.sub_apply] at h2
      have h4 : ((k a : ℝ) + 1) * l < (n a + 1) * l := by linarith
      have h5 := lt_of_mul_lt_mul_right h4 hs.pos.le
      have : (k a : ℝ) < n a := by linarith
      exact_mod_cast this
    have := (hs.mem x).mpr ⟨(C96_surface hh hphi hB (hG _)).1 hdeep, k, hk, hxk⟩
    obtain ⟨p, hp, rfl⟩ := List.mem_map.mp this
    exact ⟨p, hp, rfl⟩

section sampling
variable {rho dx ppc : ℝ} {lo hi : Fin 3 → ℤ} {phi : (Fin 3 → ℝ) → ℝ} {B : ℝ}

/-- **C96** Regular sampling of a level set in 2D (its intersection with `z = 0`): the lattice points in the box of active voxels
that are in the body, up to `√3/2` voxels. -/
theorem C96_regular2 {s : Sampled 2} (hh : 0 < G.h) (hphi : SignedDistance phi) (hB : √3 / 2 * G.h < B)
    (hG : ∀ X, Holds G B phi X) (hdx : 0 < dx) (hppc : 0 < ppc) (hb : ∀ a, lo a ≤ hi a)
    (hs : regularVdb2 rho dx ppc (G.bounds (by norm_num) lo hi).1 (G.bounds (by norm_num) lo hi).2
      (objectVdb (by norm_num) G bc μ).inside = some s) :
    ∃ l > 0, l ^ 2 * ppc = dx ^ 2 ∧ SampledFrom phi G.h
      (LatticePoint ![G.world lo 0, G.world lo 1] ![G.world hi 0, G.world hi 1] l) s := by
  obtain ⟨l, n, h⟩ := C45_regularVdb2 hdx hppc (fun i => by
    simp only [VdbGrid.bounds, VdbGrid.world]
    have : (lo (Fin.castLE (by norm_num) i) : ℝ) ≤ hi (Fin.castLE (by norm_num) i) := by exact_mod_cast hb _
    nlinarith) hs
  obtain ⟨h1, h2, h3⟩ := sampled_regular hh hphi hB hG h
  refine ⟨l, h1, h2, ?_⟩
  have e : ∀ k : Fin 3 → ℤ, (fun a : Fin 2 => G.world k (Fin.castLE (by norm_num) a)) = ![G.world k 0, G.world k 1] := by
    intro k; funext a; fin_cases a <;> rfl
  rw [← e, ← e]
  exact h3

/-- **C96** Regular sampling of a level set in 3D. -/
theorem C96_regular3 {s : Sampled 3} (hh : 0 < G.h) (hphi : SignedDistance phi) (hB : √3 / 2 * G.h < B)
    (hG : ∀ X, Holds G B phi X) (hdx : 0 < dx) (hppc : 0 < ppc) (hb : ∀ a, lo a ≤ hi a)
    (hs : regularVdb3 rho dx ppc (G.bounds le_rfl lo hi).1 (G.bounds le_rfl lo hi).2
      (objectVdb le_rfl G bc μ).inside = some s) :
    ∃ l > 0, l ^ 3 * ppc = dx ^ 3 ∧ SampledFrom phi G.h (LatticePoint (G.world lo) (G.world hi) l) s := by
  obtain ⟨l, n, h⟩ := C45_regularVdb3 hdx hppc (fun i => by
    simp only [VdbGrid.bounds, VdbGrid.world]
    have : (lo (Fin.castLE le_rfl i) : ℝ) ≤ hi (Fin.castLE le_rfl i) := by exact_mod_cast hb _
    nlinarith) hs
  obtain ⟨h1, h2, h3⟩ := sampled_regular hh hphi hB hG h
  exact ⟨l, h1, h2, h3⟩

/-- **C96** Random sampling of a level set in 2D: the points of the sampler that are in the body, up to `√3/2` voxels. -/
theorem C96_random2 {s : Sampled 2} {xs : List (Fin 2 → ℝ)} (hh : 0 < G.h) (hphi : SignedDistance phi) (hB : √3 / 2 * G.h < B)
    (hG : ∀ X, Holds G B phi X)
    (hs : sampleVdb2 rho ppc (G.bounds (by norm_num) lo hi).1 (G.bounds (by norm_num) lo hi).2
      (objectVdb (by norm_num) G bc μ).inside xs = some s) : SampledFrom phi G.h (· ∈ xs) s := by
  have h := C46_randomVdb2 hs
  constructor
  · intro p hp
    have := (h.kept.2 p.x).mp (List.mem_map.mpr ⟨p, hp, rfl⟩)
    exact ⟨this.1, (C96_surface hh hphi hB (hG _)).2 this.2⟩
  · intro x hx hdeep
    have := (h.kept.2 x).mpr ⟨hx, (C96_surface hh hphi hB (hG _)).1 hdeep⟩
    obtain ⟨p, hp, rfl⟩ := List.mem_map.mp this
    exact ⟨p, hp, rfl⟩

/-- **C96** Random sampling of a level set in 3D. -/
theorem C96_random3 {s : Sampled 3} {xs : List (Fin 3 → ℝ)} (hh : 0 < G.h) (hphi : SignedDistance phi) (hB : √3 / 2 * G.h < B)
    (hG : ∀ X, Holds G B phi X) (hppc : 0 < ppc) (hb : ∀ a, lo a ≤ hi a)
    (hs : sampleVdb3 rho ppc (G.bounds le_rfl lo hi).1 (G.bounds le_rfl lo hi).2
      (objectVdb le_rfl G bc μ).inside xs = some s) : SampledFrom phi G.h (· ∈ xs) s := by
  have h := C46_randomVdb3 hppc (fun i => by
    simp only [VdbGrid.bounds, VdbGrid.world]
    have : (lo (Fin.castLE le_rfl i) : ℝ) ≤ hi (Fin.castLE le_rfl i) := by exact_mod_cast hb _
    nlinarith) hs
  constructor
  · intro p hp
    have := (h.kept.2 p.x).mp (List.mem_map.mpr ⟨p, hp, rfl⟩)
    exact ⟨this.1, (C96_surface hh hphi hB (hG _)).2 this.2⟩
  · intro x hx hdeep
    have := (h.kept.2 x).mpr ⟨hx, (C96_surface hh hphi hB (hG _)).1 hdeep⟩
    obtain ⟨p, hp, rfl⟩ := List.mem_map.mp this
    exact ⟨p, hp, rfl⟩

end sampling

/-- **C96** The grid used is the last one in the file. -/
theorem C96_file (file : List (Option VdbGrid)) (g : Option VdbGrid) : vdbLoad (file ++ [g]) = g := by
  simp [vdbLoad]

/-! ### examples -/

/-- The level set of a slope, with voxels of size 1/10, cut off at 3/10, active where it is not cut off. -/
def slopeFile : VdbGrid where
  h := 1 / 10
  origin := 0
  value k := max (-(3 / 10)) (min (3 / 10) (3 / 5 * (k 0 / 10) + 4 / 5 * (k 1 / 10)))
  active k := |3 / 5 * (k 0 / 10 : ℝ) + 4 / 5 * (k 1 / 10)| < 3 / 10

/-- The slope. -/
def slope (x : Fin 3 → ℝ) : ℝ := 3 / 5 * x 0 + 4 / 5 * x 1

lemma slope_dist : SignedDistance slope := by
  intro x y
  have h := Real.abs_le_sqrt (x := slope x - slope y) (y := ∑ a, (x a - y a) ^ 2) (by
    rw [Fin.sum_univ_three]
    simp only [slope]
    nlinarith [sq_nonneg (4 / 5 * (x 0 - y 0) - 3 / 5 * (x 1 - y 1)), sq_nonneg (x 2 - y 2)])
  exact h

lemma slope_holds (X : Fin 3 → ℝ) : Holds slopeFile (3 / 10) slope X := by
  intro k _
  simp only [slopeFile, slope, VdbGrid.world, Pi.zero_apply]
  ring_nf

lemma sqrt3_lt : √3 < 2 := (Real.sqrt_lt' (by norm_num)).mpr (by norm_num)

/-- `C96_surface` for the slope: a point one length deep is inside, a point one length above is not. -/
example (bc : BC) : (objectVdb (d := 2) (by norm_num) slopeFile bc 0).inside ![-3 / 5, -4 / 5] ∧
    ¬ (objectVdb (d := 2) (by norm_num) slopeFile bc 0).inside ![3 / 5, 4 / 5] := by
  have hh : (0 : ℝ) < slopeFile.h := by norm_num [slopeFile]
  have he : slopeFile.h = 1 / 10 := rfl
  have h3 := sqrt3_lt
  have hB : √3 / 2 * slopeFile.h < 3 / 10 := by rw [he]; linarith
  refine ⟨(C96_surface hh slope_dist hB (slope_holds _)).1 ?_, fun h => ?_⟩
  · rw [he]; simp [slope, inSpace]; norm_num; linarith
  · have := (C96_surface hh slope_dist hB (slope_holds _)).2 h
    rw [he] at this
    simp [slope, inSpace] at this
    norm_num at this
    linarith

/-- `C96_unfilled` for the slope: one length deep frictionless terrain does not act. -/
example (v : Fin 2 → ℝ) : collideObjects id ![-3 / 5, -4 / 5] [objectVdb (by norm_num) slopeFile .slipStick 0] v = v := by
  have hh : (0 : ℝ) < slopeFile.h := by norm_num [slopeFile]
  have he : slopeFile.h = 1 / 10 := rfl
  have h3 := sqrt3_lt
  have hB : √3 / 2 * slopeFile.h < 3 / 10 := by rw [he]; linarith
  refine (C96_unfilled hh (fun k hk ha => ?_) ((C96_surface hh slope_dist hB (slope_holds _)).1 ?_)).trans (if_neg (by simp))
  · have h0 := abs_le.mp (hk 0)
    have h1 := abs_le.mp (hk 1)
    simp only [slopeFile, VdbGrid.world, inSpace, Pi.zero_apply] at h0 h1 ha
    have := abs_lt.mp ha
    norm_num at h0 h1
    linarith [h0.2, h1.2, this.1]
  · rw [he]; simp [slope, inSpace]; norm_num; linarith

/-- `C96_plane` for the slope at the origin. -/
example (bc : BC) : (objectVdb (d := 2) (by norm_num) slopeFile bc 0).inside 0 ∧
    (objectVdb (d := 2) (by norm_num) slopeFile bc 0).normal 0 = ![3 / 5, 4 / 5] := by
  have hh : (0 : ℝ) < slopeFile.h := by norm_num [slopeFile]
  have hG : HoldsPlane slopeFile ![3 / 5, 4 / 5, 0] 0 (inSpace (0 : Fin 2 → ℝ)) := by
    have hb : ∀ c : ℝ, ∀ k : Fin 3 → ℤ, (∀ a, |slopeFile.world k a - inSpace (0 : Fin 2 → ℝ) a| ≤ c * slopeFile.h) →
        |(k 0 / 10 : ℝ)| ≤ c / 10 ∧ |(k 1 / 10 : ℝ)| ≤ c / 10 := by
      intro c k hk
      have h0 := hk 0
      have h1 := hk 1
      simp only [slopeFile, VdbGrid.world, inSpace, Pi.zero_apply] at h0 h1
      norm_num at h0 h1
      constructor
      · rw [show (k 0 / 10 : ℝ) = 1 / 10 * k 0 by ring, abs_mul, abs_of_pos (by norm_num : (0 : ℝ) < 1 / 10)]; linarith
      · rw [show (k 1 / 10 : ℝ) = 1 / 10 * k 1 by ring, abs_mul, abs_of_pos (by norm_num : (0 : ℝ) < 1 / 10)]; linarith
    constructor
    · intro k hk
      obtain ⟨h0, h1⟩ := hb 1 k (by simpa using hk)
      have h0 := abs_le.mp h0
      have h1 := abs_le.mp h1
      show |_| < _
      rw [abs_lt]
      constructor <;> linarith [h0.1, h0.2, h1.1, h1.2]
    · intro k hk
      obtain ⟨h0, h1⟩ := hb 2 k hk
      have h0 := abs_le.mp h0
      have h1 := abs_le.mp h1
      have e : planeDist ![3 / 5, 4 / 5, 0] 0 (slopeFile.world k) = 3 / 5 * (k 0 / 10) + 4 / 5 * (k 1 / 10) := by
        simp [planeDist, Fin.sum_univ_three, slopeFile, VdbGrid.world]; ring
      rw [e]
      show max _ (min _ _) = _
      rw [min_eq_right (by linarith [h0.2, h1.2]), max_eq_right (by linarith [h0.1, h1.1])]
  obtain ⟨h1, h2⟩ := C96_plane (hd := show 2 ≤ 3 by norm_num) (bc := bc) (μ := 0) hh hG ⟨0, by norm_num⟩
  refine ⟨h1.mpr (by simp [planeDist, inSpace]), h2.trans ?_⟩
  have e : ∑ a : Fin 2, (![3 / 5, 4 / 5, 0] : Fin 3 → ℝ) (Fin.castLE (by norm_num) a) ^ 2 = 1 := by
    rw [Fin.sum_univ_two]
    show (3 / 5 : ℝ) ^ 2 + (4 / 5) ^ 2 = 1
    norm_num
  rw [e]
  funext a
  fin_cases a <;> simp

/-- `C96_regular2` for the slope between the voxels (-10, -10) and (10, 10): the sampling succeeds, so the claim is about
actual particles. -/
example (bc : BC) : ∃ s l, regularVdb2 1000 (1 / 10) 4 (slopeFile.bounds (by norm_num) ![-10, -10, 0] ![10, 10, 0]).1
      (slopeFile.bounds (by norm_num) ![-10, -10, 0] ![10, 10, 0]).2 (objectVdb (by norm_num) slopeFile bc 0).inside = some s ∧
    l ^ 2 * 4 = (1 / 10) ^ 2 ∧ SampledFrom slope slopeFile.h (LatticePoint
      ![slopeFile.world ![-10, -10, 0] 0, slopeFile.world ![-10, -10, 0] 1]
      ![slopeFile.world ![10, 10, 0] 0, slopeFile.world ![10, 10, 0] 1] l) s := by
  have hh : (0 : ℝ) < slopeFile.h := by norm_num [slopeFile]
  have he : slopeFile.h = 1 / 10 := rfl
  have h3 := sqrt3_lt
  have hB : √3 / 2 * slopeFile.h < 3 / 10 := by rw [he]; linarith
  have h4 : √(4 : ℝ) = 2 := by rw [show (4 : ℝ) = 2 ^ 2 by norm_num]; exact Real.sqrt_sq (by norm_num)
  obtain ⟨s, hs⟩ : ∃ s, regularVdb2 1000 (1 / 10) 4 (slopeFile.bounds (by norm_num) ![-10, -10, 0] ![10, 10, 0]).1
      (slopeFile.bounds (by norm_num) ![-10, -10, 0] ![10, 10, 0]).2 (objectVdb (by norm_num) slopeFile bc 0).inside = some s := by
    have p0 : pointCount 2 (1 / 10 / 2) = some 40 := by
      rw [pointCount, fdiv, if_neg (by norm_num), Option.bind_some, castInt, if_pos (by norm_num), if_pos (by norm_num)]
      norm_num
    have e0 : ∀ a : Fin 2, ((slopeFile.bounds (show 2 ≤ 3 by norm_num) ![-10, -10, 0] ![10, 10, 0]).2 -
        (slopeFile.bounds (show 2 ≤ 3 by norm_num) ![-10, -10, 0] ![10, 10, 0]).1) a = 2 := by
      intro a
      fin_cases a <;> simp [VdbGrid.bounds, VdbGrid.world, slopeFile] <;> norm_num
    have f1 : fsqrt 4 = some 2 := by rw [fsqrt, if_neg (by norm_num), h4]
    have f2 : fdiv (1 / 10) 2 = some (1 / 10 / 2) := by rw [fdiv, if_neg (by norm_num)]
    simp only [regularVdb2, e0, p0, f1, f2, Option.bind_eq_bind, Option.bind_some]
    exact ⟨_, rfl⟩
  obtain ⟨l, _, h1, h2⟩ := C96_regular2 hh slope_dist hB (fun X => slope_holds X) (by norm_num) (by norm_num)
    (by intro a; fin_cases a <;> norm_num) hs
  exact ⟨s, l, hs, h1, h2⟩

end
end Verif.Props
