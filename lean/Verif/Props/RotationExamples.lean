import Verif.Props.Rotation

/-!
# C115: an example in three dimensions
-/

namespace Verif.Props.RunEx
open Verif Matrix
noncomputable section

/-- An elastic material in space, quadratic splines, spacing 1, AFLIP, no walls. -/
def space (musl : Bool) : Setup 3 where
  C := ⟨1, true, true, false, 0, 1 / 1000, 1, 1 / 2, 1 / 2, 1, 1, 1⟩
  S := ⟨mkTransferParams .two 1 (-19 / 20) false 3 1, musl, false, false, 1, none⟩
  m := Ex.mat .noPlasticity
  objs := []
  ops := plateOps3
  cabs := abs
  svd := someSvd
  sched := fun _ ps => [ps]

/-- Two particles that turn about the axis `(1, 2, 2)`, on which the first of them lies. -/
def top : List (Particle 3 ℝ) :=
  [{ Particle.init with Bmat := (1 / 4 : ℝ) • spinning3 ![1, 2, 2] },
    { Particle.init with x := ![1, 0, 0], v := ![0, 2, -2], Bmat := (1 / 4 : ℝ) • spinning3 ![1, 2, 2] }]

lemma top_moves : MovesAffinely (apicInertia .two 1) 0 (spinning3 ![1, 2, 2]) top := by
  have hI : apicInertia .two 1 = 1 / 4 := by unfold apicInertia; rw [if_neg (by decide)]; norm_num
  rw [hI]
  constructor <;> intro p hp <;> simp only [top, List.mem_cons, List.not_mem_nil, or_false] at hp <;> rcases hp with rfl | rfl
  · ext a; fin_cases a <;> simp [Particle.init]
  · ext a; fin_cases a <;> simp [spinning3, mulVec, dotProduct, Fin.sum_univ_three]
  · rfl
  · rfl

lemma top_pos : ∀ p ∈ top, ∀ a, ∃ k : ℤ, p.x a = k := by
  intro p hp a
  simp only [top, List.mem_cons, List.not_mem_nil, or_false] at hp
  rcases hp with rfl | rfl
  · exact ⟨0, by simp [Particle.init]⟩
  · fin_cases a
    · exact ⟨1, by simp⟩
    · exact ⟨0, by simp⟩
    · exact ⟨0, by simp⟩

lemma int_noTiny3 {g : Axes 3 ℝ} {ps : List (Particle 3 ℝ)} (hpos : ∀ p ∈ ps, ∀ a, ∃ k : ℤ, p.x a = k)
    (hnode : ∀ i, IsNode g i → ∀ a, ∃ k : ℤ, nodeAt g i a = k) : NoTinyWeights .two 1 g ps := by
  intro q hq j hj
  have hN : ∀ a, N .two ((q.x a - nodeAt g j a) / 1) = 0 ∨ 1 / 8 ≤ N .two ((q.x a - nodeAt g j a) / 1) := by
    intro a
    obtain ⟨i, hi⟩ := hpos q hq a
    obtain ⟨z, hz⟩ := hnode j hj a
    have : (q.x a - nodeAt g j a) / 1 = ((i - z : ℤ) : ℝ) := by rw [hi, hz]; push_cast; ring
    rw [this]
    exact N2_int _
  simp only [shape, Fin.prod_univ_three]
  rcases hN 0 with h0 | h0
  · left; rw [h0, zero_mul, zero_mul]
  rcases hN 1 with h1 | h1
  · left; rw [h1, mul_zero, zero_mul]
  rcases hN 2 with h2 | h2
  · left; rw [h2, mul_zero]
  right
  have h3 := mul_le_mul h0 h1 (by norm_num) (by linarith)
  have h4 := mul_le_mul h3 h2 (by norm_num) ((by norm_num : (0 : ℝ) ≤ 1 / 8 * (1 / 8)).trans h3)
  refine lt_of_lt_of_le ?_ h4
  norm_num

/-- The first step of the top. -/
lemma top_step (musl : Bool) : ∃ w' ex, physStep (d := 1) (space musl) (.gridless top []) (1 / 10) 0 0 0 = some (w', ex) := by
  obtain ⟨r, hr, hG, -⟩ := C13_first_step (ps := top) .two (one_pos (α := ℝ)) none (by simp [top])
  have hbg : chooseGrid (space musl).S ⟨top, none, fun _ => [], 0⟩ = some (some r.1, r.2) := by
    simp only [chooseGrid, space, Bool.false_eq_true, if_false, if_true]
    rw [show (mkTransferParams Deg.two (1 : ℝ) (-19 / 20) false 3 1).dx = 1 from rfl, hr]
    rfl
  obtain ⟨⟨w', ex⟩, h⟩ := physStep_isSome (R := space musl) (w := .gridless top []) (dt := 1 / 10) (grav := 0) (time := 0) (n := 0)
    (robust_defined (d := 1) (.inl (.inl ⟨rfl, rfl⟩)) (by norm_num)) fun bc => by
      obtain ⟨F, hF, -⟩ := stepOnGrid_eq (d := 1) (S := (space musl).S) (dx := 1) (dt := 1 / 10) (grav := 0) (bc := bc)
        (threads := (space musl).sched 0 top) rfl rfl hG (by simp [space]) (plastTotal_keeps (space musl) (1 / 10))
      have hp : (space musl).S.pbc = false := rfl
      simp only [advanceStep, World.gridless, hbg, hp, Bool.false_eq_true, if_false, List.append_nil,
        Option.bind_eq_bind, Option.bind_some, hF]
      exact ⟨_, rfl⟩
  exact ⟨w', ex, h⟩

/-- `C115_space`: after the first step the top is under tension in all directions perpendicular to its axis. -/
example (musl : Bool) : ∃ w' ex, physStep (d := 1) (space musl) (.gridless top []) (1 / 10) 0 0 0 = some (w', ex) ∧
    ∀ q ∈ w'.ps, q.tau *ᵥ ![1, 2, 2] = ((space musl).m.lam * Real.log (109 / 100)) • ![1, 2, 2] ∧
      q.tau *ᵥ ![0, 1, -1] = (((space musl).m.lam + (space musl).m.mu) * Real.log (109 / 100)) • ![0, 1, -1] := by
  obtain ⟨w', ex, h⟩ := top_step musl
  refine ⟨w', ex, h, fun q hq => ?_⟩
  obtain ⟨r, hr, -⟩ := C13_first_step (ps := top) .two (one_pos (α := ℝ)) none (by simp [top])
  have hlat : ∀ a, ∀ y ∈ w'.g a, ∃ k : ℤ, y = (r.1 a).minInit + k * 1 := by
    obtain ⟨fr', hadv⟩ := physStep_advance h
    simp only [advanceStep, Option.bind_eq_bind, Option.bind_eq_some_iff] at hadv
    obtain ⟨bg, hbg, ps, -, hσ⟩ := hadv
    injection hσ with hσ
    injection hσ with _ _ hgg _
    rw [← hgg]
    exact (box_choose (d := 1) (R := space musl) (s := ⟨.gridless top [], 0, 0, 0, 0, []⟩) (w := .gridless top []) (n := 0) one_pos rfl
      (by simp [World.gridless, top]) hr ⟨fun _ => rfl, fun h => absurd rfl h⟩ hbg).2
  have hnode : ∀ i, IsNode w'.g i → ∀ a, ∃ k : ℤ, nodeAt w'.g i a = k := by
    intro j hj a
    obtain ⟨k, hk⟩ := hlat a _ (List.getElem_mem (hj a))
    have hz : ∃ z : ℤ, (r.1 a).minInit = z := by
      rcases (C13_box (by simp [top]) hr a).1.1 with ⟨x, hx, e⟩ | ⟨r, hr, _⟩
      · obtain ⟨q, hq, rfl⟩ := List.mem_map.mp hx
        obtain ⟨j, hj⟩ := top_pos q hq a
        exact ⟨j, by rw [← e, hj]⟩
      · cases hr
    obtain ⟨z, hz⟩ := hz
    refine ⟨z + k, ?_⟩
    rw [nodeAt, List.getD_eq_getElem?_getD, List.getElem?_eq_getElem (hj a), Option.getD_some, hk, hz]
    push_cast; ring
  have hfree : ∀ p ∈ top, p.tau = 0 ∧ p.F * p.Fᵀ = 1 := by
    intro p hp
    simp only [top, List.mem_cons, List.not_mem_nil, or_false] at hp
    rcases hp with rfl | rfl <;> exact ⟨rfl, by simp [Particle.init]⟩
  obtain ⟨h1, h2⟩ := C115_space (R := space musl) (w := .gridless top []) (deg := .two) (dx := 1) (fr := -19 / 20) (m := 3) (vol := 1)
    (mibf := false) (ω := ![1, 2, 2]) (a := 0) (o := fun a => (r.1 a).minInit) rfl (by simp) one_pos (by norm_num) (by norm_num) rfl rfl rfl
    rfl (fun _ => by simp [space]) h hlat (int_noTiny3 top_pos hnode) top_moves (fun p hp => (hfree p hp).1) (fun p hp => (hfree p hp).2)
    someSvd_isSvd rfl rfl q hq
  have hω : (1 : ℝ) + (![1, 2, 2] ⬝ᵥ ![1, 2, 2]) * (1 / 10) ^ 2 = 109 / 100 := by
    simp [dotProduct, Fin.sum_univ_three]; norm_num
  rw [hω] at h1 h2
  exact ⟨h1, h2 _ (by simp [dotProduct, Fin.sum_univ_three])⟩

end
end Verif.Props.RunEx
