import Verif.Model.Checks
import Verif.Lemmas.Hencky
import Verif.Props.Transfer
import Mathlib.Analysis.InnerProductSpace.PiL2

set_option linter.unusedSectionVars false
set_option linter.unusedSimpArgs false
set_option linter.unusedVariables false

/-!
# C111: the built-in conservation checks

The mass check never stops a run whose particles are on the grid. The momentum check stops a run only
if the momenta of the particles cancel to thirteen digits; it does so wrongly for two particles moving
in opposite directions. The override of the grid velocity opens a band at the top and one at the bottom.
-/

namespace Verif.Props
open Verif Matrix

namespace Checks

lemma foldl_add {α M : Type*} [AddCommMonoid M] (f : α → M) (L : List α) (a : M) :
    L.foldl (fun acc x => acc + f x) a = a + (L.map f).sum := by
  induction L generalizing a with
  | nil => simp
  | cons x L ih => rw [List.foldl_cons, ih, List.map_cons, List.sum_cons, add_assoc]

lemma foldl_add_zero {α M : Type*} [AddCommMonoid M] (f : α → M) (L : List α) :
    L.foldl (fun acc x => acc + f x) 0 = (L.map f).sum := by rw [foldl_add, zero_add]

lemma sum_range {M : Type*} [AddCommMonoid M] (f : ℕ → M) (n : ℕ) :
    ((List.range n).map f).sum = ∑ l ∈ Finset.range n, f l := by
  induction n with
  | zero => simp
  | succ n ih => rw [List.range_succ, List.map_append, List.sum_append, ih, Finset.sum_range_succ]; simp

variable {d : ℕ}

lemma gridMass (n : ℕ) (arr : GridArr d ℝ) :
    (List.range n).foldl (fun acc l => acc + (arr l).mass) 0 = ∑ l ∈ Finset.range n, (arr l).mass := by
  rw [foldl_add_zero, sum_range]

lemma gridMomentum (n : Fin d → ℕ) (arr : GridArr d ℝ) :
    (allNodes n).foldl (fun acc i => acc + (arr (flatIndex n i)).mass • (arr (flatIndex n i)).v) 0 =
      ∑ l ∈ Finset.range (gridNodes n), (arr l).mass • (arr l).v := by
  rw [foldl_add_zero, ← sum_range, ← map_flatIndex_allNodes, List.map_map]; rfl

lemma partMomentum (m : ℝ) (ps : List (Particle d ℝ)) :
    ps.foldl (fun acc p => acc + m • p.v) 0 = momentum m ps := by rw [foldl_add_zero]; rfl

lemma vnorm_eq (v : Fin d → ℝ) : vnorm v = ‖WithLp.toLp 2 v‖ := by
  rw [EuclideanSpace.norm_eq, vnorm, dotProduct]
  congr 1
  exact Finset.sum_congr rfl fun i _ => by rw [Real.norm_eq_abs, sq_abs, sq]

lemma vnorm_add (v w : Fin d → ℝ) : vnorm (v + w) ≤ vnorm v + vnorm w := by
  simp only [vnorm_eq]
  exact norm_add_le (WithLp.toLp 2 v) (WithLp.toLp 2 w)

lemma vnorm_zero : vnorm (0 : Fin d → ℝ) = 0 := by simp [vnorm]

lemma vnorm_sum {ι : Type*} (L : List ι) (f : ι → Fin d → ℝ) :
    vnorm (L.map f).sum ≤ (L.map fun a => vnorm (f a)).sum := by
  induction L with
  | nil => simp [vnorm_zero]
  | cons a L ih =>
    simp only [List.map_cons, List.sum_cons]
    exact (vnorm_add _ _).trans (by linarith)

end Checks
open Checks

variable {d : ℕ} {deg : Deg} {dx fr m vol : ℝ} {mibf : Bool} {g : Axes d ℝ}
  {threads : List (List (Particle d ℝ))}

/-- **C111** The mass check prints the two totals under their names and never raises the flag. -/
theorem C111_mass (hd : d ≤ 3) (h : GoodGrid dx g threads.flatten) (hm : 0 ≤ m) (exit0 : Bool)
    {arr : GridArr d ℝ} (harr : P2G (mkTransferParams deg dx fr mibf m vol) g threads = some arr) :
    (checkMassConservation (gridNodes g.size) arr m threads.flatten exit0).exit = exit0 ∧
    (checkMassConservation (gridNodes g.size) arr m threads.flatten exit0).printed =
      [("Total grid mass", ∑ l ∈ Finset.range (gridNodes g.size), (arr l).mass),
       ("Total part mass", m * threads.flatten.length)] := by
  obtain ⟨arr', b1, b2, b3, -⟩ := C01_bounds (deg := deg) (fr := fr) (mibf := mibf) (vol := vol) h hm
  obtain rfl := Option.some.inj (harr.symm.trans b1)
  simp only [checkMassConservation, gridMass]
  refine ⟨if_neg (not_lt.mpr ?_), trivial⟩
  have h4 : (4 : ℝ) ^ d ≤ 64 := by
    calc (4 : ℝ) ^ d ≤ 4 ^ 3 := pow_le_pow_right₀ (by norm_num) hd
      _ = 64 := by norm_num
  have hN : 0 ≤ (threads.flatten.length : ℝ) * m := mul_nonneg (Nat.cast_nonneg _) hm
  rw [abs_le]
  constructor
  · have : (threads.flatten.length : ℝ) * m * (4 ^ d * (1 / 10 ^ 25)) ≤
        threads.flatten.length * m * (1 / 10 ^ 10) :=
      mul_le_mul_of_nonneg_left (by nlinarith) hN
    nlinarith
  · nlinarith

/-- **C111** With no weight below the cut-off (every `flip_ratio`) the momentum check never raises the
flag. Missing for the full claim: configurations with tiny weights (see the next theorems). -/
theorem C111_momentum_partial (h : GoodGrid dx g threads.flatten)
    (hn : NoTinyWeights deg dx g threads.flatten) (exit0 : Bool)
    {arr : GridArr d ℝ} (harr : P2G (mkTransferParams deg dx fr mibf m vol) g threads = some arr) :
    (checkMomentumConservation g.size arr m threads.flatten exit0).exit = exit0 := by
  obtain ⟨arr', b1, b2⟩ := C02_momentum (deg := deg) (fr := fr) (mibf := mibf) (m := m) (vol := vol) h hn
  obtain rfl := Option.some.inj (harr.symm.trans b1)
  simp only [checkMomentumConservation, gridMomentum, partMomentum, b2]
  refine if_neg (not_lt.mpr ?_)
  rw [show (threads.flatten.map fun p => m • p.v).sum = momentum m threads.flatten from rfl, sub_self,
    vnorm_zero]
  exact mul_nonneg (by positivity) (vnorm_nonneg _)

/-- **C111** The labels of the two printed momenta are exchanged. -/
theorem C111_labels (n : Fin d → ℕ) (arr : GridArr d ℝ) (ps : List (Particle d ℝ)) (exit0 : Bool) :
    (checkMomentumConservation n arr m ps exit0).printed =
      [("Total part momentum", vnorm (∑ l ∈ Finset.range (gridNodes n), (arr l).mass • (arr l).v)),
       ("Total grid momentum", vnorm (momentum m ps))] := by
  simp only [checkMomentumConservation, gridMomentum, partMomentum]

namespace Checks

/-- The part of a particle's mass that falls below the cut-off. -/
noncomputable def lost (deg : Deg) (dx : ℝ) (g : Axes d ℝ) (x : Fin d → ℝ) : ℝ :=
  ∑ c, if (stencilOf deg dx g x).weight c > cutoff then 0 else (stencilOf deg dx g x).weight c

lemma lost_nonneg {p : Particle d ℝ} {ps} (h : GoodGrid dx g ps) (hp : p ∈ ps) :
    0 ≤ lost deg dx g p.x := by
  refine Finset.sum_nonneg fun c _ => ?_
  split_ifs
  · exact le_rfl
  · exact (h.good (deg := deg) hp).ok.weight_nonneg c

lemma lost_le (x : Fin d → ℝ) : lost deg dx g x ≤ 4 ^ d * (1 / 10 ^ 25) := by
  have : lost deg dx g x ≤ ∑ c : Fin d → Fin 4, (cutoff : ℝ) := by
    refine Finset.sum_le_sum fun c _ => ?_
    split_ifs with hc
    · exact cutoff_pos.le
    · exact not_lt.mp hc
  refine this.trans (le_of_eq ?_)
  simp [cutoff]

lemma grid_momentum (hfr : 0 ≤ fr) (h : GoodGrid dx g threads.flatten) :
    ∃ arr, P2G (mkTransferParams deg dx fr mibf m vol) g threads = some arr ∧
      ∑ l ∈ Finset.range (gridNodes g.size), (arr l).mass • (arr l).v - momentum m threads.flatten =
        (threads.flatten.map fun p => (-(m * lost deg dx g p.x)) • p.v).sum := by
  refine ⟨_, P2G_eq (deg := deg) rfl rfl h, ?_⟩
  set P := mkTransferParams deg dx fr mibf m vol with hP
  have hf : ¬ P.flipRatio < 0 := not_lt.mpr hfr
  simp only [finish_momentum, ← Finset.smul_sum]
  have := sum_raw (P := P) (deg := deg) h (fun _ => Cell.vHom)
  simp only [Cell.vHom_apply] at this
  rw [this]
  have e : ∀ p ∈ threads.flatten, (∑ c, if (stencilOf deg dx g p.x).weight c > cutoff then
      (contribution P p (stencilOf deg dx g p.x) c).v else 0) = (1 - lost deg dx g p.x) • p.v := by
    intro p hp
    rw [← (h.good (deg := deg) hp).ok.sum_weight, lost, ← Finset.sum_sub_distrib, Finset.sum_smul]
    refine Finset.sum_congr rfl fun c _ => ?_
    simp only [contribution, if_neg hf, add_zero]
    split_ifs <;> simp
  rw [List.map_congr_left e]
  have hm : P.particleMass = m := rfl
  rw [hm, momentum, List.smul_sum, List.map_map]
  generalize threads.flatten = L
  induction L with
  | nil => simp
  | cons p L ih =>
    simp only [List.map_cons, List.sum_cons, Function.comp] at ih ⊢
    rw [← ih]
    ext a
    simp only [Pi.sub_apply, Pi.add_apply, Pi.smul_apply, smul_eq_mul]
    ring

end Checks

/-- **C111** With PIC/FLIP the momentum check raises the flag only if the momenta of the particles
cancel to more than thirteen digits. -/
theorem C111_momentum_digits (hd : d ≤ 3) (hfr : 0 ≤ fr) (h : GoodGrid dx g threads.flatten) (hm : 0 ≤ m)
    (hcancel : (threads.flatten.map fun p => m * vnorm p.v).sum ≤ 10 ^ 13 * vnorm (momentum m threads.flatten))
    (exit0 : Bool) {arr : GridArr d ℝ}
    (harr : P2G (mkTransferParams deg dx fr mibf m vol) g threads = some arr) :
    (checkMomentumConservation g.size arr m threads.flatten exit0).exit = exit0 := by
  obtain ⟨arr', b1, b2⟩ := grid_momentum (deg := deg) (mibf := mibf) (m := m) (vol := vol) hfr h
  obtain rfl := Option.some.inj (harr.symm.trans b1)
  simp only [checkMomentumConservation, gridMomentum, partMomentum, b2]
  refine if_neg (not_lt.mpr ?_)
  have h4 : (4 : ℝ) ^ d * (1 / 10 ^ 25) ≤ 64 / 10 ^ 25 := by
    calc (4 : ℝ) ^ d * (1 / 10 ^ 25) ≤ 4 ^ 3 * (1 / 10 ^ 25) :=
          mul_le_mul_of_nonneg_right (pow_le_pow_right₀ (by norm_num) hd) (by positivity)
      _ = 64 / 10 ^ 25 := by norm_num
  have h1 : (threads.flatten.map fun p => vnorm ((-(m * lost deg dx g p.x)) • p.v)).sum ≤
      64 / 10 ^ 25 * (threads.flatten.map fun p => m * vnorm p.v).sum := by
    rw [← smul_eq_mul, List.smul_sum, List.map_map]
    refine List.sum_le_sum fun p hp => ?_
    have hl := lost_nonneg (deg := deg) h hp
    have hl' := (lost_le (deg := deg) (dx := dx) (g := g) p.x).trans h4
    rw [vnorm_smul, abs_neg, abs_of_nonneg (mul_nonneg hm hl)]
    show _ ≤ 64 / 10 ^ 25 * (m * vnorm p.v)
    have := mul_le_mul_of_nonneg_right hl' (mul_nonneg hm (vnorm_nonneg p.v))
    linarith
  refine (vnorm_sum _ _).trans (h1.trans ?_)
  have hv := vnorm_nonneg (momentum m threads.flatten)
  calc 64 / 10 ^ 25 * (threads.flatten.map fun p => m * vnorm p.v).sum
      ≤ 64 / 10 ^ 25 * (10 ^ 13 * vnorm (momentum m threads.flatten)) :=
        mul_le_mul_of_nonneg_left hcancel (by positivity)
    _ ≤ _ := by nlinarith

namespace Checks

/-- 6 x 6 nodes. -/
def grid : Axes 2 ℝ := fun _ => [0, 1, 2, 3, 4, 5]
/-- On a node, moving to the right. -/
noncomputable def right : Particle 2 ℝ := { Particle.init with x := ![2, 2], v := ![1, 0] }
/-- Just left of a cell boundary, moving to the left. -/
noncomputable def left : Particle 2 ℝ := { Particle.init with x := ![5 / 2 - 1 / 10 ^ 13, 2], v := ![-1, 0] }

lemma good : GoodGrid 1 grid [[right, left]].flatten := by
  refine ⟨one_pos, fun a => ⟨0, ?_⟩, fun p hp a => ?_⟩
  · simp only [grid, List.length_cons, List.length_nil, List.range_succ, List.range_zero]; norm_num
  · simp only [List.flatten_cons, List.flatten_nil, List.append_nil, List.mem_cons, List.not_mem_nil,
      or_false] at hp
    refine ⟨0, 5, rfl, rfl, ?_⟩
    rcases hp with rfl | rfl <;> fin_cases a <;> simp [right, left] <;> norm_num

lemma N_node (j : ℕ) (hj : j < 6) : N .two ((2 : ℝ) - ([0, 1, 2, 3, 4, 5] : List ℝ).getD j 0) = 0 ∨
    1 / 8 ≤ N .two ((2 : ℝ) - ([0, 1, 2, 3, 4, 5] : List ℝ).getD j 0) := by
  interval_cases j <;> norm_num [N, N2]

lemma right_lost : lost .two 1 grid right.x = 0 := by
  refine Finset.sum_eq_zero fun c _ => ?_
  have hg := good.good (deg := .two) (p := right) (by simp)
  rw [hg.weight c, hg.pos c]
  have hlt := hg.ok.node_lt c
  generalize (stencilOf Deg.two 1 grid right.x).node c = i at hlt
  have h0 := N_node (i 0) (hlt 0)
  have h1 := N_node (i 1) (hlt 1)
  have e : shape .two 1 (nodeAt grid i) right.x =
      N .two ((2 : ℝ) - ([0, 1, 2, 3, 4, 5] : List ℝ).getD (i 0) 0) *
      N .two ((2 : ℝ) - ([0, 1, 2, 3, 4, 5] : List ℝ).getD (i 1) 0) := by
    simp only [shape, Fin.prod_univ_two, nodeAt, div_one]; rfl
  rw [e]
  split_ifs with hc
  · rfl
  · rcases h0 with h0 | h0
    · rw [h0, zero_mul]
    · rcases h1 with h1 | h1
      · rw [h1, mul_zero]
      · exfalso; apply hc
        have := mul_le_mul h0 h1 (by norm_num) (by linarith)
        refine lt_of_lt_of_le ?_ this
        norm_num [cutoff]

lemma left_lost : 0 < lost .two 1 grid left.x := by
  have hg := good.good (deg := .two) (p := left) (by simp)
  have hw : shape .two 1 (nodeAt grid ![1, 2]) left.x = 3 / 4 * (1 / 2 * (1 / 10 ^ 13) ^ 2) := by
    simp only [shape, Fin.prod_univ_two, nodeAt, div_one]
    show N .two ((5 / 2 - 1 / 10 ^ 13 : ℝ) - 1) * N .two ((2 : ℝ) - 2) = _
    norm_num [N, N2]
  have hex : ∃ c, (stencilOf .two 1 grid left.x).node c = ![1, 2] := by
    by_contra hne
    push Not at hne
    have := hg.out ![1, 2] (fun a => by fin_cases a <;> simp [grid]) hne
    rw [hw] at this
    norm_num at this
  obtain ⟨c, hc⟩ := hex
  have hwc : (stencilOf .two 1 grid left.x).weight c = 3 / 4 * (1 / 2 * (1 / 10 ^ 13) ^ 2) := by
    rw [hg.weight c, hg.pos c, hc, hw]
  refine lt_of_lt_of_le (b := (stencilOf .two 1 grid left.x).weight c) (by rw [hwc]; positivity) ?_
  have hle : ¬ (stencilOf .two 1 grid left.x).weight c > cutoff := by
    rw [hwc]; norm_num [cutoff]
  have := Finset.single_le_sum (f := fun c => if (stencilOf .two 1 grid left.x).weight c > cutoff then 0
    else (stencilOf .two 1 grid left.x).weight c) (s := Finset.univ) (fun c _ => by
      split_ifs
      · exact le_rfl
      · exact hg.ok.weight_nonneg c) (Finset.mem_univ c)
  rw [if_neg hle] at this
  exact this

end Checks

/-- **C111** Two particles of mass 1 with opposite velocities, everything inside the grid: the transfer
succeeds and the momentum check raises the flag, although only 64 parts in 1e25 are missing. -/
theorem C111_momentum_false : ∃ arr,
    P2G (mkTransferParams .two (1 : ℝ) 0 false 1 1) Checks.grid [[Checks.right, Checks.left]] = some arr ∧
    (checkMomentumConservation Checks.grid.size arr 1 [Checks.right, Checks.left] false).exit = true ∧
    vnorm (∑ l ∈ Finset.range (gridNodes Checks.grid.size), (arr l).mass • (arr l).v -
      momentum 1 [Checks.right, Checks.left]) ≤ 64 / 10 ^ 25 := by
  obtain ⟨arr, b1, b2⟩ := grid_momentum (deg := .two) (mibf := false) (m := 1) (vol := 1) le_rfl good
  simp only [List.flatten_cons, List.flatten_nil, List.append_nil, List.map_cons, List.map_nil, List.sum_cons,
    List.sum_nil, right_lost, one_mul, neg_zero, zero_smul, zero_add, add_zero] at b2
  have hmom : momentum 1 [Checks.right, Checks.left] = 0 := by
    ext a
    fin_cases a <;> simp [momentum, Checks.right, Checks.left]
  have hv : vnorm left.v = 1 := by simp [vnorm, left, dotProduct, Fin.sum_univ_two]
  have hn : vnorm ((-lost .two 1 grid left.x) • left.v) = lost .two 1 grid left.x := by
    rw [vnorm_smul, hv, mul_one, abs_neg, abs_of_pos left_lost]
  refine ⟨arr, b1, ?_, ?_⟩
  · simp only [checkMomentumConservation, gridMomentum, partMomentum, b2]
    refine if_pos ?_
    rw [hmom, vnorm_zero, mul_zero, hn]
    exact left_lost
  · rw [b2, hn]
    refine (lost_le _).trans (by norm_num)

/-- **C111** The velocity override: only the vertical component is changed; in the band above
`Ly - 2.25 dx + 0.1 time` it becomes `0.1`, in the band below `2 dx - 0.1 time` it becomes `-0.1`, in both
at once `-0.1`, elsewhere nothing changes. -/
theorem C111_override {Ly dx time : ℝ} {X v : Fin (d + 2) → ℝ} :
    (∀ a, a ≠ 1 → overwriteGridVelocity Ly dx time X v a = v a) ∧
    (X 1 < 2 * dx - time / 10 → overwriteGridVelocity Ly dx time X v 1 = -(1 / 10)) ∧
    (2 * dx - time / 10 ≤ X 1 → Ly - 9 / 4 * dx + time / 10 < X 1 →
      overwriteGridVelocity Ly dx time X v 1 = 1 / 10) ∧
    (2 * dx - time / 10 ≤ X 1 → X 1 ≤ Ly - 9 / 4 * dx + time / 10 →
      overwriteGridVelocity Ly dx time X v = v) := by
  refine ⟨fun a ha => ?_, fun h => ?_, fun h h' => ?_, fun h h' => ?_⟩
  · simp only [overwriteGridVelocity]
    split_ifs <;> simp [Function.update_of_ne ha]
  · simp only [overwriteGridVelocity]
    rw [if_pos (by linarith), Function.update_self]; norm_num
  · simp only [overwriteGridVelocity]
    rw [if_neg (by linarith), if_pos (by linarith), Function.update_self]; norm_num
  · simp only [overwriteGridVelocity]
    rw [if_neg (by linarith), if_neg (by linarith)]

/-! ### concrete cases -/

example := C111_mass (deg := .two) (fr := -19/20) (m := 3) (vol := 1) (mibf := true) (by norm_num) Checks.good
  (by norm_num) false (P2G_eq (deg := .two) rfl rfl Checks.good)

namespace Checks
lemma good1 : GoodGrid 1 grid [[right], [right]].flatten :=
  ⟨good.dx_pos, good.uniform, fun p hp => good.inside p (by simp at hp ⊢; exact Or.inl hp)⟩
lemma noTiny1 : NoTinyWeights .two 1 grid [[right], [right]].flatten := by
  intro p hp i hi
  have hp' : p = right := by simpa using hp
  subst hp'
  have e : shape .two 1 (nodeAt grid i) right.x =
      N .two ((2 : ℝ) - ([0, 1, 2, 3, 4, 5] : List ℝ).getD (i 0) 0) *
      N .two ((2 : ℝ) - ([0, 1, 2, 3, 4, 5] : List ℝ).getD (i 1) 0) := by
    simp only [shape, Fin.prod_univ_two, nodeAt, div_one]; rfl
  rw [e]
  rcases N_node (i 0) (hi 0) with h0 | h0
  · left; rw [h0, zero_mul]
  · rcases N_node (i 1) (hi 1) with h1 | h1
    · left; rw [h1, mul_zero]
    · right
      exact lt_of_lt_of_le (by norm_num) (mul_le_mul h0 h1 (by norm_num) (by linarith))
end Checks

example := C111_momentum_partial (deg := .two) (fr := -19/20) (m := 3) (vol := 1) (mibf := true) Checks.good1
  Checks.noTiny1 false (P2G_eq (deg := .two) rfl rfl Checks.good1)
/-- Two particles moving the same way: nothing cancels. -/
example := C111_momentum_digits (deg := .two) (fr := 19/20) (m := 3) (vol := 1) (mibf := true) (by norm_num)
  (by norm_num) Checks.good1 (by norm_num) (by
    have h1 : vnorm (![1, 0] : Fin 2 → ℝ) = 1 := by simp [vnorm, dotProduct, Fin.sum_univ_two]
    have h2 : momentum 3 [[Checks.right], [Checks.right]].flatten = (6 : ℝ) • ![1, 0] := by
      ext a; fin_cases a <;> norm_num [momentum, Checks.right]
    rw [h2, vnorm_smul, h1]
    simp only [List.flatten_cons, List.flatten_nil, List.append_nil, List.cons_append, List.nil_append,
      List.map_cons, List.map_nil, List.sum_cons, List.sum_nil, Checks.right, h1]
    norm_num) false
  (P2G_eq (deg := .two) rfl rfl Checks.good1)
/-- A node in both bands of a thin sample is pulled down. -/
example := (C111_override (d := 0) (Ly := 1) (dx := 1) (time := 0) (X := ![0, 1]) (v := ![5, 7])).2.1
  (by norm_num)

end Verif.Props
