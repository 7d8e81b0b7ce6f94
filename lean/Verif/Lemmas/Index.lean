import Verif.Model.Transfer
import Mathlib.Algebra.BigOperators.Fin
import Mathlib.Algebra.BigOperators.Ring.Finset
import Mathlib.Data.Fintype.BigOperators
import Mathlib.Tactic.Ring
import Mathlib.Tactic.Linarith

set_option linter.unusedSectionVars false

/-! Node numbering, loop orders, and conversion of loop sums to finite sums. -/

namespace Verif

lemma gridNodes_zero (n : Fin 0 → ℕ) : gridNodes n = 1 := by simp [gridNodes]

lemma gridNodes_succ {d : ℕ} (n : Fin (d + 1) → ℕ) :
    gridNodes n = n 0 * gridNodes (Fin.tail n) := by
  simp only [gridNodes, List.finRange_succ, List.map_cons, List.prod_cons, List.map_map]
  rfl

lemma foldl_flat {d : ℕ} (n i : Fin d → ℕ) (acc : ℕ) :
    (List.finRange d).foldl (fun acc a => acc * n a + i a) acc
      = acc * gridNodes n + flatIndex n i := by
  induction d generalizing acc with
  | zero => simp [gridNodes, flatIndex]
  | succ d ih =>
    rw [gridNodes_succ]
    simp only [flatIndex, List.finRange_succ, List.foldl_cons, List.foldl_map]
    have h1 := ih (Fin.tail n) (Fin.tail i) (acc * n 0 + i 0)
    have h2 := ih (Fin.tail n) (Fin.tail i) (0 * n 0 + i 0)
    simp only [Fin.tail] at h1 h2 ⊢
    rw [h1, h2]; ring

lemma flatIndex_succ {d : ℕ} (n i : Fin (d + 1) → ℕ) :
    flatIndex n i = i 0 * gridNodes (Fin.tail n) + flatIndex (Fin.tail n) (Fin.tail i) := by
  have := foldl_flat (Fin.tail n) (Fin.tail i) (0 * n 0 + i 0)
  simp only [flatIndex, List.finRange_succ, List.foldl_cons, List.foldl_map]
  simp only [Fin.tail] at this ⊢
  rw [this]; simp [flatIndex, Fin.tail]

/-- The 2D formula of `ind` (simulation.hpp:204-206). -/
lemma flatIndex_two (n i : Fin 2 → ℕ) : flatIndex n i = i 0 * n 1 + i 1 := by
  simp [flatIndex, List.finRange_succ]

/-- The 3D formula of `ind` (simulation.hpp:200-202). -/
lemma flatIndex_three (n i : Fin 3 → ℕ) : flatIndex n i = (i 0 * n 1 + i 1) * n 2 + i 2 := by
  simp [flatIndex, List.finRange_succ]

lemma flatIndex_lt {d : ℕ} {n i : Fin d → ℕ} (h : ∀ a, i a < n a) :
    flatIndex n i < gridNodes n := by
  induction d with
  | zero => simp [gridNodes, flatIndex]
  | succ d ih =>
    rw [flatIndex_succ, gridNodes_succ]
    have h1 := ih (n := Fin.tail n) (i := Fin.tail i) (fun a => h a.succ)
    have h0 := h 0
    calc _ < i 0 * gridNodes (Fin.tail n) + gridNodes (Fin.tail n) := by omega
      _ = (i 0 + 1) * gridNodes (Fin.tail n) := by ring
      _ ≤ _ := Nat.mul_le_mul_right _ h0

lemma flatIndex_inj {d : ℕ} {n i j : Fin d → ℕ} (hi : ∀ a, i a < n a) (hj : ∀ a, j a < n a)
    (h : flatIndex n i = flatIndex n j) : i = j := by
  induction d with
  | zero => exact Subsingleton.elim _ _
  | succ d ih =>
    rw [flatIndex_succ, flatIndex_succ] at h
    have hi' := flatIndex_lt (n := Fin.tail n) (i := Fin.tail i) (fun a => hi a.succ)
    have hj' := flatIndex_lt (n := Fin.tail n) (i := Fin.tail j) (fun a => hj a.succ)
    have hpos : 0 < gridNodes (Fin.tail n) := by omega
    have e0 : i 0 = j 0 := by
      have a1 : (i 0 * gridNodes (Fin.tail n) + flatIndex (Fin.tail n) (Fin.tail i)) /
          gridNodes (Fin.tail n) = i 0 := by
        rw [mul_comm, Nat.mul_add_div hpos, Nat.div_eq_of_lt hi', add_zero]
      have a2 : (j 0 * gridNodes (Fin.tail n) + flatIndex (Fin.tail n) (Fin.tail j)) /
          gridNodes (Fin.tail n) = j 0 := by
        rw [mul_comm, Nat.mul_add_div hpos, Nat.div_eq_of_lt hj', add_zero]
      rw [← a1, ← a2, h]
    have e1 : flatIndex (Fin.tail n) (Fin.tail i) = flatIndex (Fin.tail n) (Fin.tail j) := by
      rw [e0] at h; omega
    have e2 : Fin.tail i = Fin.tail j := ih (fun a => hi a.succ) (fun a => hj a.succ) e1
    rw [← Fin.cons_self_tail i, ← Fin.cons_self_tail j, e0, e2]

lemma range_mul_flat (m G : ℕ) :
    (List.range m).flatMap (fun i => (List.range G).map (fun k => i * G + k)) = List.range (m * G) := by
  induction m with
  | zero => simp
  | succ m ih =>
    rw [List.range_succ, List.flatMap_append, ih]
    simp only [List.flatMap_cons, List.flatMap_nil, List.append_nil]
    rw [Nat.succ_mul, List.range_add]

/-- Enumerating the nodes in loop order enumerates the flat indices `0, 1, 2, ...`. -/
lemma map_flatIndex_allNodes {d : ℕ} (n : Fin d → ℕ) :
    (allNodes n).map (flatIndex n) = List.range (gridNodes n) := by
  induction d with
  | zero => simp [allNodes, gridNodes, flatIndex]
  | succ d ih =>
    rw [gridNodes_succ, ← range_mul_flat]
    simp only [allNodes, List.map_flatMap, List.map_map]
    refine List.flatMap_congr fun i _ => ?_
    rw [← ih (Fin.tail n), List.map_map]
    refine List.map_congr_left fun c _ => ?_
    simp only [Function.comp, flatIndex_succ, Fin.cons_zero, Fin.tail_cons]

lemma mem_allNodes {d : ℕ} {n i : Fin d → ℕ} : i ∈ allNodes n ↔ ∀ a, i a < n a := by
  induction d with
  | zero => simp [allNodes]; exact Subsingleton.elim _ _
  | succ d ih =>
    simp only [allNodes, List.mem_flatMap, List.mem_range, List.mem_map]
    constructor
    · rintro ⟨a, ha, c, hc, rfl⟩
      intro b
      refine Fin.cases ?_ (fun b => ?_) b
      · simpa using ha
      · simpa [Fin.tail] using (ih.mp hc) b
    · intro h
      refine ⟨i 0, h 0, Fin.tail i, ih.mpr fun a => h a.succ, Fin.cons_self_tail i⟩

lemma nodup_allNodes {d : ℕ} (n : Fin d → ℕ) : (allNodes n).Nodup := by
  have : ((allNodes n).map (flatIndex n)).Nodup := by
    rw [map_flatIndex_allNodes]; exact List.nodup_range
  exact List.Nodup.of_map _ this

lemma flatIndex_surj {d : ℕ} {n : Fin d → ℕ} {l : ℕ} (h : l < gridNodes n) :
    ∃ i : Fin d → ℕ, (∀ a, i a < n a) ∧ flatIndex n i = l := by
  have : l ∈ (allNodes n).map (flatIndex n) := by
    rw [map_flatIndex_allNodes]; exact List.mem_range.mpr h
  obtain ⟨i, hi, rfl⟩ := List.mem_map.mp this
  exact ⟨i, mem_allNodes.mp hi, rfl⟩

/-! ### stencil loops -/

lemma loopSum_eq_sum {M : Type*} [AddCommMonoid M] {d : ℕ} (f : (Fin d → Fin 4) → M) :
    loopSum f = ∑ c, f c := by
  induction d with
  | zero =>
    simp only [loopSum, allIdx, List.map_cons, List.map_nil, List.sum_cons, List.sum_nil, add_zero]
    rw [Fintype.sum_eq_single (Fin.elim0 : Fin 0 → Fin 4)]
    intro x hx; exact absurd (Subsingleton.elim _ _) hx
  | succ d ih =>
    rw [← (Fin.consEquiv (fun _ : Fin (d+1) => Fin 4)).sum_comp, Fintype.sum_prod_type]
    simp only [loopSum, allIdx, List.map_flatMap, List.map_map, Fin.consEquiv, Equiv.coe_fn_mk]
    rw [List.flatMap_def, List.sum_flatten, List.map_map]
    have : ∀ i : Fin 4, ((List.map (f ∘ Fin.cons i) (allIdx d)).sum)
        = ∑ y, f (Fin.cons i y) := fun i => ih (fun c => f (Fin.cons i c))
    rw [← List.sum_toFinset _ (List.nodup_finRange 4)]
    simp only [List.toFinset_finRange]
    exact Finset.sum_congr rfl fun i _ => this i

variable {K : Type*} [Field K]

lemma sum_prod_four {d : ℕ} (f : Fin d → Fin 4 → K) :
    ∑ c : Fin d → Fin 4, ∏ a, f a (c a) = ∏ a, ∑ i, f a i := by
  rw [Finset.prod_univ_sum]; simp [Fintype.piFinset_univ]

end Verif
