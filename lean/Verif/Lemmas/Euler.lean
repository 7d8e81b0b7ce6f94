import Verif.Lemmas.P2G
import Verif.Model.Step

set_option linter.unusedSectionVars false
set_option linter.unusedSimpArgs false

/-! The grid update node by node, and grid-to-particle sums. -/

namespace Verif
open Matrix
variable {K : Type*} [Field K] [LinearOrder K] {d : ℕ}

section euler
variable (P : TransferParams K) (dt : K) (grav : Fin d → K)
  (bc : ℕ → (Fin d → K) → (Fin d → K) → (Fin d → K)) (g : Axes d K) (arr : GridArr d K)

/-- The increment of one node. -/
def incrAt (P : TransferParams K) (dt : K) (grav : Fin d → K) (c : Cell d K) : Fin d → K :=
  (-(dt * P.particleVolume) / c.mass) • c.force + dt • grav

lemma euler_foldl_notMem {L : List (Fin d → ℕ)} (hL : ∀ j ∈ L, IsNode g j) {i : Fin d → ℕ}
    (hi : IsNode g i) (h : i ∉ L) (e : EulerArr d K) :
    let r := L.foldl
      (fun e i => eulerNode P dt grav bc arr (flatIndex g.size i) (nodePosOf g i) e) e
    r.v (flatIndex g.size i) = e.v (flatIndex g.size i) ∧
      r.flip (flatIndex g.size i) = e.flip (flatIndex g.size i) := by
  induction L generalizing e with
  | nil => exact ⟨rfl, rfl⟩
  | cons j L ih =>
    have hj := hL j (by simp)
    have hne : flatIndex g.size i ≠ flatIndex g.size j := fun e =>
      h (by rw [flatIndex_inj (n := g.size) hi hj e]; simp)
    have := ih (fun k hk => hL k (by simp [hk])) (fun hm => h (by simp [hm]))
      (eulerNode P dt grav bc arr (flatIndex g.size j) (nodePosOf g j) e)
    simp only [List.foldl_cons] at this ⊢
    rw [this.1, this.2]
    unfold eulerNode
    by_cases hm : (arr (flatIndex g.size j)).mass > 0
    · simp only [hm, if_true, Function.update_of_ne hne, and_self]
    · simp only [hm, if_false, and_self]

lemma euler_foldl_mem {L : List (Fin d → ℕ)} (hL : ∀ j ∈ L, IsNode g j) (hnd : L.Nodup)
    {i : Fin d → ℕ} (h : i ∈ L) (e : EulerArr d K) :
    let r := L.foldl
      (fun e i => eulerNode P dt grav bc arr (flatIndex g.size i) (nodePosOf g i) e) e
    let l := flatIndex g.size i
    (r.v l = if (arr l).mass > 0 then
        bc l (nodeAt g i) (e.v l + incrAt P dt grav (arr l)) else e.v l) ∧
    (r.flip l = if (arr l).mass > 0 then
        bc l (nodeAt g i) (e.v l + incrAt P dt grav (arr l)) - e.v l else e.flip l) := by
  induction L generalizing e with
  | nil => simp at h
  | cons j L ih =>
    rw [List.nodup_cons] at hnd
    have hj := hL j (by simp)
    by_cases hij : i = j
    · subst hij
      have := euler_foldl_notMem P dt grav bc g arr (fun k hk => hL k (by simp [hk])) hj hnd.1
        (eulerNode P dt grav bc arr (flatIndex g.size i) (nodePosOf g i) e)
      simp only [List.foldl_cons] at this ⊢
      rw [this.1, this.2]
      by_cases hm : (arr (flatIndex g.size i)).mass > 0
      · simp only [eulerNode, hm, if_true, Function.update_self]
        exact ⟨rfl, rfl⟩
      · simp only [eulerNode, hm, if_false, and_self]
    · have hi : i ∈ L := by simpa [hij] using h
      have hne : flatIndex g.size i ≠ flatIndex g.size j := fun e =>
        hij (flatIndex_inj (n := g.size) (hL i (by simp [hi])) hj e)
      have := ih (fun k hk => hL k (by simp [hk])) hnd.2 hi
        (eulerNode P dt grav bc arr (flatIndex g.size j) (nodePosOf g j) e)
      have hv : (eulerNode P dt grav bc arr (flatIndex g.size j) (nodePosOf g j) e).v
          (flatIndex g.size i) = e.v (flatIndex g.size i) := by
        unfold eulerNode
        by_cases hm : (arr (flatIndex g.size j)).mass > 0
        · simp only [hm, if_true, Function.update_of_ne hne]
        · simp only [hm, if_false]
      have hf : (eulerNode P dt grav bc arr (flatIndex g.size j) (nodePosOf g j) e).flip
          (flatIndex g.size i) = e.flip (flatIndex g.size i) := by
        unfold eulerNode
        by_cases hm : (arr (flatIndex g.size j)).mass > 0
        · simp only [hm, if_true, Function.update_of_ne hne]
        · simp only [hm, if_false]
      simp only [hv, hf] at this
      exact this

lemma eulerUpdate_at {i : Fin d → ℕ} (hi : IsNode g i) :
    let r := eulerUpdate P dt grav bc g arr
    let l := flatIndex g.size i
    (r.v l = if (arr l).mass > 0 then
        bc l (nodeAt g i) ((arr l).v + incrAt P dt grav (arr l)) else (arr l).v) ∧
    (r.flip l = if (arr l).mass > 0 then
        bc l (nodeAt g i) ((arr l).v + incrAt P dt grav (arr l)) - (arr l).v else 0) :=
  euler_foldl_mem P dt grav bc g arr (L := allNodes g.size) (fun _ hj => mem_allNodes.mp hj)
    (nodup_allNodes _) (mem_allNodes.mpr hi) _

end euler

/-! Interpolation as finite sums -/

lemma interpV_eq (n : Fin d → ℕ) (v : ℕ → Fin d → K) (s : Stencil d K) :
    interpV n v s = ∑ c, s.weight c • v (flatIndex n (s.node c)) := loopSum_eq_sum _

lemma interpGrad_eq (n : Fin d → ℕ) (v : ℕ → Fin d → K) (s : Stencil d K) :
    interpGrad n v s = ∑ c, vecMulVec (v (flatIndex n (s.node c))) (s.weightGrad c) :=
  loopSum_eq_sum _

lemma interpB_eq (n : Fin d → ℕ) (v : ℕ → Fin d → K) (s : Stencil d K) (x : Fin d → K) :
    interpB n v s x = ∑ c, s.weight c • vecMulVec (v (flatIndex n (s.node c))) (s.nodePos c - x) :=
  loopSum_eq_sum _

end Verif
