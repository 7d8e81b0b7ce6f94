import Verif.Lemmas.Momentum
import Mathlib.Tactic.LinearCombination

set_option linter.unusedSectionVars false
set_option linter.unusedSimpArgs false

/-!
# C01–C05, C54: mass and momentum of the transfers
-/

namespace Verif.Props
open Verif Matrix
variable {K : Type*} [Field K] [LinearOrder K] [IsStrictOrderedRing K] [FloorRing K] {d : ℕ}

section p2g
variable {deg : Deg} {dx fr m vol : K} {mibf : Bool} {g : Axes d K}
  {threads : List (List (Particle d K))}

/-- **C54** What P2G computes, node by node: mass, velocity and force are the textbook weighted sums
over all particles, except that terms with weight at most `1e-25` are left out. -/
theorem C54_p2g_nodes (h : GoodGrid dx g threads.flatten) :
    ∃ arr, P2G (mkTransferParams deg dx fr mibf m vol) g threads = some arr ∧
      ∀ i, IsNode g i →
        let X := nodeAt g i
        let c := arr (flatIndex g.size i)
        let near := threads.flatten.filter fun p => 1 / 10 ^ 25 < shape deg dx X p.x
        c.mass = m * (near.map fun p => shape deg dx X p.x).sum ∧
        c.force = (near.map fun p => p.tau *ᵥ shapeGrad deg dx X p.x).sum ∧
        (near.map fun p => shape deg dx X p.x).sum • c.v =
          (near.map fun p => shape deg dx X p.x • (p.v +
            if fr < 0 then (mkTransferParams deg dx fr mibf m vol).apicDinverse •
              (p.Bmat *ᵥ (X - p.x)) else 0)).sum ∧
        (near = [] → c.v = 0) := by
  refine ⟨_, P2G_eq (deg := deg) rfl rfl h, fun i hi => ?_⟩
  set P := mkTransferParams deg dx fr mibf m vol with hPdef
  intro X c near
  have hraw := raw_node (P := P) (deg := deg) h hi
  have key : ∀ {M : Type _} [AddCommMonoid M] (F : Cell d K →+ M),
      F (raw P deg dx g threads.flatten (flatIndex g.size i)) =
        (near.map fun p => F (nodeContribution deg dx P p X)).sum := by
    intro M _ F
    rw [hraw, map_list_sum, List.map_map]
    show _ = ((threads.flatten.filter fun p => decide (1 / 10 ^ 25 < shape deg dx X p.x)).map
      fun p => F (nodeContribution deg dx P p X)).sum
    generalize threads.flatten = L
    induction L with
    | nil => rfl
    | cons q L ih =>
      rw [List.map_cons, List.sum_cons, ih, List.filter_cons]
      by_cases hq : 1 / 10 ^ 25 < shape deg dx X q.x
      · have hq' : shape deg dx (nodeAt g i) q.x > cutoff := hq
        simp only [Function.comp, hq, hq', if_true, decide_true, List.map_cons, List.sum_cons]
        rfl
      · have hq' : ¬ shape deg dx (nodeAt g i) q.x > cutoff := hq
        simp only [Function.comp, hq, hq', if_false, decide_false, map_zero, zero_add,
          Bool.false_eq_true]
  have hmass : (raw P deg dx g threads.flatten (flatIndex g.size i)).mass =
      (near.map fun p => shape deg dx X p.x).sum := key Cell.massHom
  have hv : (raw P deg dx g threads.flatten (flatIndex g.size i)).v =
      (near.map fun p => shape deg dx X p.x • (p.v +
            if fr < 0 then P.apicDinverse • (p.Bmat *ᵥ (X - p.x)) else 0)).sum := by
    rw [show (raw P deg dx g threads.flatten (flatIndex g.size i)).v = Cell.vHom _ from rfl,
      key Cell.vHom]
    congr 1
    refine List.map_congr_left fun p _ => ?_
    show shape deg dx X p.x • p.v + (if fr < 0 then
      (P.apicDinverse * shape deg dx X p.x) • (p.Bmat *ᵥ (X - p.x)) else 0) = _
    split_ifs
    · rw [smul_add, smul_smul, mul_comm P.apicDinverse]
    · simp
  refine ⟨?_, ?_, ?_, ?_⟩
  · rw [← hmass, mul_comm]; rfl
  · exact key Cell.forceHom
  · rw [← hmass, ← hv]
    show _ • (if _ then _ else _ : Fin d → K) = _
    split_ifs with hpos
    · rw [smul_smul, mul_inv_cancel₀ (ne_of_gt hpos), one_smul]
    · have h0 : (raw P deg dx g threads.flatten (flatIndex g.size i)).mass = 0 :=
        le_antisymm (not_lt.mp hpos) (raw_mass_nonneg _)
      rw [raw_eq_zero h0, smul_zero]; rfl
  · intro hnil
    have h0 : (raw P deg dx g threads.flatten (flatIndex g.size i)).mass = 0 := by
      rw [hmass, hnil]; rfl
    show (if _ then _ else _ : Fin d → K) = _
    rw [if_neg (by rw [h0]; exact lt_irrefl _)]

/-- **C01** The nodal masses sum up to the particle mass if no positive weight is below the
cut-off. -/
theorem C01_total (h : GoodGrid dx g threads.flatten)
    (hn : NoTinyWeights deg dx g threads.flatten) :
    ∃ arr, P2G (mkTransferParams deg dx fr mibf m vol) g threads = some arr ∧
      ∑ l ∈ Finset.range (gridNodes g.size), (arr l).mass = threads.flatten.length * m := by
  refine ⟨_, P2G_eq (deg := deg) rfl rfl h, ?_⟩
  simp only [finish_mass, ← Finset.sum_mul]
  rw [sum_raw_mass h hn]; rfl

/-- **C01** In general the total never exceeds the particle mass and falls short of it by at most
`4^d * 1e-25` of it; no nodal mass is negative; nothing is written outside the grid. -/
theorem C01_bounds (h : GoodGrid dx g threads.flatten) (hm : 0 ≤ m) :
    ∃ arr, P2G (mkTransferParams deg dx fr mibf m vol) g threads = some arr ∧
      (∑ l ∈ Finset.range (gridNodes g.size), (arr l).mass ≤ threads.flatten.length * m) ∧
      (threads.flatten.length * m * (1 - 4 ^ d * (1 / 10 ^ 25)) ≤
        ∑ l ∈ Finset.range (gridNodes g.size), (arr l).mass) ∧
      (∀ l, 0 ≤ (arr l).mass) ∧
      (∀ l, gridNodes g.size ≤ l → (arr l).mass = 0 ∧ (arr l).v = 0 ∧ (arr l).force = 0) := by
  refine ⟨_, P2G_eq (deg := deg) rfl rfl h, ?_⟩
  set P := mkTransferParams deg dx fr mibf m vol with hPdef
  have hPm : P.particleMass = m := rfl
  have hsum : ∑ l ∈ Finset.range (gridNodes g.size), (raw P deg dx g threads.flatten l).mass =
      (threads.flatten.map fun p => ∑ c, if (stencilOf deg dx g p.x).weight c > cutoff then
        (stencilOf deg dx g p.x).weight c else 0).sum :=
    sum_raw (P := P) (deg := deg) h (fun _ => Cell.massHom)
  have hup : ∑ l ∈ Finset.range (gridNodes g.size), (raw P deg dx g threads.flatten l).mass ≤
      threads.flatten.length := by
    rw [hsum]
    have : ∀ p ∈ threads.flatten, (∑ c, if (stencilOf deg dx g p.x).weight c > cutoff then
        (stencilOf deg dx g p.x).weight c else 0) ≤ (fun _ => (1 : K)) p := by
      intro p hp
      have hok := (h.good (deg := deg) hp).ok
      show _ ≤ (1 : K)
      rw [← hok.sum_weight]
      refine Finset.sum_le_sum fun c _ => ?_
      split_ifs
      · exact le_rfl
      · exact hok.weight_nonneg c
    refine (List.sum_le_sum this).trans (le_of_eq ?_)
    rw [List.map_const', List.sum_replicate, nsmul_eq_mul, mul_one]
  have hlo : (threads.flatten.length : K) * (1 - 4 ^ d * (1 / 10 ^ 25)) ≤
      ∑ l ∈ Finset.range (gridNodes g.size), (raw P deg dx g threads.flatten l).mass := by
    rw [hsum]
    have : ∀ p ∈ threads.flatten, (fun _ => (1 - 4 ^ d * (1 / 10 ^ 25) : K)) p ≤
        ∑ c, if (stencilOf deg dx g p.x).weight c > cutoff then
        (stencilOf deg dx g p.x).weight c else 0 := by
      intro p hp
      have hok := (h.good (deg := deg) hp).ok
      have h1 : ∑ c, ((stencilOf deg dx g p.x).weight c - cutoff) ≤
          ∑ c, if (stencilOf deg dx g p.x).weight c > cutoff then
            (stencilOf deg dx g p.x).weight c else 0 := by
        refine Finset.sum_le_sum fun c _ => ?_
        split_ifs with hc
        · linarith [cutoff_pos (K := K)]
        · linarith [not_lt.mp hc]
      rw [Finset.sum_sub_distrib, hok.sum_weight] at h1
      simp only [Finset.sum_const, Finset.card_univ, Fintype.card_fun, Fintype.card_fin,
        nsmul_eq_mul, cutoff] at h1
      push_cast at h1
      exact h1
    refine le_trans (le_of_eq ?_) (List.sum_le_sum this)
    rw [List.map_const', List.sum_replicate, nsmul_eq_mul]
  refine ⟨?_, ?_, ?_, ?_⟩
  · simp only [finish_mass, ← Finset.sum_mul, hPm]
    exact mul_le_mul_of_nonneg_right hup hm
  · simp only [finish_mass, ← Finset.sum_mul, hPm]
    have := mul_le_mul_of_nonneg_right hlo hm
    linarith
  · intro l
    rw [finish_mass, hPm]
    exact mul_nonneg (raw_mass_nonneg l) hm
  · intro l hl
    have hz : raw P deg dx g threads.flatten l = 0 := by
      unfold raw
      apply List.sum_eq_zero
      intro a ha
      obtain ⟨p, hp, rfl⟩ := List.mem_map.mp ha
      refine Finset.sum_eq_zero fun c _ => if_neg ?_
      rintro ⟨-, hc⟩
      have := (h.good (deg := deg) hp).ok.idx_lt c
      omega
    refine ⟨?_, ?_, ?_⟩
    · rw [finish_mass, hz]; exact zero_mul _
    · show (if _ then _ else _ : Fin d → K) = 0
      rw [hz]; exact if_neg (lt_irrefl _)
    · show (raw P deg dx g threads.flatten l).force = 0
      rw [hz]; rfl

/-- **C02** Total momentum on the grid equals total particle momentum, for every `flip_ratio` and
every affine matrices. -/
theorem C02_momentum (h : GoodGrid dx g threads.flatten)
    (hn : NoTinyWeights deg dx g threads.flatten) :
    ∃ arr, P2G (mkTransferParams deg dx fr mibf m vol) g threads = some arr ∧
      ∑ l ∈ Finset.range (gridNodes g.size), (arr l).mass • (arr l).v =
        (threads.flatten.map fun p => m • p.v).sum := by
  refine ⟨_, P2G_eq (deg := deg) rfl rfl h, ?_⟩
  simp only [finish_momentum, ← Finset.smul_sum]
  rw [sum_raw_v h hn, List.smul_sum, List.map_map]
  rfl

end p2g

/-! ### schedule independence -/

lemma withStencils_isSome {st : (Fin d → K) → Option (Stencil d K)} {ps : List (Particle d K)}
    {r : List (Particle d K × Stencil d K)} (h : withStencils st ps = some r) :
    ∀ p ∈ ps, (st p.x).isSome := by
  induction ps generalizing r with
  | nil => simp
  | cons p ps ih =>
    simp only [withStencils, List.mapM_cons, Option.bind_eq_bind, Option.bind_eq_some_iff,
      Option.map_eq_some_iff] at h
    obtain ⟨q, ⟨s, hs, _⟩, r', hr', _⟩ := h
    intro p' hp'
    rcases List.mem_cons.mp hp' with rfl | hp'
    · rw [hs]; rfl
    · exact ih hr' p' hp'

lemma mapM_withStencils_isSome {st : (Fin d → K) → Option (Stencil d K)}
    {ts : List (List (Particle d K))} {r : List (List (Particle d K × Stencil d K))}
    (h : ts.mapM (withStencils st) = some r) : ∀ p ∈ ts.flatten, (st p.x).isSome := by
  induction ts generalizing r with
  | nil => simp
  | cons t ts ih =>
    simp only [List.mapM_cons, Option.bind_eq_bind, Option.bind_eq_some_iff] at h
    obtain ⟨q, hq, r', hr', _⟩ := h
    intro p hp
    rw [List.flatten_cons, List.mem_append] at hp
    rcases hp with hp | hp
    · exact withStencils_isSome hq p hp
    · exact ih hr' p hp

lemma mapM_withStencils_cases (st : (Fin d → K) → Option (Stencil d K))
    (ts : List (List (Particle d K))) :
    ts.mapM (withStencils st) = if ∀ p ∈ ts.flatten, (st p.x).isSome then
      some (ts.map fun t => t.map fun p => (p, (st p.x).getD ⟨0, 0, 0, 0⟩)) else none := by
  split_ifs with h
  · exact mapM_withStencils (sf := fun x => (st x).getD ⟨0, 0, 0, 0⟩) fun p hp => by
      obtain ⟨s, hs⟩ := Option.isSome_iff_exists.mp (h p hp); simp [hs]
  · cases hr : ts.mapM (withStencils st) with
    | none => rfl
    | some r => exact absurd (mapM_withStencils_isSome hr) h

/-- **C03** P2G gives the same grid for every distribution of the particles to threads, every order
within the threads and every order in which the threads merge their results. (Also when the result
is undefined: then it is undefined for every schedule.) -/
theorem C03_p2g (P : TransferParams K) (g : Axes d K) (threads threads' : List (List (Particle d K)))
    (h : threads.flatten.Perm threads'.flatten) : P2G P g threads = P2G P g threads' := by
  unfold P2G
  rw [mapM_withStencils_cases, mapM_withStencils_cases]
  have hall : (∀ p ∈ threads.flatten, (stencilP2G P.deg P.oneOverDx g p.x).isSome) ↔
      ∀ p ∈ threads'.flatten, (stencilP2G P.deg P.oneOverDx g p.x).isSome :=
    ⟨fun H p hp => H p (h.mem_iff.mpr hp), fun H p hp => H p (h.mem_iff.mp hp)⟩
  by_cases hc : ∀ p ∈ threads.flatten, (stencilP2G P.deg P.oneOverDx g p.x).isSome
  · rw [if_pos hc, if_pos (hall.mp hc)]
    simp only [Option.bind_eq_bind, Option.bind_some]
    congr 2
    funext l
    rw [p2gAccumulate_eq, p2gAccumulate_eq, ← List.map_flatten, ← List.map_flatten]
    exact ((h.map _).map _).sum_eq
  · rw [if_neg hc, if_neg (fun H => hc (hall.mpr H))]

/-- `C03_musl` in terms of the model's blend. -/
lemma musl_any_order (P : TransferParams K) (g : Axes d K) (mass : ℕ → K)
    (threads threads' : List (List (Particle d K))) (h : threads.flatten.Perm threads'.flatten) :
    (MUSL P g mass threads).map Prod.snd = (MUSL P g mass threads').map Prod.snd ∧
    ∀ r, MUSL P g mass threads = some r →
      r.1.flatten = threads.flatten.map fun p => { p with v := blendVelocity P p } := by
  constructor
  · unfold MUSL
    simp only [mapM_withStencils_cases]
    have h' : (threads.map fun t => t.map fun p => { p with v := blendVelocity P p }).flatten.Perm
        (threads'.map fun t => t.map fun p => { p with v := blendVelocity P p }).flatten := by
      rw [← List.map_flatten, ← List.map_flatten]; exact h.map _
    revert h'
    generalize (threads.map fun t => t.map fun p => ({ p with v := blendVelocity P p } : Particle d K)) = A
    generalize (threads'.map fun t => t.map fun p => ({ p with v := blendVelocity P p } : Particle d K)) = B
    intro h'
    have hall : (∀ p ∈ A.flatten, (stencilP2G P.deg P.oneOverDx g p.x).isSome) ↔
        ∀ p ∈ B.flatten, (stencilP2G P.deg P.oneOverDx g p.x).isSome :=
      ⟨fun H p hp => H p (h'.mem_iff.mpr hp), fun H p hp => H p (h'.mem_iff.mp hp)⟩
    by_cases hc : ∀ p ∈ A.flatten, (stencilP2G P.deg P.oneOverDx g p.x).isSome
    · rw [if_pos hc, if_pos (hall.mp hc)]
      simp only [Option.bind_eq_bind, Option.bind_some, Option.map_some]
      congr 2
      funext l
      rw [muslAccumulate_eq, muslAccumulate_eq, ← List.map_flatten, ← List.map_flatten]
      exact ((h'.map _).map _).sum_eq
    · rw [if_neg hc, if_neg (fun H => hc (hall.mpr H))]
      rfl
  · intro r hr
    simp only [MUSL, Option.bind_eq_bind, Option.bind_eq_some_iff] at hr
    obtain ⟨_, _, hr⟩ := hr
    cases hr
    simp only [List.map_flatten]

/-- **C03** The same for the MUSL re-projection; the particles are updated one by one. The blend of PIC and FLIP uses
`|flip_ratio|`, or PIC alone below `-1`. -/
theorem C03_musl (P : TransferParams K) (g : Axes d K) (mass : ℕ → K)
    (threads threads' : List (List (Particle d K))) (h : threads.flatten.Perm threads'.flatten) :
    (MUSL P g mass threads).map Prod.snd = (MUSL P g mass threads').map Prod.snd ∧
    ∀ r, MUSL P g mass threads = some r →
      r.1.flatten = threads.flatten.map fun p => { p with
        v := if P.flipRatio < -1 then p.pic else |P.flipRatio| • (p.v + p.flip) + (1 - |P.flipRatio|) • p.pic } := by
  have hbl : ∀ p : Particle d K, (if P.flipRatio < -1 then p.pic
      else |P.flipRatio| • (p.v + p.flip) + (1 - |P.flipRatio|) • p.pic) = blendVelocity P p := by
    intro p
    unfold blendVelocity
    split_ifs with h1 h2
    · rfl
    · rw [abs_of_neg h2]
    · rw [abs_of_nonneg (not_lt.mp h2)]
  simp only [hbl]
  exact musl_any_order P g mass threads threads' h

end Verif.Props
