import Verif.Lemmas.UnitsStep
import Verif.Props.Mobilised

set_option linter.unusedSectionVars false
set_option linter.unusedSimpArgs false
set_option linter.unusedVariables false

/-!
# Runs with `use_mibf` in which the material always has the same friction coefficient
-/

namespace Verif
open Matrix

section
variable {d : ℕ}

/-- A particle without its friction coefficient. -/
def noMuI (p : Particle d ℝ) : Particle d ℝ := { p with muI := 0 }

/-- Nodal values without the friction coefficient. -/
def noFriction (c : Cell d ℝ) : Cell d ℝ := { c with friction := 0 }

/-- The transfer parameters without `use_mibf`. -/
def TransferParams.own (P : TransferParams ℝ) : TransferParams ℝ := { P with useMibf := false }

lemma noFriction_add (a b : Cell d ℝ) : noFriction (a.add b) = (noFriction a).add (noFriction b) := by
  simp [noFriction, Cell.add]

lemma contribution_own (P : TransferParams ℝ) (p : Particle d ℝ) (s : Stencil d ℝ) (j : Fin d → Fin 4) :
    contribution P.own (noMuI p) s j = noFriction (contribution P p s j) := by
  simp only [contribution, noFriction, noMuI, TransferParams.own, Bool.false_eq_true, if_false]
  rfl

/-- A particle with its stencil. -/
def noMuI' (ps : Particle d ℝ × Stencil d ℝ) : Particle d ℝ × Stencil d ℝ := (noMuI ps.1, ps.2)

lemma depositParticle_own (P : TransferParams ℝ) (n : Fin d → ℕ) (g : GridArr d ℝ) (ps : Particle d ℝ × Stencil d ℝ) :
    depositParticle P.own n (fun l => noFriction (g l)) (noMuI' ps) =
      fun l => noFriction (depositParticle P n g ps l) := by
  unfold depositParticle
  induction allIdx d generalizing g with
  | nil => rfl
  | cons j L ih =>
    rw [List.foldl_cons, List.foldl_cons, ← ih]
    congr 1
    unfold depositAt
    by_cases h : ps.2.weight j > cutoff
    · rw [if_pos h]
      refine (if_pos h).trans ?_
      show Function.update (fun l => noFriction (g l)) (flatIndex n (ps.2.node j)) ((noFriction (g (flatIndex n (ps.2.node j)))).add
        (contribution P.own (noMuI ps.1) ps.2 j)) = _
      rw [contribution_own, ← noFriction_add]
      funext l
      by_cases hl : l = flatIndex n (ps.2.node j)
      · subst hl; simp
      · simp [hl]
    · rw [if_neg h]
      exact if_neg h

lemma threadLocal_own (P : TransferParams ℝ) (n : Fin d → ℕ) (ps : List (Particle d ℝ × Stencil d ℝ)) :
    threadLocal P.own n (ps.map noMuI') = fun l => noFriction (threadLocal P n ps l) := by
  unfold threadLocal
  rw [List.foldl_map]
  have : ∀ g : GridArr d ℝ, List.foldl (fun x y => depositParticle P.own n x (noMuI' y)) (fun l => noFriction (g l)) ps =
      fun l => noFriction (List.foldl (depositParticle P n) g ps l) := by
    induction ps with
    | nil => intro g; rfl
    | cons p ps ih => intro g; rw [List.foldl_cons, List.foldl_cons, ← ih, depositParticle_own]
  exact this fun _ => Cell.zero

lemma p2gAccumulate_own (P : TransferParams ℝ) (n : Fin d → ℕ) (ts : List (List (Particle d ℝ × Stencil d ℝ))) :
    p2gAccumulate P.own n (ts.map (List.map noMuI')) = fun l => noFriction (p2gAccumulate P n ts l) := by
  unfold p2gAccumulate
  rw [List.foldl_map]
  have : ∀ g : GridArr d ℝ, List.foldl (fun x y => mergeThread x (threadLocal P.own n (y.map noMuI'))) (fun l => noFriction (g l)) ts =
      fun l => noFriction (List.foldl (fun g t => mergeThread g (threadLocal P n t)) g ts l) := by
    induction ts with
    | nil => intro g; rfl
    | cons t ts ih =>
      intro g
      rw [List.foldl_cons, List.foldl_cons, ← ih, threadLocal_own]
      congr 1
      funext l
      simp only [mergeThread, noFriction_add]
  exact this fun _ => Cell.zero

/-- Every nodal sum has `friction = μ * mass`. -/
def SameFriction (μ : ℝ) (c : Cell d ℝ) : Prop := c.friction = μ * c.mass

lemma sameFriction_add {μ : ℝ} {a b : Cell d ℝ} (ha : SameFriction μ a) (hb : SameFriction μ b) : SameFriction μ (a.add b) := by
  unfold SameFriction at *
  simp only [Cell.add, ha, hb]; ring

lemma depositParticle_same {P : TransferParams ℝ} (hP : P.useMibf = true) {μ : ℝ} (n : Fin d → ℕ) (g : GridArr d ℝ)
    (ps : Particle d ℝ × Stencil d ℝ) (hp : ps.1.muI = μ) (hg : ∀ l, SameFriction μ (g l)) :
    ∀ l, SameFriction μ (depositParticle P n g ps l) := by
  unfold depositParticle
  induction allIdx d generalizing g with
  | nil => exact hg
  | cons j L ih =>
    rw [List.foldl_cons]
    refine ih _ fun l => ?_
    unfold depositAt
    split_ifs
    · by_cases hl : l = flatIndex n (ps.2.node j)
      · subst hl
        rw [Function.update_self]
        exact sameFriction_add (hg _) (by simp [SameFriction, contribution, hP, hp])
      · rw [Function.update_of_ne hl]; exact hg l
    · exact hg l

lemma p2gAccumulate_same {P : TransferParams ℝ} (hP : P.useMibf = true) {μ : ℝ} (n : Fin d → ℕ)
    (ts : List (List (Particle d ℝ × Stencil d ℝ))) (hp : ∀ t ∈ ts, ∀ p ∈ t, p.1.muI = μ) :
    ∀ l, SameFriction μ (p2gAccumulate P n ts l) := by
  have h0 : ∀ l : ℕ, SameFriction μ ((fun _ => Cell.zero : GridArr d ℝ) l) := fun l => by simp [SameFriction, Cell.zero]
  have h1 : ∀ (t : List (Particle d ℝ × Stencil d ℝ)) (g : GridArr d ℝ), (∀ p ∈ t, p.1.muI = μ) →
      (∀ l, SameFriction μ (g l)) → ∀ l, SameFriction μ (t.foldl (depositParticle P n) g l) := by
    intro t
    induction t with
    | nil => intro g _ hg; exact hg
    | cons p t ih =>
      intro g hp hg
      exact ih _ (fun q hq => hp q (List.mem_cons_of_mem _ hq)) (depositParticle_same hP n g p (hp p List.mem_cons_self) hg)
  have h2 : ∀ (ts : List (List (Particle d ℝ × Stencil d ℝ))) (g : GridArr d ℝ), (∀ t ∈ ts, ∀ p ∈ t, p.1.muI = μ) →
      (∀ l, SameFriction μ (g l)) →
      ∀ l, SameFriction μ (ts.foldl (fun g t => mergeThread g (threadLocal P n t)) g l) := by
    intro ts
    induction ts with
    | nil => intro g _ hg; exact hg
    | cons t ts ih =>
      intro g hp hg
      refine ih _ (fun q hq => hp q (List.mem_cons_of_mem _ hq)) fun l => ?_
      exact sameFriction_add (hg l) (h1 t _ (hp t List.mem_cons_self) h0 l)
  exact h2 ts _ hp h0

lemma withStencils_own {st : (Fin d → ℝ) → Option (Stencil d ℝ)} (ps : List (Particle d ℝ)) :
    withStencils st (ps.map noMuI) = (withStencils st ps).map (List.map noMuI') := by
  unfold withStencils
  refine mapM_conv (fun p => ?_) ps
  show (st p.x).map _ = _
  rw [Option.map_map]
  rfl

lemma P2G_own (P : TransferParams ℝ) (g : Axes d ℝ) (ts : List (List (Particle d ℝ))) :
    P2G P.own g (ts.map (List.map noMuI)) = (P2G P g ts).map fun a l => noFriction (a l) := by
  unfold P2G
  have hD : P.own.deg = P.deg := rfl
  have hO : P.own.oneOverDx = P.oneOverDx := rfl
  rw [hD, hO, mapM_conv (f := withStencils (stencilP2G P.deg P.oneOverDx g)) (v := List.map noMuI')
    (fun t => withStencils_own t) ts]
  simp only [Option.bind_eq_bind]
  cases ts.mapM (withStencils (stencilP2G P.deg P.oneOverDx g)) with
  | none => rfl
  | some ss =>
    simp only [Option.map_some, Option.bind_some]
    rw [p2gAccumulate_own]
    congr 1

/-- The coefficient of a node with mass is that of the particles. -/
lemma P2G_same {P : TransferParams ℝ} (hP : P.useMibf = true) {μ : ℝ} {g : Axes d ℝ} {ts : List (List (Particle d ℝ))}
    (hp : ∀ t ∈ ts, ∀ p ∈ t, p.muI = μ) {arr : GridArr d ℝ} (h : P2G P g ts = some arr) (l : ℕ) (hl : (arr l).mass ≠ 0) :
    (arr l).friction = μ := by
  unfold P2G at h
  simp only [Option.bind_eq_bind, Option.bind_eq_some_iff, Option.some.injEq] at h
  obtain ⟨ss, h1, rfl⟩ := h
  have h2 : ∀ t ∈ ss, ∀ p ∈ t, p.1.muI = μ := by
    replace h1 := mapM_forall₂ h1
    have key : ∀ (ts : List (List (Particle d ℝ))) (ss : List (List (Particle d ℝ × Stencil d ℝ))),
        List.Forall₂ (fun a b => withStencils (stencilP2G P.deg P.oneOverDx g) a = some b) ts ss →
        (∀ t ∈ ts, ∀ p ∈ t, p.muI = μ) → ∀ t ∈ ss, ∀ p ∈ t, p.1.muI = μ := by
      intro ts ss h
      induction h with
      | nil => intro _ t ht; cases ht
      | cons h1 _ ih =>
        intro hp t ht
        rcases List.mem_cons.mp ht with rfl | ht
        · have hp1 := hp _ List.mem_cons_self
          unfold withStencils at h1
          replace h1 := mapM_forall₂ h1
          clear ih hp ht
          induction h1 with
          | nil => intro p hp; cases hp
          | cons h1 _ ih =>
            intro p hp
            rcases List.mem_cons.mp hp with rfl | hp
            · obtain ⟨s, -, rfl⟩ := Option.map_eq_some_iff.mp h1
              exact hp1 _ List.mem_cons_self
            · exact ih (fun p hp => hp1 p (List.mem_cons_of_mem _ hp)) p hp
        · exact ih (fun t ht => hp t (List.mem_cons_of_mem _ ht)) t ht
    exact key ts ss h1 hp
  have h3 := p2gAccumulate_same hP g.size ss h2 l
  simp only [p2gFinish] at hl ⊢
  have hm : (p2gAccumulate P g.size ss l).mass ≠ 0 := fun h => hl (by rw [h, zero_mul])
  rw [if_pos hP, h3]
  field_simp

lemma eulerUpdate_own (P : TransferParams ℝ) (dt : ℝ) (gr : Fin d → ℝ) {bc bc' : ℕ → (Fin d → ℝ) → (Fin d → ℝ) → (Fin d → ℝ)}
    (g : Axes d ℝ) (arr : GridArr d ℝ) (hbc : ∀ l, 0 < (arr l).mass → bc' l = bc l) :
    eulerUpdate P.own dt gr bc' g (fun l => noFriction (arr l)) = eulerUpdate P dt gr bc g arr := by
  unfold eulerUpdate
  have : ∀ (L : List (Fin d → ℕ)) (e : EulerArr d ℝ),
      L.foldl (fun e i => eulerNode P.own dt gr bc' (fun l => noFriction (arr l)) (flatIndex g.size i) (nodePosOf g i) e) e =
      L.foldl (fun e i => eulerNode P dt gr bc arr (flatIndex g.size i) (nodePosOf g i) e) e := by
    intro L
    induction L with
    | nil => intro e; rfl
    | cons i L ih =>
      intro e
      rw [List.foldl_cons, List.foldl_cons, ih]
      congr 1
      unfold eulerNode
      by_cases h : (arr (flatIndex g.size i)).mass > 0
      · rw [if_pos h]
        refine (if_pos h).trans ?_
        rw [hbc _ h]
        rfl
      · rw [if_neg h]
        exact if_neg h
  exact this _ _

lemma MUSL_own (P : TransferParams ℝ) (g : Axes d ℝ) (mass : ℕ → ℝ) (ts : List (List (Particle d ℝ))) :
    MUSL P.own g mass (ts.map (List.map noMuI)) =
      (MUSL P g mass ts).map (Prod.map (List.map (List.map noMuI)) id) := by
  unfold MUSL
  have e : ((ts.map (List.map noMuI)).map fun t => t.map fun p =>
        ({ p with v := blendVelocity P.own p } : Particle d ℝ)) =
      (ts.map fun t => t.map fun p => ({ p with v := blendVelocity P p } : Particle d ℝ)).map (List.map noMuI) := by
    simp only [List.map_map, Function.comp_def]
    rfl
  have hD : P.own.deg = P.deg := rfl
  have hO : P.own.oneOverDx = P.oneOverDx := rfl
  simp only [e, hD, hO]
  rw [mapM_conv (f := withStencils (stencilP2G P.deg P.oneOverDx g)) (v := List.map noMuI')
    (fun t => withStencils_own t)]
  simp only [Option.bind_eq_bind]
  cases (ts.map fun t => t.map fun p => ({ p with v := blendVelocity P p } : Particle d ℝ)).mapM
    (withStencils (stencilP2G P.deg P.oneOverDx g)) with
  | none => rfl
  | some ss =>
    simp only [Option.map_some, Option.bind_some, Prod.map_apply]
    have : muslAccumulate P.own g.size (ss.map (List.map noMuI')) = muslAccumulate P g.size ss := by
      unfold muslAccumulate
      rw [List.foldl_map]
      congr 1
      funext x t
      rw [List.foldl_map]
      rfl
    rw [this]
    rfl

end
end Verif
