import Verif.Lemmas.Units

set_option linter.unusedSimpArgs false
set_option linter.unusedVariables false
set_option linter.unusedSectionVars false

/-!
# Transfers, walls and grid update in other units
-/

namespace Verif
open Matrix Verif.Props

lemma pos_scale {c : ℝ} (hc : 0 < c) (x : ℝ) : c * x > 0 ↔ x > 0 := mul_pos_iff_of_pos_left hc
lemma neg_scale {c : ℝ} (hc : 0 < c) (x : ℝ) : c * x < 0 ↔ x < 0 := by
  constructor
  · intro h; by_contra h'; exact absurd h (not_lt.mpr (mul_nonneg hc.le (not_lt.mp h')))
  · intro h; exact mul_neg_of_pos_of_neg hc h
lemma nonpos_scale {c : ℝ} (hc : 0 < c) (x : ℝ) : c * x ≤ 0 ↔ x ≤ 0 := by
  rw [← not_lt, ← not_lt]; exact not_congr (pos_scale hc x)

section transfer
variable {d : ℕ} (U : Scales)

/-- Nodal sums before normalisation in other units (the mass is still a sum of weights). -/
noncomputable def Scales.rawCell (c : Cell d ℝ) : Cell d ℝ :=
  ⟨c.mass, U.speed • c.v, (U.stress / U.len) • c.force, c.friction⟩

/-- Nodal values in other units. -/
noncomputable def Scales.cell (c : Cell d ℝ) : Cell d ℝ :=
  ⟨U.mass * c.mass, U.speed • c.v, (U.stress / U.len) • c.force, c.friction⟩

lemma rawCell_add (a b : Cell d ℝ) : U.rawCell (a.add b) = (U.rawCell a).add (U.rawCell b) := by
  simp [Scales.rawCell, Cell.add]

lemma rawCell_zero : U.rawCell (Cell.zero : Cell d ℝ) = Cell.zero := by
  simp [Scales.rawCell, Cell.zero]

lemma apic_scale (P : TransferParams ℝ) (p : Particle d ℝ) (s : Stencil d ℝ) (j : Fin d → Fin 4) :
    ((U.params P).apicDinverse * (U.stencil s).weight j) •
        ((U.particle p).Bmat *ᵥ ((U.stencil s).nodePos j - (U.particle p).x)) =
      U.speed • ((P.apicDinverse * s.weight j) • (p.Bmat *ᵥ (s.nodePos j - p.x))) := by
  have := U.len_ne
  rw [nodePos_scale, weight_scale]
  show (P.apicDinverse / (U.len * U.len) * s.weight j) • (((U.speed * U.len) • p.Bmat) *ᵥ (U.len • s.nodePos j - U.len • p.x)) = _
  rw [← smul_sub, smul_mulVec, mulVec_smul, smul_smul, smul_smul, smul_smul]
  congr 1
  field_simp

lemma contribution_scale (P : TransferParams ℝ) (p : Particle d ℝ) (s : Stencil d ℝ) (j : Fin d → Fin 4) :
    contribution (U.params P) (U.particle p) (U.stencil s) j = U.rawCell (contribution P p s j) := by
  have hF : (U.params P).flipRatio = P.flipRatio := rfl
  have hM : (U.params P).useMibf = P.useMibf := rfl
  simp only [contribution, Scales.rawCell, apic_scale, hF, hM, weight_scale, weightGrad_scale]
  congr 1
  · show s.weight j • (U.speed • p.v) + _ = _
    rw [smul_add, smul_comm]
    congr 1
    split_ifs
    · exact apic_scale U P p s j
    · rw [smul_zero]
  · show (U.stress • p.tau) *ᵥ _ = _
    rw [smul_mulVec, mulVec_smul, smul_smul, div_eq_mul_inv]

lemma depositParticle_scale (P : TransferParams ℝ) (n : Fin d → ℕ) (g : GridArr d ℝ) (ps : Particle d ℝ × Stencil d ℝ) :
    depositParticle (U.params P) n (fun l => U.rawCell (g l)) (U.pair ps) =
      fun l => U.rawCell (depositParticle P n g ps l) := by
  unfold depositParticle
  induction allIdx d generalizing g with
  | nil => rfl
  | cons j L ih =>
    rw [List.foldl_cons, List.foldl_cons, ← ih]
    congr 1
    unfold depositAt
    by_cases h : ps.2.weight j > cutoff
    · rw [if_pos h]
      refine (if_pos h).trans ?_
      show Function.update (fun l => U.rawCell (g l)) (flatIndex n (ps.2.node j)) ((U.rawCell (g (flatIndex n (ps.2.node j)))).add
        (contribution (U.params P) (U.particle ps.1) (U.stencil ps.2) j)) = _
      rw [contribution_scale, ← rawCell_add]
      funext l
      by_cases hl : l = flatIndex n (ps.2.node j)
      · subst hl; simp
      · simp [hl]
    · rw [if_neg h]
      exact if_neg h

lemma threadLocal_scale (P : TransferParams ℝ) (n : Fin d → ℕ) (ps : List (Particle d ℝ × Stencil d ℝ)) :
    threadLocal (U.params P) n (ps.map U.pair) = fun l => U.rawCell (threadLocal P n ps l) := by
  unfold threadLocal
  have h0 : (fun _ => Cell.zero : GridArr d ℝ) = fun l => U.rawCell ((fun _ => Cell.zero : GridArr d ℝ) l) := by
    funext l; exact (rawCell_zero U).symm
  rw [List.foldl_map]
  conv_lhs => rw [h0]
  generalize (fun _ => Cell.zero : GridArr d ℝ) = g
  induction ps generalizing g with
  | nil => rfl
  | cons p ps ih => rw [List.foldl_cons, List.foldl_cons, ← ih, depositParticle_scale]

lemma p2gAccumulate_scale (P : TransferParams ℝ) (n : Fin d → ℕ) (ts : List (List (Particle d ℝ × Stencil d ℝ))) :
    p2gAccumulate (U.params P) n (ts.map (List.map U.pair)) = fun l => U.rawCell (p2gAccumulate P n ts l) := by
  unfold p2gAccumulate
  have h0 : (fun _ => Cell.zero : GridArr d ℝ) = fun l => U.rawCell ((fun _ => Cell.zero : GridArr d ℝ) l) := by
    funext l; exact (rawCell_zero U).symm
  rw [List.foldl_map]
  conv_lhs => rw [h0]
  generalize (fun _ => Cell.zero : GridArr d ℝ) = g
  induction ts generalizing g with
  | nil => rfl
  | cons t ts ih =>
    rw [List.foldl_cons, List.foldl_cons, ← ih, threadLocal_scale]
    congr 1
    funext l
    simp only [mergeThread, rawCell_add]

lemma p2gFinish_scale (P : TransferParams ℝ) (g : GridArr d ℝ) :
    p2gFinish (U.params P) (fun l => U.rawCell (g l)) = fun l => U.cell (p2gFinish P g l) := by
  funext l
  have hM : (U.params P).useMibf = P.useMibf := rfl
  simp only [p2gFinish, Scales.rawCell, Scales.cell, hM]
  congr 1
  · show (g l).mass * (U.mass * P.particleMass) = _
    ring
  · exact ite_conv (f := fun x : Fin d → ℝ => U.speed • x) Iff.rfl (fun _ => smul_comm _ _ _) (fun _ => (smul_zero _).symm)

lemma P2G_scale (P : TransferParams ℝ) (g : Axes d ℝ) (ts : List (List (Particle d ℝ))) :
    P2G (U.params P) (U.axes g) (ts.map (List.map U.particle)) = (P2G P g ts).map fun a l => U.cell (a l) := by
  unfold P2G
  have hD : (U.params P).deg = P.deg := rfl
  have hO : (U.params P).oneOverDx = P.oneOverDx / U.len := rfl
  rw [hD, hO, mapM_conv (f := withStencils (stencilP2G P.deg P.oneOverDx g)) (v := List.map U.pair)
    (fun t => withStencils_scale U (fun x => stencilP2G_scale U _ _ g x) t) ts, axes_size]
  simp only [Option.bind_eq_bind]
  cases ts.mapM (withStencils (stencilP2G P.deg P.oneOverDx g)) with
  | none => rfl
  | some ss =>
    simp only [Option.map_some, Option.bind_some]
    rw [p2gAccumulate_scale, p2gFinish_scale]

lemma blendVelocity_scale (P : TransferParams ℝ) (p : Particle d ℝ) :
    blendVelocity (U.params P) (U.particle p) = U.speed • blendVelocity P p := by
  have hF : (U.params P).flipRatio = P.flipRatio := rfl
  simp only [blendVelocity, hF, Scales.particle]
  split_ifs <;> simp only [smul_add, smul_comm U.speed]

lemma muslAccumulate_scale (P : TransferParams ℝ) (n : Fin d → ℕ) (ts : List (List (Particle d ℝ × Stencil d ℝ))) :
    muslAccumulate (U.params P) n (ts.map (List.map U.pair)) = fun l => U.speed • muslAccumulate P n ts l := by
  have hF : (U.params P).flipRatio = P.flipRatio := rfl
  have h1 : ∀ (ps : Particle d ℝ × Stencil d ℝ) (L : List (Fin d → Fin 4)) (g : ℕ → Fin d → ℝ),
      L.foldl (muslDepositAt (U.params P) n (U.pair ps).1 (U.pair ps).2) (fun l => U.speed • g l) =
        fun l => U.speed • L.foldl (muslDepositAt P n ps.1 ps.2) g l := by
    intro ps L
    induction L with
    | nil => intro g; rfl
    | cons j L ih =>
      intro g
      rw [List.foldl_cons, List.foldl_cons, ← ih]
      congr 1
      unfold muslDepositAt
      by_cases h : ps.2.weight j > cutoff
      · rw [if_pos h]
        refine (if_pos h).trans ?_
        show Function.update (fun l => U.speed • g l) (flatIndex n (ps.2.node j)) (U.speed • g (flatIndex n (ps.2.node j)) +
          (ps.2.weight j • (U.speed • ps.1.v) + (if P.flipRatio < 0 then
            ((U.params P).apicDinverse * (U.stencil ps.2).weight j) •
              ((U.particle ps.1).Bmat *ᵥ ((U.stencil ps.2).nodePos j - (U.particle ps.1).x)) else 0))) = _
        rw [apic_scale]
        funext l
        by_cases hl : l = flatIndex n (ps.2.node j)
        · subst hl
          simp only [Function.update_self, smul_add]
          rw [smul_comm (ps.2.weight j) U.speed]
          congr 2
          split_ifs
          · rfl
          · rw [smul_zero]
        · simp [hl]
      · rw [if_neg h]
        exact if_neg h
  have h2 : ∀ (t : List (Particle d ℝ × Stencil d ℝ)) (g : ℕ → Fin d → ℝ),
      t.foldl (fun g ps => (allIdx d).foldl (muslDepositAt (U.params P) n (U.pair ps).1 (U.pair ps).2) g) (fun l => U.speed • g l) =
        fun l => U.speed • t.foldl (fun g ps => (allIdx d).foldl (muslDepositAt P n ps.1 ps.2) g) g l := by
    intro t
    induction t with
    | nil => intro g; rfl
    | cons p t ih => intro g; rw [List.foldl_cons, List.foldl_cons, ← ih, h1]
  have h0 : (0 : ℕ → Fin d → ℝ) = fun l => U.speed • (0 : ℕ → Fin d → ℝ) l := by
    funext l; simp
  unfold muslAccumulate
  rw [List.foldl_map]
  have h3 : ∀ (ts : List (List (Particle d ℝ × Stencil d ℝ))) (g : ℕ → Fin d → ℝ),
      ts.foldl (fun g t => g + (t.map U.pair).foldl
        (fun g ps => (allIdx d).foldl (muslDepositAt (U.params P) n ps.1 ps.2) g) 0) (fun l => U.speed • g l) =
      fun l => U.speed • ts.foldl (fun g t => g + t.foldl
        (fun g ps => (allIdx d).foldl (muslDepositAt P n ps.1 ps.2) g) 0) g l := by
    intro ts
    induction ts with
    | nil => intro g; rfl
    | cons t ts ih =>
      intro g
      rw [List.foldl_cons, List.foldl_cons, ← ih, List.foldl_map]
      congr 1
      have := h2 t 0
      rw [← h0] at this
      rw [this]
      funext l
      simp only [Pi.add_apply, smul_add]
  have := h3 ts 0
  rw [← h0] at this
  exact this

lemma MUSL_scale (P : TransferParams ℝ) (g : Axes d ℝ) (mass : ℕ → ℝ) (ts : List (List (Particle d ℝ))) :
    MUSL (U.params P) (U.axes g) (fun l => U.mass * mass l) (ts.map (List.map U.particle)) =
      (MUSL P g mass ts).map (Prod.map (List.map (List.map U.particle)) fun v l => U.speed • v l) := by
  unfold MUSL
  have e : ((ts.map (List.map U.particle)).map fun t => t.map fun p =>
        ({ p with v := blendVelocity (U.params P) p } : Particle d ℝ)) =
      (ts.map fun t => t.map fun p => ({ p with v := blendVelocity P p } : Particle d ℝ)).map (List.map U.particle) := by
    simp only [List.map_map, Function.comp_def, blendVelocity_scale]
    rfl
  have hD : (U.params P).deg = P.deg := rfl
  have hO : (U.params P).oneOverDx = P.oneOverDx / U.len := rfl
  simp only [e, hD, hO]
  rw [mapM_conv (f := withStencils (stencilP2G P.deg P.oneOverDx g)) (v := List.map U.pair)
    (fun t => withStencils_scale U (fun x => stencilP2G_scale U _ _ g x) t), axes_size]
  simp only [Option.bind_eq_bind]
  cases (ts.map fun t => t.map fun p => ({ p with v := blendVelocity P p } : Particle d ℝ)).mapM
    (withStencils (stencilP2G P.deg P.oneOverDx g)) with
  | none => rfl
  | some ss =>
    simp only [Option.map_some, Option.bind_some, Prod.map_apply]
    rw [muslAccumulate_scale]
    congr 2
    funext l
    have hm := U.mass_pos
    simp only [muslFinish]
    show (if U.mass * mass l > 0 then (U.mass * mass l / (U.mass * P.particleMass))⁻¹ • (U.speed • _) else 0) = _
    rw [mul_div_mul_left _ _ hm.ne']
    by_cases h : mass l > 0
    · rw [if_pos h, if_pos (mul_pos hm h), smul_comm]
    · rw [if_neg h, if_neg (fun h' => h ((pos_scale hm _).mp h')), smul_zero]

/-- Nodal velocities in other units. -/
noncomputable def Scales.euler (e : EulerArr d ℝ) : EulerArr d ℝ :=
  ⟨fun l => U.speed • e.v l, fun l => U.speed • e.flip l⟩

lemma eulerUpdate_scale (P : TransferParams ℝ) (dt : ℝ) (gr : Fin d → ℝ)
    {bc bc' : ℕ → (Fin d → ℝ) → (Fin d → ℝ) → (Fin d → ℝ)}
    (hbc : ∀ l X v, bc' l (U.len • X) (U.speed • v) = U.speed • bc l X v) (g : Axes d ℝ) (arr : GridArr d ℝ) :
    eulerUpdate (U.params P) (U.time * dt) (U.acc • gr) bc' (U.axes g) (fun l => U.cell (arr l)) =
      U.euler (eulerUpdate P dt gr bc g arr) := by
  unfold eulerUpdate
  rw [axes_size]
  have key : ∀ (L : List (Fin d → ℕ)) (e : EulerArr d ℝ),
      L.foldl (fun e i => eulerNode (U.params P) (U.time * dt) (U.acc • gr) bc' (fun l => U.cell (arr l))
        (flatIndex g.size i) (nodePosOf (U.axes g) i) e) (U.euler e) =
      U.euler (L.foldl (fun e i => eulerNode P dt gr bc arr (flatIndex g.size i) (nodePosOf g i) e) e) := by
    intro L
    induction L with
    | nil => intro e; rfl
    | cons i L ih =>
      intro e
      rw [List.foldl_cons, List.foldl_cons, ← ih]
      congr 1
      rw [nodePosOf_scale]
      unfold eulerNode
      generalize flatIndex g.size i = l
      have hm := U.mass_pos
      have h1 := U.len_ne; have h2 := U.time_ne; have h3 := U.stress_ne; have h4 := U.vol_ne
      have hX : (U.euler e).v l + ((-(U.time * dt * (U.params P).particleVolume) / (U.cell (arr l)).mass) • (U.cell (arr l)).force +
          (U.time * dt) • (U.acc • gr)) = U.speed • (e.v l + ((-(dt * P.particleVolume) / (arr l).mass) • (arr l).force + dt • gr)) := by
        show U.speed • e.v l + ((-(U.time * dt * (U.vol * P.particleVolume)) / (U.mass * (arr l).mass)) •
          ((U.stress / U.len) • (arr l).force) + (U.time * dt) • (U.acc • gr)) = _
        rw [smul_add, smul_add, smul_smul, smul_smul, smul_smul, smul_smul]
        congr 3
        · by_cases h0 : (arr l).mass = 0
          · simp [h0]
          · unfold Scales.mass Scales.speed
            field_simp
        · unfold Scales.acc Scales.speed
          field_simp
      refine ite_conv (f := U.euler) ?_ (fun _ => ?_) (fun _ => rfl)
      · show U.mass * (arr l).mass > 0 ↔ _
        exact pos_scale hm _
      · simp only [hX, hbc]
        simp only [Scales.euler, EulerArr.mk.injEq]
        constructor
        · funext k
          by_cases hk : k = l
          · subst hk; simp
          · simp [hk]
        · funext k
          by_cases hk : k = l
          · subst hk; simp [smul_sub]
          · simp [hk]
  have := key (allNodes g.size) ⟨fun l => (arr l).v, fun _ => 0⟩
  rw [← this]
  congr 1
  simp [Scales.euler, Scales.cell]

lemma loopSum_smul {d' : ℕ} {M : Type*} [AddCommGroup M] [Module ℝ M] (c : ℝ) (f : (Fin d → Fin 4) → M) :
    loopSum (fun j => c • f j) = c • loopSum f := by
  unfold loopSum
  rw [List.smul_sum, List.map_map]
  rfl

lemma interpV_scale (n : Fin d → ℕ) (v : ℕ → Fin d → ℝ) (s : Stencil d ℝ) :
    interpV n (fun l => U.speed • v l) (U.stencil s) = U.speed • interpV n v s := by
  unfold interpV
  rw [← loopSum_smul (d' := d)]
  congr 1
  funext j
  rw [weight_scale, node_scale, smul_comm]

lemma interpGrad_scale (n : Fin d → ℕ) (v : ℕ → Fin d → ℝ) (s : Stencil d ℝ) :
    interpGrad n (fun l => U.speed • v l) (U.stencil s) = U.time⁻¹ • interpGrad n v s := by
  unfold interpGrad
  rw [← loopSum_smul (d' := d)]
  congr 1
  funext j
  have := U.len_ne; have := U.time_ne
  rw [weightGrad_scale, node_scale, smul_vecMulVec, vecMulVec_smul, smul_smul]
  congr 1
  unfold Scales.speed
  field_simp

lemma interpB_scale (n : Fin d → ℕ) (v : ℕ → Fin d → ℝ) (s : Stencil d ℝ) (x : Fin d → ℝ) :
    interpB n (fun l => U.speed • v l) (U.stencil s) (U.len • x) = (U.speed * U.len) • interpB n v s x := by
  unfold interpB
  rw [← loopSum_smul (d' := d)]
  congr 1
  funext j
  rw [weight_scale, node_scale, nodePos_scale, ← smul_sub, smul_vecMulVec, vecMulVec_smul, smul_smul, smul_smul, smul_smul]
  congr 1
  ring

lemma g2pTransfer_scale (P : TransferParams ℝ) (n : Fin d → ℕ) (e : EulerArr d ℝ) (p : Particle d ℝ) (s : Stencil d ℝ) :
    g2pTransfer (U.params P) n (U.euler e) (U.particle p) (U.stencil s) = U.particle (g2pTransfer P n e p s) := by
  have hF : (U.params P).flipRatio = P.flipRatio := rfl
  have h1 : (U.particle p).x = U.len • p.x := rfl
  simp only [g2pTransfer, hF, h1, Scales.euler, interpV_scale, interpB_scale]
  simp only [Scales.particle]
  congr 1
  · split_ifs
    · rfl
    · rw [smul_zero]
  · split_ifs
    · rfl
    · rw [smul_zero]

lemma trialF_scale (dt : ℝ) (G F : Matrix (Fin d) (Fin d) ℝ) : trialF (U.time * dt) (U.time⁻¹ • G) F = trialF dt G F := by
  have := U.time_ne
  unfold trialF
  rw [smul_mul, smul_smul]
  congr 2
  field_simp

end transfer

/-! ### walls -/

section walls
variable {d : ℕ} (U : Scales)

lemma vnorm_scale {c : ℝ} (hc : 0 < c) (v : Fin d → ℝ) : vnorm (c • v) = c * vnorm v := by
  unfold vnorm
  rw [smul_dotProduct, dotProduct_smul, smul_smul, smul_eq_mul, Real.sqrt_mul (mul_self_nonneg _), Real.sqrt_mul_self hc.le]

lemma normalized_scale {c : ℝ} (hc : 0 < c) {v : Fin d → ℝ} (hv : v ⬝ᵥ v > 0) : normalized (c • v) = normalized v := by
  have e : c • v ⬝ᵥ c • v = c * c * (v ⬝ᵥ v) := by
    rw [smul_dotProduct, dotProduct_smul, smul_smul, smul_eq_mul]
  unfold normalized
  rw [if_pos hv, if_pos (by rw [e]; positivity), e, Real.sqrt_mul (mul_self_nonneg _), Real.sqrt_mul_self hc.le, smul_smul]
  congr 1
  have := Real.sqrt_pos.mpr hv
  field_simp

lemma objectRel_scale {c : ℝ} (hc : 0 < c) (bc : BC) (fr : ℝ) (n v : Fin d → ℝ) :
    objectRel bc fr n (c • v) = c • objectRel bc fr n v := by
  have hd : c • v ⬝ᵥ n = c * (v ⬝ᵥ n) := by rw [smul_dotProduct, smul_eq_mul]
  have ht : c • v - (c * (v ⬝ᵥ n)) • n = c • (v - (v ⬝ᵥ n) • n) := by rw [smul_sub, smul_smul]
  have hneg : c * (v ⬝ᵥ n) < 0 ↔ v ⬝ᵥ n < 0 := by
    constructor
    · intro h; by_contra h'; exact absurd h (not_lt.mpr (mul_nonneg hc.le (not_lt.mp h')))
    · intro h; exact mul_neg_of_pos_of_neg hc h
  have key : ∀ vt : Fin d → ℝ, v ⬝ᵥ n < 0 → 0 < fr →
      (if -(c * (v ⬝ᵥ n)) * fr < vnorm (c • vt) then c • vt + (c * (v ⬝ᵥ n) * fr) • normalized (c • vt) else 0) =
      c • (if -(v ⬝ᵥ n) * fr < vnorm vt then vt + ((v ⬝ᵥ n) * fr) • normalized vt else 0) := by
    intro vt hvn hfr
    refine ite_conv (f := fun x : Fin d → ℝ => c • x) ?_ (fun h => ?_) (fun _ => (smul_zero _).symm)
    · rw [vnorm_scale hc, show -(c * (v ⬝ᵥ n)) * fr = c * (-(v ⬝ᵥ n) * fr) by ring, mul_lt_mul_iff_right₀ hc]
    · have hpos : vt ⬝ᵥ vt > 0 := by
        have : 0 < vnorm vt := lt_of_le_of_lt (mul_nonneg (by linarith) hfr.le) h
        exact Real.sqrt_pos.mp this
      rw [normalized_scale hc hpos, smul_add, smul_smul, mul_assoc]
  unfold objectRel
  cases bc with
  | noSlip => simp
  | slipFree =>
    simp only [hd, ht]
    refine ite_conv (f := fun x : Fin d → ℝ => c • x) hneg (fun h => ?_) (fun _ => rfl)
    refine ite_conv (f := fun x : Fin d → ℝ => c • x) Iff.rfl (fun h' => key _ h h') (fun _ => rfl)
  | slipStick =>
    simp only [hd, ht]
    refine ite_conv (f := fun x : Fin d → ℝ => c • x) hneg (fun h => ?_) (fun _ => rfl)
    refine ite_conv (f := fun x : Fin d → ℝ => c • x) Iff.rfl (fun h' => key _ h h') (fun _ => rfl)

/-- What the treatment of plates has to do with other units. -/
structure PlateScale (ops : PlateOps d) : Prop where
  inside : ∀ p X, ops.inside (U.plate p) (U.len • X) ↔ ops.inside p X
  rel : ∀ t bc fr r, ops.rel t bc fr (U.speed • r) = U.speed • ops.rel t bc fr r
  move : ∀ p dt f t, ops.move (U.plate p) (U.time * dt) (U.time * f) (U.time * t) = U.plate (ops.move p dt f t)

lemma slide2_scale {c : ℝ} (hc : 0 < c) (fr t n : ℝ) : slide2 fr (c * t) (c * n) = c * slide2 fr t n := by
  unfold slide2
  have e : fr * |c * n| = c * (fr * |n|) := by rw [abs_mul, abs_of_pos hc]; ring
  have e' : |c * t| = c * |t| := by rw [abs_mul, abs_of_pos hc]
  rw [e, e']
  refine ite_conv (f := (c * ·)) Iff.rfl (fun _ => rfl) (fun _ => ?_)
  refine ite_conv (f := (c * ·)) (mul_lt_mul_iff_right₀ hc) (fun _ => (mul_zero c).symm) (fun _ => ?_)
  refine ite_conv (f := (c * ·)) ?_ (fun _ => (mul_sub _ _ _).symm) (fun _ => (mul_add _ _ _).symm)
  exact pos_scale hc _

lemma sgn_scale {c : ℝ} (hc : 0 < c) (t : ℝ) : sgn (c * t) = sgn t := by
  unfold sgn
  have h1 : 0 < c * t ↔ 0 < t := pos_scale hc t
  have h2 : c * t < 0 ↔ t < 0 := by
    constructor
    · intro h; by_contra h'; exact absurd h (not_lt.mpr (mul_nonneg hc.le (not_lt.mp h')))
    · intro h; exact mul_neg_of_pos_of_neg hc h
  simp only [h1, h2]

lemma slide3_scale {c : ℝ} (hc : 0 < c) (fr t₁ t₂ n : ℝ) :
    slide3 fr (c * t₁) (c * t₂) (c * n) = (c * (slide3 fr t₁ t₂ n).1, c * (slide3 fr t₁ t₂ n).2) := by
  have hc' := hc.ne'
  have e1 : Real.sqrt (c * t₁ * (c * t₁) + c * t₂ * (c * t₂)) = c * Real.sqrt (t₁ * t₁ + t₂ * t₂) := by
    rw [show c * t₁ * (c * t₁) + c * t₂ * (c * t₂) = c * c * (t₁ * t₁ + t₂ * t₂) by ring,
      Real.sqrt_mul (mul_self_nonneg _), Real.sqrt_mul_self hc.le]
  have e2 : fr * |c * n| = c * (fr * |n|) := by rw [abs_mul, abs_of_pos hc]; ring
  have e3 : ∀ a b : ℝ, c * a * (c * a) / (c * b * (c * b)) = a * a / (b * b) := by
    intro a b
    rw [show c * a * (c * a) = c * c * (a * a) by ring, show c * b * (c * b) = c * c * (b * b) by ring,
      mul_div_mul_left _ _ (mul_ne_zero hc' hc')]
  have e4 : ∀ s x y : ℝ, s * (c * x - c * y) = c * (s * (x - y)) := by intros; ring
  unfold slide3
  simp only [e1, e2, e3, sgn_scale hc, e4, mul_div_assoc]
  refine ite_conv (f := fun x : ℝ × ℝ => (c * x.1, c * x.2)) Iff.rfl (fun _ => rfl) (fun _ => ?_)
  refine ite_conv (f := fun x : ℝ × ℝ => (c * x.1, c * x.2)) (mul_le_mul_iff_right₀ hc) (fun _ => by simp) (fun _ => ?_)
  simp only [e3, mul_div_assoc]

lemma vec2_smul (c a b : ℝ) : c • (![a, b] : Fin 2 → ℝ) = ![c * a, c * b] := by simp
lemma vec3_smul (c a b e : ℝ) : c • (![a, b, e] : Fin 3 → ℝ) = ![c * a, c * b, c * e] := by simp

lemma plateRel2_scale {c : ℝ} (hc : 0 < c) (t : PlateType) (bc : BC) (fr : ℝ) (r : Fin 2 → ℝ) :
    plateRel2 t bc fr (c • r) = c • plateRel2 t bc fr r := by
  unfold plateRel2
  simp only [Pi.smul_apply, smul_eq_mul, slide2_scale hc, pos_scale hc, neg_scale hc]
  cases bc with
  | noSlip => simp
  | slipStick => simp only []; split_ifs <;> simp
  | slipFree => simp only []; split_ifs <;> simp

lemma plateRel3_scale {c : ℝ} (hc : 0 < c) (t : PlateType) (bc : BC) (fr : ℝ) (r : Fin 3 → ℝ) :
    plateRel3 t bc fr (c • r) = c • plateRel3 t bc fr r := by
  unfold plateRel3
  simp only [Pi.smul_apply, smul_eq_mul, slide3_scale hc, pos_scale hc, neg_scale hc]
  cases bc with
  | noSlip => simp
  | slipStick => simp only []; split_ifs <;> simp
  | slipFree => simp only []; split_ifs <;> simp

lemma factor_scale (p : Plate d) (f t : ℝ) : (U.plate p).factor (U.time * f) (U.time * t) = p.factor f t := by
  unfold Plate.factor
  show (if U.time * t < p.loadFactor * (U.time * f) then 1 / p.vminFactor else 1) = _
  rw [show p.loadFactor * (U.time * f) = U.time * (p.loadFactor * f) by ring]
  simp only [mul_lt_mul_iff_right₀ U.time_pos]

lemma disp_scale (dt v f : ℝ) : U.time * (dt * (U.speed * (v * f))) = U.len * (dt * (v * f)) := by
  have := U.time_ne
  unfold Scales.speed; field_simp

lemma plateScale2 : PlateScale U plateOps2 := by
  have hl := U.len_pos
  constructor
  · intro p X
    obtain ⟨pos, type, bc, fr, lo, up, v, vo, vm, lf⟩ := p
    cases type <;>
      simp only [plateOps2, Plate.inside2, Scales.plate, Pi.smul_apply, smul_eq_mul, ← mul_sub, nonpos_scale hl,
        mul_lt_mul_iff_right₀ hl, gt_iff_lt]
  · intro t bc fr r; exact plateRel2_scale U.speed_pos t bc fr r
  · intro p dt f t
    have hf := factor_scale U p f t
    have hd := disp_scale U
    obtain ⟨pos, type, bc, fr, lo, up, v, vo, vm, lf⟩ := p
    simp only [plateOps2, Plate.move2, hf]
    generalize Plate.factor _ f t = φ
    cases type <;>
      simp [Scales.plate, mul_add, mul_assoc, hd]

lemma plateScale3 : PlateScale U plateOps3 := by
  have hl := U.len_pos
  constructor
  · intro p X
    obtain ⟨pos, type, bc, fr, lo, up, v, vo, vm, lf⟩ := p
    cases type <;>
      simp only [plateOps3, Plate.inside3, Scales.plate, Pi.smul_apply, smul_eq_mul, ← mul_sub, nonpos_scale hl,
        mul_lt_mul_iff_right₀ hl, gt_iff_lt]
  · intro t bc fr r; exact plateRel3_scale U.speed_pos t bc fr r
  · intro p dt f t
    have hf := factor_scale U p f t
    have hd := disp_scale U
    obtain ⟨pos, type, bc, fr, lo, up, v, vo, vm, lf⟩ := p
    simp only [plateOps3, Plate.move3, hf]
    generalize Plate.factor _ f t = φ
    cases type <;>
      simp [Scales.plate, mul_add, mul_assoc, hd]

lemma boundaryCollision_scale {ops : PlateOps d} (h : PlateScale U ops) (mibf : Bool) (fr : ℕ → ℝ) (dt : ℝ)
    (objs : List (GenObject d)) (plates : List (Plate d)) (l : ℕ) (X v : Fin d → ℝ) :
    boundaryCollision ops mibf fr (U.time * dt) (objs.map U.object) (plates.map U.plate) l (U.len • X) (U.speed • v) =
      U.speed • boundaryCollision ops mibf fr dt objs plates l X v := by
  classical
  have hl := U.len_ne; have ht := U.time_ne
  unfold boundaryCollision
  have hX : U.len • X + (U.time * dt) • (U.speed • v) = U.len • (X + dt • v) := by
    rw [smul_add, smul_smul, smul_smul]
    congr 2
    unfold Scales.speed; field_simp
  simp only [hX]
  generalize X + dt • v = Y
  have h1 : ∀ (os : List (GenObject d)) (v : Fin d → ℝ),
      collideObjects (wallFriction mibf fr l) (U.len • Y) (os.map U.object) (U.speed • v) =
      U.speed • collideObjects (wallFriction mibf fr l) Y os v := by
    intro os
    unfold collideObjects
    induction os with
    | nil => intro v; rfl
    | cons o os ih =>
      intro v
      rw [List.map_cons, List.foldl_cons, List.foldl_cons, ← ih]
      congr 1
      have hY : U.len⁻¹ • U.len • Y = Y := by rw [smul_smul, inv_mul_cancel₀ hl, one_smul]
      refine ite_conv (f := fun x : Fin d → ℝ => U.speed • x) ?_ (fun _ => ?_) (fun _ => rfl)
      · show o.inside (U.len⁻¹ • U.len • Y) ↔ _
        rw [hY]
      · show objectRel o.bc _ (o.normal (U.len⁻¹ • U.len • Y)) _ = _
        rw [hY]
        exact objectRel_scale U.speed_pos _ _ _ _
  rw [h1]
  generalize collideObjects (wallFriction mibf fr l) Y objs v = v
  unfold collidePlates
  induction plates generalizing v with
  | nil => rfl
  | cons p ps ih =>
    rw [List.map_cons, List.foldl_cons, List.foldl_cons, ← ih]
    congr 1
    refine ite_conv (f := fun x : Fin d → ℝ => U.speed • x) (h.inside p Y) (fun _ => ?_) (fun _ => rfl)
    show ops.rel p.type p.bc _ (U.speed • v - U.speed • p.vel) + U.speed • p.vel = _
    rw [← smul_sub, h.rel, smul_add]
    rfl

end walls

/-! ### positions -/

section position
variable {d : ℕ} (U : Scales)

lemma wrapX_scale {c : ℝ} (hc : 0 < c) (L x : ℝ) : wrapX (c * L) (c * x) = c * wrapX L x := by
  unfold wrapX
  refine ite_conv (f := (c * ·)) (by simp only [gt_iff_lt, mul_lt_mul_iff_right₀ hc]) (fun _ => (mul_sub _ _ _).symm) (fun _ => ?_)
  exact ite_conv (f := (c * ·)) (neg_scale hc x) (fun _ => (mul_add _ _ _).symm) (fun _ => rfl)

lemma positionParticle_scale (P : TransferParams ℝ) (musl pbc ch : Bool) (hch : ch = false ∨ U.len = 1) (L dt : ℝ)
    (p : Particle (d + 2) ℝ) :
    positionParticle (U.params P) musl pbc ch (U.len * L) (U.time * dt) (U.particle p) =
      U.particle (positionParticle P musl pbc ch L dt p) := by
  have hl := U.len_ne; have ht := U.time_ne
  have e1 : (U.particle p).x + (U.time * dt) • (U.particle p).pic = U.len • (p.x + dt • p.pic) := by
    show U.len • p.x + (U.time * dt) • (U.speed • p.pic) = _
    rw [smul_add, smul_smul, smul_smul]
    congr 2
    unfold Scales.speed; field_simp
  have e2 : (if musl = true then (U.particle p).v else blendVelocity (U.params P) (U.particle p)) =
      U.speed • (if musl = true then p.v else blendVelocity P p) := by
    refine ite_conv (f := fun x : Fin (d + 2) → ℝ => U.speed • x) Iff.rfl (fun _ => rfl) (fun _ => blendVelocity_scale U P p)
  have e3 : ∀ x : Fin (d + 2) → ℝ, (if pbc = true then Function.update (U.len • x) 0 (wrapX (U.len * L) ((U.len • x) 0)) else U.len • x) =
      U.len • (if pbc = true then Function.update x 0 (wrapX L (x 0)) else x) := by
    intro x
    refine ite_conv (f := fun x : Fin (d + 2) → ℝ => U.len • x) Iff.rfl (fun _ => ?_) (fun _ => rfl)
    funext a
    by_cases ha : a = 0
    · subst ha; simp [wrapX_scale U.len_pos]
    · simp [ha]
  have e4 : ∀ x : Fin (d + 2) → ℝ, (if ch = true then reinsert (U.len • x) else U.len • x) =
      U.len • (if ch = true then reinsert x else x) := by
    intro x
    rcases hch with h | h
    · simp [h]
    · simp [h]
  simp only [positionParticle, e1, e2, e3, e4]
  rfl

lemma ghostPos_scale (dx L : ℝ) (k : ℕ) (x : Fin (d + 1) → ℝ) :
    ghostPos (U.len * dx) (U.len * L) k (U.len • x) = (ghostPos dx L k x).map (U.len • ·) := by
  have hl := U.len_pos
  unfold ghostPos
  have e1 : U.len * L - U.len * x 0 = U.len * (L - x 0) := by simp [mul_sub]
  have e2 : (k : ℝ) * (U.len * dx) = U.len * (k * dx) := by ring
  have e3 : (U.len • x) 0 = U.len * x 0 := rfl
  simp only [e3, e1, e2, mul_lt_mul_iff_right₀ hl, pos_scale hl]
  have up : ∀ y : ℝ, some (Function.update (U.len • x) 0 (U.len * y)) =
      (some (Function.update x 0 y)).map (U.len • ·) := by
    intro y
    rw [Option.map_some]
    congr 1
    funext a
    by_cases ha : a = 0
    · subst ha; simp
    · simp [ha]
  refine ite_conv (f := Option.map (U.len • ·)) Iff.rfl (fun _ => ?_) (fun _ => ?_)
  · rw [← up, mul_neg]
  · refine ite_conv (f := Option.map (U.len • ·)) ?_ (fun _ => ?_) (fun _ => rfl)
    · rw [ge_iff_le, ge_iff_le, ← not_lt, ← not_lt, neg_scale hl]
    · rw [← up, mul_add]

lemma ghosts_scale (dx L : ℝ) (k : ℕ) (ps : List (Particle (d + 1) ℝ)) :
    ghosts (U.len * dx) (U.len * L) k (ps.map U.particle) = (ghosts dx L k ps).map U.particle := by
  unfold ghosts
  rw [List.filterMap_map, List.map_filterMap]
  congr 1
  funext p
  show (ghostPos (U.len * dx) (U.len * L) k (U.len • p.x)).map _ = _
  rw [ghostPos_scale, Option.map_map, Option.map_map]
  rfl

end position
end Verif
