import Verif.Lemmas.Angular

set_option linter.unusedSectionVars false
set_option linter.unusedSimpArgs false

/-!
# C04–C06: momentum and angular momentum of one step and of a run
-/

namespace Verif.Props
open Verif Matrix
variable {K : Type*} [Field K] [LinearOrder K] [IsStrictOrderedRing K] [FloorRing K] {d : ℕ}

lemma sum_map_smul {M : Type*} [AddCommGroup M] [Module K M] {α : Type*} (L : List α) (a : K)
    (f : α → M) : (L.map fun x => a • f x).sum = a • (L.map f).sum := by
  rw [List.smul_sum, List.map_map]; rfl

lemma sum_map_add' {M : Type*} [AddCommMonoid M] {α : Type*} (L : List α) (f h : α → M) :
    (L.map fun x => f x + h x).sum = (L.map f).sum + (L.map h).sum := by
  induction L with
  | nil => simp
  | cons a L ih => simp only [List.map_cons, List.sum_cons, ih]; abel

section step
variable {deg : Deg} {dx fr m vol : K} {mibf : Bool} {g : Axes (d + 2) K} {S : StepParams (d + 2) K}
  {ps : List (Particle (d + 2) K)} {dt : K} {grav : Fin (d + 2) → K}
  {bc : ℕ → (Fin (d + 2) → K) → (Fin (d + 2) → K) → (Fin (d + 2) → K)}
  {plast : Particle (d + 2) K → Particle (d + 2) K} {threads : List (List (Particle (d + 2) K))}

/-- **C04** One step changes the total momentum by exactly `dt * total mass * gravity`, for every
`flip_ratio`, all stresses and every constitutive update, with or without MUSL. -/
theorem C04_step (hS : S.P = mkTransferParams deg dx fr mibf m vol) (hd : deg ≠ .one) (hm : 0 < m)
    (h : GoodGrid dx g ps) (hn : NoTinyWeights deg dx g ps) (ht : threads.flatten.Perm ps)
    (hbc : Untouched g bc) (hk : KeepsMotion plast) :
    ∃ qs, stepOnGrid S dt grav bc plast g [] threads ps = some qs ∧ qs.length = ps.length ∧
      momentum m qs = momentum m ps + (dt * (ps.length * m)) • grav := by
  have hP : S.P.deg = deg := by rw [hS]; rfl
  have hP1 : S.P.oneOverDx = 1 / dx := by rw [hS]; rfl
  have hPm : S.P.particleMass = m := by rw [hS]; rfl
  obtain ⟨F, hF, hF2⟩ := stepOnGrid_eq (S := S) (dt := dt) (grav := grav) (bc := bc) hP hP1 h ht hk
  refine ⟨_, hF, by simp, ?_⟩
  have hsum := euler_sums (P := S.P) (dt := dt) (grav := grav) hd (by rw [hPm]; exact hm) h hn hbc
  set e := stepEuler S deg dx dt grav bc g ps with he
  have h1 := sum_interpV (P := S.P) h hn e.v
  have h2 := sum_interpV (P := S.P) h hn e.flip
  rw [hPm] at h1 h2
  have h1' := h1.trans hsum.1
  have h2' := h2.trans hsum.2
  rw [hPm] at h1' h2'
  rw [sum_map_smul] at h1' h2'
  simp only [momentum]
  rw [List.map_map, sum_map_smul]
  have hv : ∀ p ∈ ps, ((fun q => m • q.v) ∘ F) p = m • blendVelocity S.P
      (g2pTransfer S.P g.size e p (stencilOf deg dx g p.x)) := fun p hp => by
    simp only [Function.comp, (hF2 p hp).1]
  rw [List.map_congr_left hv, sum_map_smul]
  by_cases hc1 : S.P.flipRatio < -1
  · simp only [blendVelocity, hc1, if_true, g2pTransfer]
    exact h1'
  · have hge : S.P.flipRatio ≥ -1 := not_lt.mp hc1
    have key : ∀ a : K, m • (ps.map fun p => a • (p.v + interpV g.size e.flip (stencilOf deg dx g p.x)) +
        (1 - a) • interpV g.size e.v (stencilOf deg dx g p.x)).sum =
        m • (ps.map fun p => p.v).sum + (dt * (ps.length * m)) • grav := by
      intro a
      rw [sum_map_add', sum_map_smul, sum_map_smul, sum_map_add', smul_add, smul_comm m a,
        smul_comm m (1 - a), smul_add m, h1', h2']
      rw [sub_smul, one_smul]; abel
    by_cases hc2 : S.P.flipRatio < 0
    · simp only [blendVelocity, hc1, hc2, if_true, if_false, g2pTransfer, hge]
      exact key _
    · simp only [blendVelocity, hc1, hc2, if_true, if_false, g2pTransfer, hge]
      exact key _

/-- **C05** Momentum balance of a run: after `n` steps (re-meshing included, without periodic
boundaries) with arbitrary time steps, gravity, constitutive updates and schedules. -/
theorem C05_run (hS : S.P = mkTransferParams deg dx fr mibf m vol) (hd : deg ≠ .one) (hm : 0 < m)
    (hpbc : S.pbc = false) (n : ℕ) (σ : ℕ → SimState (d + 2) K) (dt : ℕ → K)
    (grav : ℕ → Fin (d + 2) → K)
    (bc : ℕ → ℕ → (Fin (d + 2) → K) → (Fin (d + 2) → K) → (Fin (d + 2) → K))
    (plast : ℕ → Particle (d + 2) K → Particle (d + 2) K)
    (sched : ℕ → List (Particle (d + 2) K) → List (List (Particle (d + 2) K)))
    (hsched : ∀ k ps, (sched k ps).flatten.Perm ps)
    (hstep : ∀ k < n, advanceStep S (dt k) (grav k) (bc k) (plast k) (sched k) (σ k) =
      some (σ (k + 1)))
    (hgood : ∀ k < n, GoodGrid dx (σ (k + 1)).g (σ k).ps)
    (hn : ∀ k < n, NoTinyWeights deg dx (σ (k + 1)).g (σ k).ps)
    (hbc : ∀ k < n, Untouched (σ (k + 1)).g (bc k))
    (hk : ∀ k < n, KeepsMotion (plast k)) :
    (σ n).ps.length = (σ 0).ps.length ∧
    momentum m (σ n).ps = momentum m (σ 0).ps +
      ∑ k ∈ Finset.range n, (dt k * ((σ 0).ps.length * m)) • grav k := by
  induction n with
  | zero => simp
  | succ n ih =>
    obtain ⟨ih1, ih2⟩ := ih (fun k hk => hstep k (by omega)) (fun k hk => hgood k (by omega))
      (fun k hk => hn k (by omega)) (fun k hk => hbc k (by omega)) (fun k h => hk k (by omega))
    have hs := hstep n (by omega)
    simp only [advanceStep, hpbc, Bool.false_eq_true, if_false, List.append_nil, Option.bind_eq_bind,
      Option.bind_eq_some_iff] at hs
    obtain ⟨bg, _, qs, hqs, hσ⟩ := hs
    have hσ' := Option.some.inj hσ
    have hg : (σ (n + 1)).g = bg.2 := by rw [← hσ']
    have hps : (σ (n + 1)).ps = qs := by rw [← hσ']
    obtain ⟨qs', h1, h2, h3⟩ := C04_step (S := S) (dt := dt n) (grav := grav n) (bc := bc n) hS hd hm
      (hgood n (by omega)) (hn n (by omega)) (hsched n _) (hbc n (by omega)) (hk n (by omega))
    rw [hg, hqs] at h1
    have : qs = qs' := Option.some.inj h1
    rw [hps, this, h2, h3, ih1, ih2, Finset.sum_range_succ]
    exact ⟨rfl, by abel⟩

end step

/-! ### angular momentum -/

section angular
variable {deg : Deg} {dx fr m vol : K} {mibf : Bool}

lemma apic_D (hd : deg ≠ .one) {g : Axes d K} {ps : List (Particle d K)} (h : GoodGrid dx g ps) :
    ∀ p ∈ ps, ∃ D, StencilGradOK D p.x (stencilOf deg dx g p.x) ∧
      (mkTransferParams deg dx fr mibf m vol).apicDinverse * D = 1 := by
  intro p hp
  have hg := h.good (deg := deg) hp
  have hdx := h.dx_pos.ne'
  cases deg with
  | one => exact absurd rfl hd
  | two => exact ⟨_, hg.grad2 rfl, by simp only [mkTransferParams]; field_simp⟩
  | three => exact ⟨_, hg.grad3 rfl, by simp only [mkTransferParams]; field_simp⟩

lemma listSum_transpose {n : Type*} (L : List (Matrix n n K)) : (L.sum)ᵀ = (L.map transpose).sum := by
  induction L with
  | nil => simp
  | cons a L ih => simp [ih]

/-- **C06** Particle-to-grid transfer (APIC/AFLIP) preserves angular momentum. -/
theorem C06_p2g {g : Axes d K} {threads : List (List (Particle d K))} (hd : deg ≠ .one)
    (hfr : fr < 0) (h : GoodGrid dx g threads.flatten)
    (hn : NoTinyWeights deg dx g threads.flatten) :
    ∃ arr, P2G (mkTransferParams deg dx fr mibf m vol) g threads = some arr ∧
      (∑ i ∈ gridIndices g, (arr (flatIndex g.size i)).mass •
        (vecMulVec (arr (flatIndex g.size i)).v (nodeAt g i) -
          vecMulVec (nodeAt g i) (arr (flatIndex g.size i)).v)) =
        angularMomentum m threads.flatten := by
  refine ⟨_, P2G_eq (deg := deg) rfl rfl h, ?_⟩
  set P := mkTransferParams deg dx fr mibf m vol with hP
  have hm := sum_raw_vMoment (P := P) hfr h hn (apic_D hd h)
  have hsum : ∑ i ∈ gridIndices g, (p2gFinish P (raw P deg dx g threads.flatten)
        (flatIndex g.size i)).mass • vecMulVec (p2gFinish P (raw P deg dx g threads.flatten)
        (flatIndex g.size i)).v (nodeAt g i) =
      (threads.flatten.map fun p => m • (vecMulVec p.v p.x + p.Bmat)).sum := by
    rw [sum_map_smul, ← hm]
    rw [← sum_gridIndices g fun l => vecMulVec (raw P deg dx g threads.flatten l).v (posAt g l),
      Finset.smul_sum]
    refine Finset.sum_congr rfl fun i hi => ?_
    rw [← smul_vecMulVec, finish_momentum, posAt_flat (mem_gridIndices.mp hi), smul_vecMulVec]
    rfl
  simp only [smul_sub, Finset.sum_sub_distrib, angularMomentum]
  congr 1
  rw [← hsum, Matrix.transpose_sum]
  simp only [transpose_smul, transpose_vecMulVec]

section step
variable {g : Axes (d + 2) K} {S : StepParams (d + 2) K}
  {ps : List (Particle (d + 2) K)} {dt : K} {grav : Fin (d + 2) → K}
  {bc : ℕ → (Fin (d + 2) → K) → (Fin (d + 2) → K) → (Fin (d + 2) → K)}
  {plast : Particle (d + 2) K → Particle (d + 2) K} {threads : List (List (Particle (d + 2) K))}

/-- **C06** With pure APIC (`flip_ratio < -1`) and symmetric stresses a whole step changes the total
angular momentum only by the torque of gravity. -/
theorem C06_step (hS : S.P = mkTransferParams deg dx fr mibf m vol) (hd : deg ≠ .one) (hm : 0 < m)
    (hfr : fr < -1) (hpbc : S.pbc = false) (hcp : S.changePos = false)
    (h : GoodGrid dx g ps) (hn : NoTinyWeights deg dx g ps) (ht : threads.flatten.Perm ps)
    (hbc : Untouched g bc) (hk : KeepsMotion plast) (hsym : ∀ p ∈ ps, p.tauᵀ = p.tau) :
    ∃ qs, stepOnGrid S dt grav bc plast g [] threads ps = some qs ∧
      angularMomentum m qs = angularMomentum m ps +
        dt • (ps.map fun p => m • (vecMulVec grav p.x - vecMulVec p.x grav)).sum := by
  have hP : S.P.deg = deg := by rw [hS]; rfl
  have hP1 : S.P.oneOverDx = 1 / dx := by rw [hS]; rfl
  have hPm : S.P.particleMass = m := by rw [hS]; rfl
  have hPv : S.P.flipRatio = fr := by rw [hS]; rfl
  have hfr0 : fr < 0 := by linarith
  obtain ⟨F, hF, hF2⟩ := stepOnGrid_eq (S := S) (dt := dt) (grav := grav) (bc := bc) hP hP1 h ht hk
  refine ⟨_, hF, ?_⟩
  set e := stepEuler S deg dx dt grav bc g ps with he
  set vol' := S.P.particleVolume
  -- the new particle tensor
  have hnew : ∀ p ∈ ps, m • (vecMulVec (F p).v (F p).x + (F p).Bmat) =
      m • (vecMulVec (interpV g.size e.v (stencilOf deg dx g p.x)) p.x +
        interpB g.size e.v (stencilOf deg dx g p.x) p.x) +
      (m * dt) • vecMulVec (interpV g.size e.v (stencilOf deg dx g p.x))
        (interpV g.size e.v (stencilOf deg dx g p.x)) := by
    intro p hp
    obtain ⟨h1, h2, h3, h4, -⟩ := hF2 p hp
    rw [h1, h3, h4]
    have hc : S.P.flipRatio < -1 := by rw [hPv]; exact hfr
    have hc0 : S.P.flipRatio < 0 := by rw [hPv]; exact hfr0
    simp only [blendVelocity, hc, if_true, g2pTransfer, hc0, positionParticle, hpbc, hcp,
      Bool.false_eq_true, if_false, vecMulVec_add, vecMulVec_smul, ← he, smul_add, smul_smul]
    abel
  -- grid sum
  have hgrid := sum_g2p_moment (P := S.P) (deg := deg) h hn e.v
  have hnode : ∀ l ∈ Finset.range (gridNodes g.size),
      m • ((raw S.P deg dx g ps l).mass • vecMulVec (e.v l) (posAt g l)) =
      m • vecMulVec (raw S.P deg dx g ps l).v (posAt g l) -
      (dt * vol') • vecMulVec (raw S.P deg dx g ps l).force (posAt g l) +
      (dt * m) • vecMulVec grav ((raw S.P deg dx g ps l).mass • posAt g l) := by
    intro l hl
    have := (euler_node (P := S.P) (deg := deg) (dx := dx) (dt := dt) (grav := grav) (ps := ps)
      (by rw [hPm]; exact hm) hbc (Finset.mem_range.mp hl)).1
    rw [finish_mass, hPm] at this
    have h2 := congrArg (fun y => vecMulVec y (posAt g l)) this
    simp only [sub_eq_add_neg, add_vecMulVec, neg_vecMulVec, smul_vecMulVec] at h2
    rw [smul_smul, mul_comm m]
    refine h2.trans ?_
    rw [sub_eq_add_neg, vecMulVec_smul]
    congr 1
    rw [smul_smul]; congr 1; ring
  have hJ : ((ps.map F).map fun q => m • (vecMulVec q.v q.x + q.Bmat)).sum =
      (ps.map fun p => m • (vecMulVec p.v p.x + p.Bmat)).sum -
      (dt * vol') • (ps.map fun p => p.tau).sum +
      (dt * m) • vecMulVec grav (ps.map fun p => p.x).sum +
      (ps.map fun p => (m * dt) • vecMulVec (interpV g.size e.v (stencilOf deg dx g p.x))
        (interpV g.size e.v (stencilOf deg dx g p.x))).sum := by
    have hmap : ((ps.map F).map fun q => m • (vecMulVec q.v q.x + q.Bmat)) =
        ps.map fun p => m • (vecMulVec (interpV g.size e.v
      (stencilOf deg dx g p.x)) p.x + interpB g.size e.v (stencilOf deg dx g p.x) p.x) +
      (m * dt) • vecMulVec (interpV g.size e.v (stencilOf deg dx g p.x))
        (interpV g.size e.v (stencilOf deg dx g p.x)) := by
      rw [List.map_map]
      exact List.map_congr_left fun p hp => hnew p hp
    rw [hmap, sum_map_add']
    congr 1
    rw [sum_map_smul, hgrid, Finset.smul_sum, Finset.sum_congr rfl hnode, Finset.sum_add_distrib,
      Finset.sum_sub_distrib, ← Finset.smul_sum, ← Finset.smul_sum, ← Finset.smul_sum,
      sum_raw_vMoment (P := S.P) (by rw [hPv]; exact hfr0) h hn (by rw [hS]; exact apic_D hd h),
      sum_raw_fMoment hd h hn, sum_map_smul]
    congr 2
    rw [← sum_raw_pos (P := S.P) h hn]
    ext a b
    simp only [Matrix.sum_apply, vecMulVec_apply, Finset.sum_apply, Finset.mul_sum]
  have htau : ((ps.map fun p => p.tau).sum)ᵀ = (ps.map fun p => p.tau).sum := by
    rw [listSum_transpose, List.map_map]
    congr 1
    exact List.map_congr_left fun p hp => hsym p hp
  have hpic : (ps.map fun p => (m * dt) • vecMulVec (interpV g.size e.v (stencilOf deg dx g p.x))
        (interpV g.size e.v (stencilOf deg dx g p.x))).sumᵀ =
      (ps.map fun p => (m * dt) • vecMulVec (interpV g.size e.v (stencilOf deg dx g p.x))
        (interpV g.size e.v (stencilOf deg dx g p.x))).sum := by
    rw [listSum_transpose, List.map_map]
    congr 1
    exact List.map_congr_left fun p hp => by
      simp only [Function.comp, transpose_smul, transpose_vecMulVec]
  have hgr : dt • (ps.map fun p => m • (vecMulVec grav p.x - vecMulVec p.x grav)).sum =
      (dt * m) • vecMulVec grav (ps.map fun p => p.x).sum -
      ((dt * m) • vecMulVec grav (ps.map fun p => p.x).sum)ᵀ := by
    rw [sum_map_smul, smul_smul, transpose_smul, ← smul_sub, transpose_vecMulVec]
    congr 1
    clear hn h ht hsym hF hF2 hgrid hnode hnew hJ htau hpic he e
    induction ps with
    | nil => simp
    | cons p ps ih =>
      simp only [List.map_cons, List.sum_cons, ih, vecMulVec_add, add_vecMulVec]
      abel
  simp only [angularMomentum]
  rw [hJ, hgr]
  simp only [transpose_add, transpose_sub, htau, hpic, transpose_smul]
  abel

end step
end angular
end Verif.Props
