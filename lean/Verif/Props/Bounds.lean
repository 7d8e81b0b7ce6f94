import Verif.Props.Reproduce
import Verif.Props.Transfer
import Verif.Props.Spline

set_option linter.unusedSectionVars false
set_option linter.unusedSimpArgs false

/-!
# C09, C10, C47, C48, C50, C53 (deformation), C55
-/

namespace Verif.Props
open Verif Matrix
variable {K : Type*} [Field K] [LinearOrder K] [IsStrictOrderedRing K] [FloorRing K] {d : ℕ}

lemma list_sum_le {α : Type*} {L : List α} {f h : α → K} (hle : ∀ a ∈ L, f a ≤ h a) :
    (L.map f).sum ≤ (L.map h).sum := List.sum_le_sum hle

lemma list_jensen {α : Type*} (L : List α) (w f : α → K) (hw : ∀ a ∈ L, 0 ≤ w a) (V : K)
    (hV : (L.map fun a => w a * f a).sum = (L.map w).sum * V) :
    (L.map w).sum * V ^ 2 ≤ (L.map fun a => w a * f a ^ 2).sum := by
  have h0 : 0 ≤ (L.map fun a => w a * (f a - V) ^ 2).sum :=
    List.sum_nonneg fun x hx => by
      obtain ⟨a, ha, rfl⟩ := List.mem_map.mp hx
      exact mul_nonneg (hw a ha) (sq_nonneg _)
  have e : (L.map fun a => w a * (f a - V) ^ 2).sum = (L.map fun a => w a * f a ^ 2).sum -
      2 * V * (L.map fun a => w a * f a).sum + V ^ 2 * (L.map w).sum := by
    clear hV h0 hw
    induction L with
    | nil => simp
    | cons a L ih => simp only [List.map_cons, List.sum_cons, ih]; ring
  rw [e, hV] at h0
  linarith [h0]

section
variable {deg : Deg} {dx fr m vol : K} {mibf : Bool} {g : Axes d K}

lemma pos_of_finish_pos {P : TransferParams K} {ps : List (Particle d K)} {l : ℕ}
    (hpos : 0 < (p2gFinish P (raw P deg dx g ps) l).mass) : 0 < (raw P deg dx g ps l).mass := by
  refine lt_of_le_of_ne (raw_mass_nonneg _) fun h0 => ?_
  rw [finish_mass, ← h0, zero_mul] at hpos
  exact lt_irrefl _ hpos

/-- A weighted average of bounded values is bounded. -/
lemma avg_bounds {α : Type*} {L : List α} {w f : α → K} {lo hi S : K} (hw : ∀ a ∈ L, 0 ≤ w a)
    (hf : ∀ a ∈ L, w a ≠ 0 → lo ≤ f a ∧ f a ≤ hi) (hS : S = (L.map w).sum) (hpos : 0 < S) :
    lo ≤ S⁻¹ * (L.map fun a => w a * f a).sum ∧ S⁻¹ * (L.map fun a => w a * f a).sum ≤ hi := by
  have h1 : (L.map fun a => w a * lo).sum ≤ (L.map fun a => w a * f a).sum := list_sum_le fun a ha => by
    by_cases h0 : w a = 0
    · rw [h0]; simp
    · exact mul_le_mul_of_nonneg_left (hf a ha h0).1 (hw a ha)
  have h2 : (L.map fun a => w a * f a).sum ≤ (L.map fun a => w a * hi).sum := list_sum_le fun a ha => by
    by_cases h0 : w a = 0
    · rw [h0]; simp
    · exact mul_le_mul_of_nonneg_left (hf a ha h0).2 (hw a ha)
  rw [List.sum_map_mul_right, ← hS] at h1 h2
  rw [← div_eq_inv_mul]
  constructor
  · rw [le_div_iff₀ hpos]; linarith
  · rw [div_le_iff₀ hpos]; linarith

/-- **C09** After a PIC/FLIP particle-to-grid transfer every component of a nodal velocity lies
between the extremes of that component over the particles that contribute to the node. -/
theorem C09_p2g {threads : List (List (Particle d K))} (hfr : 0 ≤ fr)
    (h : GoodGrid dx g threads.flatten) :
    ∃ arr, P2G (mkTransferParams deg dx fr mibf m vol) g threads = some arr ∧
      ∀ i, IsNode g i → 0 < (arr (flatIndex g.size i)).mass → ∀ (b : Fin d) (lo hi : K),
        (∀ p ∈ threads.flatten, 1 / 10 ^ 25 < shape deg dx (nodeAt g i) p.x → lo ≤ p.v b ∧ p.v b ≤ hi) →
        lo ≤ (arr (flatIndex g.size i)).v b ∧ (arr (flatIndex g.size i)).v b ≤ hi := by
  refine ⟨_, P2G_eq (deg := deg) rfl rfl h, fun i hi hpos b lo hi' hb => ?_⟩
  set P := mkTransferParams deg dx fr mibf m vol with hP
  have hpos' := pos_of_finish_pos hpos
  have hf : ¬ P.flipRatio < 0 := not_lt.mpr hfr
  have hraw := raw_node (P := P) (deg := deg) h hi
  let w : Particle d K → K := fun p =>
    if shape deg dx (nodeAt g i) p.x > cutoff then shape deg dx (nodeAt g i) p.x else 0
  have hmass : (raw P deg dx g threads.flatten (flatIndex g.size i)).mass =
      (threads.flatten.map w).sum := by
    have h1 := congrArg (Cell.massHom (d := d) (K := K)) hraw
    rw [map_list_sum, List.map_map] at h1
    refine h1.trans ?_
    congr 1
    refine List.map_congr_left fun p _ => ?_
    simp only [Function.comp, w]
    split_ifs <;> rfl
  have hv : (raw P deg dx g threads.flatten (flatIndex g.size i)).v b =
      (threads.flatten.map fun p => w p * p.v b).sum := by
    have h1 := congrArg ((Pi.evalAddMonoidHom (fun _ : Fin d => K) b).comp
      (Cell.vHom (d := d) (K := K))) hraw
    rw [map_list_sum, List.map_map] at h1
    refine h1.trans ?_
    congr 1
    refine List.map_congr_left fun p _ => ?_
    simp only [Function.comp, w]
    split_ifs
    · simp only [AddMonoidHom.comp_apply, Cell.vHom_apply, nodeContribution, hf, if_false, add_zero,
        Pi.evalAddMonoidHom_apply, Pi.smul_apply, smul_eq_mul]
    · rw [map_zero, zero_mul]
  have := avg_bounds (L := threads.flatten) (w := w) (f := fun p => p.v b) (lo := lo) (hi := hi')
    (fun p _ => by
      simp only [w]; split_ifs with hc
      · exact (cutoff_pos.trans hc).le
      · exact le_rfl)
    (fun p hp hw => hb p hp (by
      by_contra hc
      exact hw (if_neg hc))) hmass hpos'
  have hval : (p2gFinish P (raw P deg dx g threads.flatten) (flatIndex g.size i)).v b =
      (raw P deg dx g threads.flatten (flatIndex g.size i)).mass⁻¹ *
        (threads.flatten.map fun p => w p * p.v b).sum := by
    rw [← hv]
    show (if (raw P deg dx g threads.flatten (flatIndex g.size i)).mass > 0 then _ else _ :
      Fin d → K) b = _
    rw [if_pos hpos']; rfl
  rw [hval]; exact this

/-- **C50** With `use_mibf` the friction of a massive node lies between the extremes over the
particles that contribute to the node. -/
theorem C50_friction {threads : List (List (Particle d K))}
    (h : GoodGrid dx g threads.flatten) :
    ∃ arr, P2G (mkTransferParams deg dx fr true m vol) g threads = some arr ∧
      ∀ i, IsNode g i → 0 < (arr (flatIndex g.size i)).mass → ∀ (lo hi : K),
        (∀ p ∈ threads.flatten, 1 / 10 ^ 25 < shape deg dx (nodeAt g i) p.x → lo ≤ p.muI ∧ p.muI ≤ hi) →
        lo ≤ (arr (flatIndex g.size i)).friction ∧ (arr (flatIndex g.size i)).friction ≤ hi := by
  refine ⟨_, P2G_eq (deg := deg) rfl rfl h, fun i hi hpos lo hi' hb => ?_⟩
  set P := mkTransferParams deg dx fr true m vol with hP
  have hpos' := pos_of_finish_pos hpos
  have hraw := raw_node (P := P) (deg := deg) h hi
  let w : Particle d K → K := fun p =>
    if shape deg dx (nodeAt g i) p.x > cutoff then shape deg dx (nodeAt g i) p.x else 0
  have hmass : (raw P deg dx g threads.flatten (flatIndex g.size i)).mass =
      (threads.flatten.map w).sum := by
    have h1 := congrArg (Cell.massHom (d := d) (K := K)) hraw
    rw [map_list_sum, List.map_map] at h1
    refine h1.trans ?_
    congr 1
    refine List.map_congr_left fun p _ => ?_
    simp only [Function.comp, w]
    split_ifs <;> rfl
  have hv : (raw P deg dx g threads.flatten (flatIndex g.size i)).friction =
      (threads.flatten.map fun p => w p * p.muI).sum := by
    have h1 := congrArg (Cell.frictionHom (d := d) (K := K)) hraw
    rw [map_list_sum, List.map_map] at h1
    refine h1.trans ?_
    congr 1
    refine List.map_congr_left fun p _ => ?_
    simp only [Function.comp, w]
    split_ifs
    · have hm : P.useMibf = true := rfl
      simp only [Cell.frictionHom_apply, nodeContribution, hm, if_true, mul_comm]
    · rw [map_zero, zero_mul]
  have := avg_bounds (L := threads.flatten) (w := w) (f := fun p => p.muI) (lo := lo) (hi := hi')
    (fun p _ => by
      simp only [w]; split_ifs with hc
      · exact (cutoff_pos.trans hc).le
      · exact le_rfl)
    (fun p hp hw => hb p hp (by
      by_contra hc
      exact hw (if_neg hc))) hmass hpos'
  have hval : (p2gFinish P (raw P deg dx g threads.flatten) (flatIndex g.size i)).friction =
      (raw P deg dx g threads.flatten (flatIndex g.size i)).mass⁻¹ *
        (threads.flatten.map fun p => w p * p.muI).sum := by
    rw [← hv, mul_comm, ← div_eq_mul_inv]; rfl
  rw [hval]; exact this

lemma shapeGrad_eq_zero {X x : Fin d → K} (h : shape deg dx X x = 0) : shapeGrad deg dx X x = 0 := by
  obtain ⟨a, _, ha⟩ := Finset.prod_eq_zero_iff.mp h
  funext b
  apply Finset.prod_eq_zero (Finset.mem_univ a)
  split_ifs
  · rw [dN_eq_zero_of_N_eq_zero ha, zero_div]
  · exact ha

/-- Sum over the stencil = sum over all grid nodes. -/
lemma _root_.Verif.GoodAt.sum_nodes {M : Type*} [AddCommMonoid M] {x : Fin d → K} {s : Stencil d K}
    (hg : GoodAt deg dx g x s) (f : (Fin d → ℕ) → M)
    (h0 : ∀ i, IsNode g i → shape deg dx (nodeAt g i) x = 0 → f i = 0) :
    ∑ c, f (s.node c) = ∑ i ∈ gridIndices g, f i := by
  classical
  have hinj : Function.Injective s.node := fun c c' e => hg.ok.idx_inj (by rw [e])
  rw [← Finset.sum_image (s := Finset.univ) (g := s.node) (f := f) fun c _ c' _ e => hinj e]
  refine Finset.sum_subset ?_ ?_
  · intro i hi
    obtain ⟨c, _, rfl⟩ := Finset.mem_image.mp hi
    exact mem_gridIndices.mpr (hg.ok.node_lt c)
  · intro i hi hni
    have hi' := mem_gridIndices.mp hi
    exact h0 i hi' (hg.out i hi' fun c hc => hni (Finset.mem_image.mpr ⟨c, Finset.mem_univ c, hc⟩))

/-- **C55** What G2P computes for a particle: the textbook sums over all grid
nodes, and nothing else changes before the constitutive update `plast` runs. -/
theorem C55_g2p_sums {e : EulerArr d K} {ps : List (Particle d K)} {dt : K}
    {plast : Particle d K → Particle d K} (h : GoodGrid dx g ps) :
    ∃ qs, G2P (mkTransferParams deg dx fr mibf m vol) false dt plast g e ps = some qs ∧
      List.Forall₂ (fun p q =>
        let N := fun i => shape deg dx (nodeAt g i) p.x
        let v := fun i => e.v (flatIndex g.size i)
        q = plast { p with
          pic := ∑ i ∈ gridIndices g, N i • v i
          flip := if fr ≥ -1 then ∑ i ∈ gridIndices g, N i • e.flip (flatIndex g.size i) else 0
          Bmat := if fr < 0 then ∑ i ∈ gridIndices g, N i • vecMulVec (v i) (nodeAt g i - p.x) else 0
          F := p.F + dt • ((∑ i ∈ gridIndices g,
            vecMulVec (v i) (shapeGrad deg dx (nodeAt g i) p.x)) * p.F) }) ps qs := by
  have hw := withStencilsG2P_eq (deg := deg) (P := mkTransferParams deg dx fr mibf m vol) rfl rfl h
  refine ⟨ps.map fun p => g2pParticle (mkTransferParams deg dx fr mibf m vol) false dt plast g.size e
    (p, stencilOf deg dx g p.x), ?_, forall₂_map fun p hp => ?_⟩
  · simp only [G2P, hw, Option.bind_eq_bind, Option.bind_some, List.map_map]; rfl
  have hg := h.good (deg := deg) hp
  intro N v
  have hV : ∀ u : ℕ → Fin d → K, interpV g.size u (stencilOf deg dx g p.x) =
      ∑ i ∈ gridIndices g, N i • u (flatIndex g.size i) := by
    intro u
    rw [interpV_eq, ← hg.sum_nodes (fun i => N i • u (flatIndex g.size i)) fun i _ h0 => by
      simp only [N, h0, zero_smul]]
    exact Finset.sum_congr rfl fun c _ => by simp only [N, hg.weight c, hg.pos c]
  have hB : interpB g.size e.v (stencilOf deg dx g p.x) p.x =
      ∑ i ∈ gridIndices g, N i • vecMulVec (v i) (nodeAt g i - p.x) := by
    rw [interpB_eq, ← hg.sum_nodes (fun i => N i • vecMulVec (v i) (nodeAt g i - p.x))
      fun i _ h0 => by simp only [N, h0, zero_smul]]
    exact Finset.sum_congr rfl fun c _ => by simp only [N, v, hg.weight c, hg.pos c]
  have hG : interpGrad g.size e.v (stencilOf deg dx g p.x) =
      ∑ i ∈ gridIndices g, vecMulVec (v i) (shapeGrad deg dx (nodeAt g i) p.x) := by
    rw [interpGrad_eq, ← hg.sum_nodes (fun i => vecMulVec (v i) (shapeGrad deg dx (nodeAt g i) p.x))
      fun i _ h0 => by simp only [shapeGrad_eq_zero h0, vecMulVec_zero]]
    exact Finset.sum_congr rfl fun c _ => by simp only [v, hg.wgrad c, hg.pos c]
  simp only [g2pParticle, Bool.false_eq_true, if_false, g2pTransfer, hV, hB, hG, trialF]
  rfl

/-- **C09** Every component of the velocity interpolated to a particle lies between the extremes of
that component over the nodes whose shape function does not vanish at the particle. -/
theorem C09_g2p {e : EulerArr d K} {ps : List (Particle d K)} {dt : K}
    {plast : Particle d K → Particle d K} (hk : KeepsMotion plast) (h : GoodGrid dx g ps) :
    ∃ qs, G2P (mkTransferParams deg dx fr mibf m vol) false dt plast g e ps = some qs ∧
      List.Forall₂ (fun p q => ∀ (b : Fin d) (lo hi : K),
        (∀ i, IsNode g i → 0 < shape deg dx (nodeAt g i) p.x →
          lo ≤ e.v (flatIndex g.size i) b ∧ e.v (flatIndex g.size i) b ≤ hi) →
        lo ≤ q.pic b ∧ q.pic b ≤ hi) ps qs := by
  have hw := withStencilsG2P_eq (deg := deg) (P := mkTransferParams deg dx fr mibf m vol) rfl rfl h
  refine ⟨ps.map fun p => g2pParticle (mkTransferParams deg dx fr mibf m vol) false dt plast g.size e
    (p, stencilOf deg dx g p.x), ?_, forall₂_map fun p hp => ?_⟩
  · simp only [G2P, hw, Option.bind_eq_bind, Option.bind_some, List.map_map]; rfl
  have hg := h.good (deg := deg) hp
  intro b lo hi hb
  simp only [g2pParticle, Bool.false_eq_true, if_false, hk.pic, g2pTransfer, interpV_eq]
  rw [Finset.sum_apply]
  set s := stencilOf deg dx g p.x
  have hc : ∀ c, s.weight c * lo ≤ s.weight c * e.v (flatIndex g.size (s.node c)) b ∧
      s.weight c * e.v (flatIndex g.size (s.node c)) b ≤ s.weight c * hi := by
    intro c
    rcases (hg.ok.weight_nonneg c).eq_or_lt with h0 | h0
    · rw [← h0]; simp
    · have := hb (s.node c) (hg.ok.node_lt c) (by rw [← hg.pos c, ← hg.weight c]; exact h0)
      exact ⟨mul_le_mul_of_nonneg_left this.1 h0.le, mul_le_mul_of_nonneg_left this.2 h0.le⟩
  constructor
  · calc lo = ∑ c, s.weight c * lo := by rw [← Finset.sum_mul, hg.ok.sum_weight, one_mul]
      _ ≤ _ := Finset.sum_le_sum fun c _ => (hc c).1
  · calc _ ≤ ∑ c, s.weight c * hi := Finset.sum_le_sum fun c _ => (hc c).2
      _ = hi := by rw [← Finset.sum_mul, hg.ok.sum_weight, one_mul]

/-- **C10** PIC/FLIP particle-to-grid transfer does not create kinetic energy. -/
theorem C10_p2g {threads : List (List (Particle d K))} (hfr : 0 ≤ fr) (hm : 0 ≤ m)
    (h : GoodGrid dx g threads.flatten) :
    ∃ arr, P2G (mkTransferParams deg dx fr mibf m vol) g threads = some arr ∧
      ∑ l ∈ Finset.range (gridNodes g.size), (arr l).mass / 2 * ((arr l).v ⬝ᵥ (arr l).v) ≤
        kineticEnergy m threads.flatten := by
  refine ⟨_, P2G_eq (deg := deg) rfl rfl h, ?_⟩
  set P := mkTransferParams deg dx fr mibf m vol with hP
  have hPm : P.particleMass = m := rfl
  have hf : ¬ P.flipRatio < 0 := not_lt.mpr hfr
  generalize hps : threads.flatten = ps at *
  let w : ℕ → Particle d K → K := fun l p =>
    oneSum g.size (stencilOf deg dx g p.x) (stencilOf deg dx g p.x).weight l
  have hw0 : ∀ l p, 0 ≤ w l p := fun l p => oneSum_weight_nonneg l
  have hmass : ∀ l, (raw P deg dx g ps l).mass = (ps.map (w l)).sum := fun l => raw_mass l
  have hv : ∀ l b, (raw P deg dx g ps l).v b = (ps.map fun p => w l p * p.v b).sum := by
    intro l b
    have h1 := raw_hom (P := P) (deg := deg) (dx := dx) (g := g) (ps := ps)
      ((Pi.evalAddMonoidHom (fun _ : Fin d => K) b).comp (Cell.vHom (d := d) (K := K))) l
    refine h1.trans ?_
    congr 1
    refine List.map_congr_left fun p _ => ?_
    simp only [w, oneSum, Finset.sum_mul]
    refine Finset.sum_congr rfl fun c _ => ?_
    split_ifs
    · simp only [AddMonoidHom.comp_apply, Cell.vHom_apply, contribution, hf, if_false, add_zero,
        Pi.evalAddMonoidHom_apply, Pi.smul_apply, smul_eq_mul]
    · rw [zero_mul]
  -- node-wise
  have hnode : ∀ l, (p2gFinish P (raw P deg dx g ps) l).mass / 2 *
      ((p2gFinish P (raw P deg dx g ps) l).v ⬝ᵥ (p2gFinish P (raw P deg dx g ps) l).v) ≤
      m / 2 * (ps.map fun p => w l p * (p.v ⬝ᵥ p.v)).sum := by
    intro l
    rw [finish_mass, hPm]
    by_cases hpos : (raw P deg dx g ps l).mass > 0
    · have hval : ∀ b, (p2gFinish P (raw P deg dx g ps) l).v b =
          (raw P deg dx g ps l).mass⁻¹ * (ps.map fun p => w l p * p.v b).sum := by
        intro b
        rw [← hv]
        show (if (raw P deg dx g ps l).mass > 0 then _ else _ : Fin d → K) b = _
        rw [if_pos hpos]; rfl
      have hj : ∀ b, (raw P deg dx g ps l).mass * ((p2gFinish P (raw P deg dx g ps) l).v b) ^ 2 ≤
          (ps.map fun p => w l p * p.v b ^ 2).sum := by
        intro b
        rw [hmass]
        refine list_jensen ps (w l) (fun p => p.v b) (fun p _ => hw0 l p) _ ?_
        rw [hval, ← hmass, ← mul_assoc, mul_inv_cancel₀ hpos.ne', one_mul]
      have hsum : (ps.map fun p => w l p * (p.v ⬝ᵥ p.v)).sum =
          ∑ b, (ps.map fun p => w l p * p.v b ^ 2).sum := by
        clear hj hval hv hmass hw0 hpos
        clear hps h
        induction ps with
        | nil => simp
        | cons p ps ih =>
          simp only [List.map_cons, List.sum_cons, Finset.sum_add_distrib]
          rw [ih, dotProduct, Finset.mul_sum]
          simp only [sq]
      rw [hsum, dotProduct]
      have : ∑ b, (raw P deg dx g ps l).mass * ((p2gFinish P (raw P deg dx g ps) l).v b) ^ 2 ≤
          ∑ b, (ps.map fun p => w l p * p.v b ^ 2).sum := Finset.sum_le_sum fun b _ => hj b
      have h2 := mul_le_mul_of_nonneg_left this (by linarith : (0 : K) ≤ m / 2)
      refine le_trans (le_of_eq ?_) h2
      rw [Finset.mul_sum, Finset.mul_sum]
      exact Finset.sum_congr rfl fun b _ => by ring
    · have h0 : (raw P deg dx g ps l).mass = 0 := le_antisymm (not_lt.mp hpos) (raw_mass_nonneg l)
      rw [h0]
      simp only [zero_mul, zero_div]
      refine mul_nonneg (by linarith) (List.sum_nonneg fun x hx => ?_)
      obtain ⟨p, _, rfl⟩ := List.mem_map.mp hx
      exact mul_nonneg (hw0 l p) (Finset.sum_nonneg fun b _ => mul_self_nonneg _)
  refine (Finset.sum_le_sum fun l _ => hnode l).trans ?_
  rw [← Finset.mul_sum, sum_listSum, kineticEnergy, List.sum_map_mul_left]
  refine mul_le_mul_of_nonneg_left (list_sum_le fun p hp => ?_) (by linarith)
  rw [← Finset.sum_mul]
  have hok := (h.good (deg := deg) hp).ok
  have : ∑ l ∈ Finset.range (gridNodes g.size), w l p ≤ 1 := by
    have := sum_oneSum (M := K) (M' := K) hok.idx_lt (stencilOf deg dx g p.x).weight
      (fun _ => AddMonoidHom.id K)
    simp only [AddMonoidHom.id_apply] at this
    rw [show ∑ l ∈ Finset.range (gridNodes g.size), w l p = _ from this, ← hok.sum_weight]
    refine Finset.sum_le_sum fun c _ => ?_
    split_ifs
    · exact le_rfl
    · exact hok.weight_nonneg c
  have hvv : 0 ≤ p.v ⬝ᵥ p.v := Finset.sum_nonneg fun b _ => mul_self_nonneg _
  nlinarith

/-- **C10** The kinetic energy of the interpolated (PIC) velocities is at most that of the grid. -/
theorem C10_g2p {threads : List (List (Particle d K))} {ps : List (Particle d K)} {e : EulerArr d K}
    {dt : K} {plast : Particle d K → Particle d K} (hk : KeepsMotion plast) (hm : 0 ≤ m)
    (h : GoodGrid dx g ps) (hn : NoTinyWeights deg dx g ps) (ht : threads.flatten.Perm ps) :
    ∃ arr qs, P2G (mkTransferParams deg dx fr mibf m vol) g threads = some arr ∧
      G2P (mkTransferParams deg dx fr mibf m vol) false dt plast g e ps = some qs ∧
      (qs.map fun q => m / 2 * (q.pic ⬝ᵥ q.pic)).sum ≤
        ∑ l ∈ Finset.range (gridNodes g.size), (arr l).mass / 2 * (e.v l ⬝ᵥ e.v l) := by
  set P := mkTransferParams deg dx fr mibf m vol with hP
  have hw := withStencilsG2P_eq (deg := deg) (P := P) rfl rfl h
  refine ⟨_, ps.map fun p => g2pParticle P false dt plast g.size e
    (p, stencilOf deg dx g p.x), P2G_eq (deg := deg) rfl rfl (h.perm ht), ?_, ?_⟩
  · simp only [G2P, hw, Option.bind_eq_bind, Option.bind_some, List.map_map]; rfl
  rw [raw_perm ht, List.map_map]
  have hsum := sum_interp (P := P) h hn (fun l => m / 2 * (e.v l ⬝ᵥ e.v l))
  have : ∑ l ∈ Finset.range (gridNodes g.size),
      (p2gFinish P (raw P deg dx g ps) l).mass / 2 * (e.v l ⬝ᵥ e.v l) =
      ∑ l ∈ Finset.range (gridNodes g.size), (raw P deg dx g ps l).mass • (m / 2 * (e.v l ⬝ᵥ e.v l)) :=
    Finset.sum_congr rfl fun l _ => by
      rw [finish_mass, show P.particleMass = m from rfl, smul_eq_mul]; ring
  rw [this, ← hsum]
  refine list_sum_le fun p hp => ?_
  have hok := (h.good (deg := deg) hp).ok
  set s := stencilOf deg dx g p.x with hs
  simp only [Function.comp, g2pParticle, Bool.false_eq_true, if_false, hk.pic, g2pTransfer, interpV_eq]
  simp only [smul_eq_mul]
  rw [← hs]
  have e1 : ∑ c, s.weight c * (m / 2 * (e.v (flatIndex g.size (s.node c)) ⬝ᵥ
      e.v (flatIndex g.size (s.node c)))) = m / 2 * ∑ b, ∑ c, s.weight c *
        (e.v (flatIndex g.size (s.node c)) b) ^ 2 := by
    rw [Finset.sum_comm, Finset.mul_sum]
    refine Finset.sum_congr rfl fun c _ => ?_
    simp only [dotProduct, Finset.mul_sum]
    exact Finset.sum_congr rfl fun b _ => by ring
  rw [e1]
  refine mul_le_mul_of_nonneg_left ?_ (by linarith)
  rw [dotProduct]
  refine Finset.sum_le_sum fun b _ => ?_
  set V := (∑ c, s.weight c • e.v (flatIndex g.size (s.node c))) b with hV
  have hV' : V = ∑ c, s.weight c * e.v (flatIndex g.size (s.node c)) b := by
    rw [hV, Finset.sum_apply]; rfl
  have h0 : 0 ≤ ∑ c, s.weight c * (e.v (flatIndex g.size (s.node c)) b - V) ^ 2 :=
    Finset.sum_nonneg fun c _ => mul_nonneg (hok.weight_nonneg c) (sq_nonneg _)
  have e2 : ∑ c, s.weight c * (e.v (flatIndex g.size (s.node c)) b - V) ^ 2 =
      ∑ c, s.weight c * (e.v (flatIndex g.size (s.node c)) b) ^ 2 -
      2 * V * ∑ c, s.weight c * e.v (flatIndex g.size (s.node c)) b + V ^ 2 * ∑ c, s.weight c := by
    rw [Finset.mul_sum, Finset.mul_sum, ← Finset.sum_sub_distrib, ← Finset.sum_add_distrib]
    exact Finset.sum_congr rfl fun c _ => by ring
  rw [e2, ← hV', hok.sum_weight] at h0
  nlinarith

end

/-- **C47** The velocity update blends as documented, and positions move with the PIC velocity. -/
theorem C47_blend (P : TransferParams K) (Lx dt : K) (p : Particle (d + 2) K) :
    let q := positionParticle P false false false Lx dt p
    q.x = p.x + dt • p.pic ∧
    (P.flipRatio < -1 → q.v = p.pic) ∧
    (-1 ≤ P.flipRatio → P.flipRatio < 0 →
      q.v = (-P.flipRatio) • (p.v + p.flip) + (1 + P.flipRatio) • p.pic) ∧
    (0 ≤ P.flipRatio → q.v = P.flipRatio • (p.v + p.flip) + (1 - P.flipRatio) • p.pic) ∧
    (P.flipRatio = 0 → q.v = p.pic) ∧ (P.flipRatio = 1 → q.v = p.v + p.flip) ∧
    (P.flipRatio = -1 → q.v = p.v + p.flip) := by
  simp only [positionParticle, Bool.false_eq_true, if_false, blendVelocity]
  refine ⟨trivial, fun h => by simp [h], fun h1 h2 => by simp [not_lt.mpr h1, h2], fun h => ?_,
    fun h => ?_, fun h => ?_, fun h => ?_⟩
  · have : ¬ P.flipRatio < -1 := by intro h'; linarith
    simp [this, not_lt.mpr h]
  · rw [h]; norm_num
  · rw [h]; norm_num
  · rw [h]; norm_num

/-- **C48** MUSL: the re-projected grid velocities are the plain transfer of the updated particles
and carry their momentum. `ts` are the particles as seen by P2G, `ts'` those handed to MUSL (same
positions, in any distribution). -/
theorem C48_musl {deg : Deg} {dx fr m vol : K} {mibf : Bool} {g : Axes d K}
    {ts ts' : List (List (Particle d K))} (hm : 0 < m)
    (h : GoodGrid dx g ts.flatten) (hn : NoTinyWeights deg dx g ts.flatten)
    (hx : (ts'.flatten.map fun p => p.x).Perm (ts.flatten.map fun p => p.x)) :
    ∃ arr us v arr', P2G (mkTransferParams deg dx fr mibf m vol) g ts = some arr ∧
      MUSL (mkTransferParams deg dx fr mibf m vol) g (fun l => (arr l).mass) ts' = some (us, v) ∧
      P2G (mkTransferParams deg dx fr mibf m vol) g us = some arr' ∧
      (∀ l, v l = (arr' l).v) ∧
      ∑ l ∈ Finset.range (gridNodes g.size), (arr l).mass • v l = momentum m us.flatten := by
  set P := mkTransferParams deg dx fr mibf m vol with hP
  set us := ts'.map fun t => t.map fun p => ({ p with v := blendVelocity P p } : Particle d K) with hus
  have husx : us.flatten.map (fun p => p.x) = ts'.flatten.map fun p => p.x := by
    rw [hus, ← List.map_flatten, List.map_map]; rfl
  have hperm : (us.flatten.map fun p => p.x).Perm (ts.flatten.map fun p => p.x) := by
    rw [husx]; exact hx
  have hmem : ∀ p ∈ us.flatten, ∃ q ∈ ts.flatten, q.x = p.x := by
    intro p hp
    have := hperm.mem_iff.mp (List.mem_map.mpr ⟨p, hp, rfl⟩)
    obtain ⟨q, hq, hqx⟩ := List.mem_map.mp this
    exact ⟨q, hq, hqx⟩
  have hgood : GoodGrid dx g us.flatten := ⟨h.dx_pos, h.uniform, fun p hp => by
    obtain ⟨q, hq, hqx⟩ := hmem p hp
    rw [← hqx]; exact h.inside q hq⟩
  have hnu : NoTinyWeights deg dx g us.flatten := fun p hp => by
    obtain ⟨q, hq, hqx⟩ := hmem p hp
    rw [← hqx]; exact hn q hq
  have hmassEq : ∀ l, (raw P deg dx g us.flatten l).mass = (raw P deg dx g ts.flatten l).mass := by
    intro l
    rw [raw_mass, raw_mass]
    have := (hperm.map fun x => oneSum g.size (stencilOf deg dx g x)
      (stencilOf deg dx g x).weight l).sum_eq
    rw [List.map_map, List.map_map] at this
    exact this
  have hmusl : us.mapM (withStencils (stencilP2G P.deg P.oneOverDx g)) =
      some (us.map fun t => t.map fun p => (p, stencilOf deg dx g p.x)) :=
    mapM_withStencils fun p hp => (hgood.good hp).p2g
  have hacc : muslAccumulate P g.size (us.map fun t => t.map fun p => (p, stencilOf deg dx g p.x)) =
      fun l => (raw P deg dx g us.flatten l).v := by
    funext l
    rw [muslAccumulate_eq, ← List.map_flatten, List.map_map]
    have := raw_hom (P := P) (deg := deg) (dx := dx) (g := g) (ps := us.flatten) Cell.vHom l
    simp only [Cell.vHom_apply] at this
    rw [this]; rfl
  have hfin : ∀ l, muslFinish P (fun l => (p2gFinish P (raw P deg dx g ts.flatten) l).mass)
      (fun l => (raw P deg dx g us.flatten l).v) l =
      (p2gFinish P (raw P deg dx g us.flatten) l).v := by
    intro l
    have hPm : P.particleMass = m := rfl
    have hcond : (p2gFinish P (raw P deg dx g ts.flatten) l).mass > 0 ↔
        (raw P deg dx g us.flatten l).mass > 0 := by
      rw [finish_mass, hPm, hmassEq]
      exact ⟨fun hh => (pos_iff_pos_of_mul_pos hh).mpr hm, fun hh => mul_pos hh hm⟩
    simp only [muslFinish, p2gFinish, ← hmassEq, hPm]
    rw [mul_div_assoc, div_self hm.ne', mul_one]
    by_cases hc : (raw P deg dx g us.flatten l).mass > 0
    · rw [if_pos hc, if_pos (mul_pos hc hm)]
    · rw [if_neg hc, if_neg]
      intro hh; exact hc ((pos_iff_pos_of_mul_pos hh).mpr hm)
  refine ⟨_, us, fun l => (p2gFinish P (raw P deg dx g us.flatten) l).v, _,
    P2G_eq (deg := deg) rfl rfl h, ?_, P2G_eq (deg := deg) rfl rfl hgood, fun l => rfl, ?_⟩
  · simp only [MUSL]
    rw [← hus, hmusl]
    simp only [Option.bind_eq_bind, Option.bind_some]
    rw [hacc]
    congr 2
    funext l
    exact hfin l
  · have e1 : ∀ l ∈ Finset.range (gridNodes g.size),
        (p2gFinish P (raw P deg dx g ts.flatten) l).mass •
          (p2gFinish P (raw P deg dx g us.flatten) l).v = m • (raw P deg dx g us.flatten l).v := by
      intro l _
      rw [← show P.particleMass = m from rfl, ← finish_momentum, finish_mass, finish_mass, hmassEq]
    rw [Finset.sum_congr rfl e1, ← Finset.smul_sum, sum_raw_v hgood hnu, momentum, sum_map_smul]

lemma sum_dN1 {f : K} (hf0 : 0 ≤ f) (hf1 : f < 1) :
    ∑ i, dNdu .one (stencilArg f i) = if f = 0 then 1 else 0 := by
  have h := (C53_hat (K := K) (x0 := 0) one_pos f).2
  have hfl : ⌊f⌋ = 0 := Int.floor_eq_zero_iff.mpr ⟨hf0, hf1⟩
  have e : ∀ i, dNdu .one ((f - visited 0 1 f i) / 1) / 1 = dNdu .one (stencilArg f i) := by
    intro i
    simp only [visited, stencilArg, sub_zero, div_one, hfl]
    congr 1; push_cast; ring
  simp only [e] at h
  split_ifs with h0
  · rw [h.2 ⟨0, by rw [h0]; simp⟩, div_one]
  · rw [h.1]
    intro k hk
    have hk' : f = (k : K) := by rw [hk]; ring
    rw [hk'] at hf0 hf1 h0
    have h1 : 0 ≤ k := by exact_mod_cast hf0
    have h2 : k < 1 := by exact_mod_cast hf1
    exact h0 (by rw [show k = 0 by omega]; simp)

/-- **C53** With linear hat functions a uniform velocity field `c` deforms every particle that lies
exactly on a grid line: the velocity gradient handed to the constitutive update is `c ⊗ s` with
`s_b = 1/dx` if coordinate `b` of the particle is a grid coordinate, and 0 otherwise. -/
theorem C53_deforms {dx fr m vol : K} {mibf : Bool} {g : Axes d K} {e : EulerArr d K}
    {ps : List (Particle d K)} {dt : K} {plast : Particle d K → Particle d K}
    (h : GoodGrid dx g ps) (c : Fin d → K) (he : ∀ i, IsNode g i → e.v (flatIndex g.size i) = c) :
    ∃ qs, G2P (mkTransferParams .one dx fr mibf m vol) false dt plast g e ps = some qs ∧
      List.Forall₂ (fun p q => ∃ r : Particle d K, q = plast r ∧
        r.F = p.F + dt • (vecMulVec c (fun b => if p.x b ∈ g b then 1 / dx else 0) * p.F)) ps qs := by
  have hw := withStencilsG2P_eq (deg := .one) (P := mkTransferParams .one dx fr mibf m vol) rfl rfl h
  refine ⟨ps.map fun p => g2pParticle (mkTransferParams .one dx fr mibf m vol) false dt plast g.size e
    (p, stencilOf .one dx g p.x), ?_, forall₂_map fun p hp => ?_⟩
  · simp only [G2P, hw, Option.bind_eq_bind, Option.bind_some, List.map_map]; rfl
  have hg := h.good (deg := .one) hp
  set s := stencilOf .one dx g p.x with hs
  refine ⟨_, rfl, ?_⟩
  show trialF dt (interpGrad g.size e.v s) p.F = _
  rw [trialF]
  congr 3
  rw [interpGrad_eq]
  have hdx := h.dx_pos
  have hsum : ∀ b, ∑ i, s.G b i = if p.x b ∈ g b then 1 / dx else 0 := by
    intro b
    obtain ⟨n, f, hf0, hf1, hb, hlen, harg⟩ :=
      InsideAxis.base hdx (h.uniform b) (h.inside p hp b)
    have hst := hg.g2p
    simp only [stencilG2P, Option.bind_eq_some_iff] at hst
    obtain ⟨bs, hbs, hmk⟩ := hst
    have hbb := of_sequenceFin_some hbs b
    simp only [baseG2P, hb, Option.bind_some] at hbb
    have h0 : ¬ ((n : ℤ) < 0) := by omega
    rw [if_neg h0, Int.toNat_natCast] at hbb
    have hbn : bs b = n := (Option.some.inj hbb).symm
    simp only [mkStencil] at hmk
    split_ifs at hmk with hall
    have hmk' := Option.some.inj hmk
    have hG : ∀ i, s.G b i = dNdu .one (stencilArg f i) * (1 / dx) := by
      intro i
      rw [← hmk']
      simp only []
      congr 2
      rw [harg _ _, stencilArg, hbn]; push_cast; ring
    simp only [hG, ← Finset.sum_mul, sum_dN1 hf0 hf1]
    have hiff : f = 0 ↔ p.x b ∈ g b := by
      constructor
      · intro hz
        have h1 := harg (n + 1) (by omega)
        rw [hz] at h1
        push_cast at h1
        have h2 : (p.x b - (g b)[n + 1]) * (1 / dx) = 0 := by rw [h1]; ring
        have h3 : p.x b = (g b)[n + 1] := by
          rcases mul_eq_zero.mp h2 with h4 | h4
          · linarith
          · exact absurd h4 (by positivity)
        rw [h3]; exact List.getElem_mem _
      · intro hm
        obtain ⟨k, hk, hke⟩ := List.getElem_of_mem hm
        have h1 := harg k hk
        rw [hke, sub_self, zero_mul] at h1
        have hf : f = (((k : ℤ) - 1 - n : ℤ) : K) := by push_cast; linarith
        rw [hf] at hf0 hf1
        have h3 : 0 ≤ (k : ℤ) - 1 - n := by exact_mod_cast hf0
        have h4 : (k : ℤ) - 1 - n < 1 := by exact_mod_cast hf1
        rw [hf, show (k : ℤ) - 1 - n = 0 by omega]; simp
    by_cases hz : f = 0
    · rw [if_pos hz, if_pos (hiff.mp hz), one_mul]
    · rw [if_neg hz, if_neg (fun hm => hz (hiff.mpr hm)), zero_mul]
  ext a b
  simp only [Matrix.sum_apply, vecMulVec_apply, he _ (hg.ok.node_lt _), ← Finset.mul_sum]
  congr 1
  rw [← hsum b]
  refine (sum_prod_single (fun a i => if a = b then s.G a i else s.W a i) b (fun _ => rfl)
    (fun e he => ?_)).trans ?_
  · simp only [he, if_false, hg.ok.sumW e]
  · simp

end Verif.Props
