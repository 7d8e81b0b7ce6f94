import Verif.Lemmas.GridFile
import Verif.Props.Grid
import Verif.Props.Containment
import Verif.Props.Coulomb
import Verif.Lemmas.Angular

set_option linter.unusedSectionVars false
set_option linter.unusedSimpArgs false
set_option linter.unusedVariables false

/-!
# C77, C78: what the grid files of a run show
-/

namespace Verif.Props
open Verif Matrix

section pairing
variable {d : ℕ} {W : Type*} {C : TimeConfig d} {ph : Physics d W} {gf : Fin d → ℝ}

/-- Every grid file of `l`, except those of `b`, comes with a particle file of the same frame and time. -/
def Paired (b l : List (Event W)) : Prop :=
  ∀ n t w, .grid n t w ∈ l → .grid n t w ∈ b ∨ .particles n t w ∈ l

lemma paired_saveFrame {b : List (Event W)} {s : LoopState d W} (h : Paired b s.out) :
    Paired b (saveFrame C s).out := by
  unfold saveFrame
  split_ifs
  · intro n t w hm
    simp only [List.mem_append, List.mem_singleton] at hm ⊢
    rcases hm with (hm | hm) | hm
    · rcases h n t w hm with h | h
      · exact .inl h
      · exact .inr (.inl (.inl h))
    · cases hm
    · obtain ⟨rfl, rfl, rfl⟩ := Event.grid.inj hm
      exact .inr (.inl (.inr rfl))
  · intro n t w hm
    simp only [List.append_nil, List.mem_append, List.mem_singleton] at hm ⊢
    rcases hm with hm | hm
    · rcases h n t w hm with h | h
      · exact .inl h
      · exact .inr (.inl h)
    · cases hm
  · exact h

lemma paired_finish {b : List (Event W)} {s : LoopState d W} (h : Paired b s.out) : Paired b (finish C s).out := by
  unfold finish
  split_ifs
  · intro n t w hm
    simp only [List.mem_append, List.mem_singleton, reduceCtorEq, or_false] at hm ⊢
    exact h n t w hm
  · exact h

lemma paired_endOfFrame {b : List (Event W)} {s : LoopState d W} (h : Paired b s.out) :
    Paired b (endOfFrame C s).out := by
  unfold endOfFrame
  split_ifs
  · exact paired_saveFrame h
  · exact h

lemma loop_paired {b : List (Event W)} : ∀ (fuel : ℕ) (s : LoopState d W), Paired b s.out →
    Paired b (filesOf (loop C ph gf fuel s)) := by
  intro fuel
  induction fuel with
  | zero =>
    intro s h
    unfold loop
    split_ifs
    · exact h
    · exact paired_finish h
  | succ fuel ih =>
    intro s h
    unfold loop
    split_ifs
    swap
    · exact paired_finish h
    rcases loopBody_cases (C := C) (ph := ph) (gf := gf) s with h' | ⟨_, _, _, _, _, h'⟩ |
      ⟨dt, g, w, hu, hmin, -, hg, hst, h'⟩
    · simp only [h', filesOf]
      intro n t w hm
      cases hm
    · simp only [h', filesOf]
      exact h
    · simp only at h'
      split_ifs at h'
      · simp only [h', filesOf]
        exact paired_finish (paired_saveFrame (paired_endOfFrame h))
      · simp only [h']
        exact ih _ (paired_endOfFrame h)

end pairing

section rows
variable {d : ℕ}

/-- The rows (position, velocity, mass) of the grid file written for `w`. -/
noncomputable def gridRows (w : World d) : List ((Fin d → ℝ) × (Fin d → ℝ) × ℝ) :=
  (List.range (savedPositions w.g).1).map (savedRow w.g w.vel w.mass)

lemma gridRows_eq (w : World d) :
    gridRows w = (allNodes w.g.size).map fun i =>
      (nodeAt w.g i, w.vel (flatIndex w.g.size i), w.mass (flatIndex w.g.size i)) := by
  obtain ⟨h1, h2⟩ := C16_saved_rows w.g w.vel w.mass
  have hn : gridNodes w.g.size = ∏ a, (w.g a).length := by
    rw [gridNodes, ← List.ofFn_eq_map, List.prod_ofFn]; rfl
  rw [gridRows, h1, ← hn, ← map_flatIndex_allNodes, List.map_map]
  refine List.map_congr_left fun i hi => ?_
  exact h2 i (mem_allNodes.mp hi)

lemma sum_gridRows {M : Type*} [AddCommMonoid M] (w : World d) (f : (Fin d → ℝ) → (Fin d → ℝ) → ℝ → M) :
    ((gridRows w).map fun r => f r.1 r.2.1 r.2.2).sum =
      ∑ i ∈ gridIndices w.g, f (nodeAt w.g i) (w.vel (flatIndex w.g.size i)) (w.mass (flatIndex w.g.size i)) := by
  rw [gridRows_eq, List.map_map]
  have hnd : (allNodes w.g.size).Nodup := by
    have : ((allNodes w.g.size).map (flatIndex w.g.size)).Nodup := by
      rw [map_flatIndex_allNodes]; exact List.nodup_range
    exact List.Nodup.of_map _ this
  rw [← List.sum_toFinset _ hnd]
  refine Finset.sum_congr ?_ fun i _ => rfl
  ext i
  rw [List.mem_toFinset, mem_allNodes, mem_gridIndices]
  rfl

end rows

section run
variable {d : ℕ} {R : Setup (d + 2)} {i e : Bool} {fuel : ℕ} {s : LoopState (d + 2) (World (d + 2))}

/-- Where the grid files of a run come from. -/
lemma run_grid {n : ℕ} {t : ℝ} {w : World (d + 2)}
    (hev : .grid n t w ∈ filesOf (runProgram R i e fuel s)) (hnew : .grid n t w ∉ s.out) :
    ∃ s1 dt g, StepOf R s s1 dt g w ∧ t = s1.time + dt := by
  simp only [runProgram] at hev
  split_ifs at hev with ha
  swap
  · exact absurd hev hnew
  rw [simulate_eq ha] at hev
  rcases loop_files fuel 0 _ (.start) _ hev with h | ⟨_, h⟩ | ⟨k, s1, dt, g, w', n', h, h'⟩
  · simp only [startState] at h
    split_ifs at h
    · simp only [List.mem_append, List.mem_cons, List.not_mem_nil, or_false, reduceCtorEq, false_or] at h
      exact absurd h hnew
    · exact absurd h hnew
  · cases h
  · rcases h' with h' | h'
    · cases h'
    · injection h' with h1 h2 h3
      subst h3
      exact ⟨s1, dt, g, ⟨k, h⟩, h2⟩

/-- Each grid file of a run comes with the particle file of the same frame, time and state. -/
lemma run_paired {n : ℕ} {t : ℝ} {w : World (d + 2)}
    (hev : .grid n t w ∈ filesOf (runProgram R i e fuel s)) (hnew : .grid n t w ∉ s.out) :
    .particles n t w ∈ filesOf (runProgram R i e fuel s) := by
  simp only [runProgram] at hev ⊢
  split_ifs at hev ⊢ with ha
  swap
  · exact absurd hev hnew
  rw [simulate_eq ha] at hev ⊢
  have h0 : Paired s.out (startState R.C { s with w := fillMuI R.m R.S.P.useMibf s.w }).out := by
    intro n t w h
    left
    simp only [startState] at h
    split_ifs at h
    · simpa using h
    · exact h
  exact (loop_paired fuel _ h0 n t w hev).resolve_left hnew

end run

section step
variable {K : Type*} [Field K] [LinearOrder K] [IsStrictOrderedRing K] [FloorRing K] {d : ℕ}
variable {deg : Deg} {dx fr m vol : K} {mibf : Bool} {g : Axes (d + 2) K} {S : StepParams (d + 2) K}
  {ps : List (Particle (d + 2) K)} {dt : K} {grav : Fin (d + 2) → K}
  {bc : ℕ → (Fin (d + 2) → K) → (Fin (d + 2) → K) → (Fin (d + 2) → K)}
  {plast : Particle (d + 2) K → Particle (d + 2) K} {threads : List (List (Particle (d + 2) K))}

/-- Momentum of a node after the re-projection of MUSL. -/
lemma musl_momentum {P : TransferParams K} (hm : 0 < P.particleMass) {up : Particle (d + 2) K → Particle (d + 2) K}
    (hup : ∀ p ∈ ps, (up p).x = p.x) (l : ℕ) :
    (p2gFinish P (raw P deg dx g ps) l).mass • muslFinish P (fun l => (p2gFinish P (raw P deg dx g ps) l).mass)
      (fun l => (raw P deg dx g (ps.map up) l).v) l = P.particleMass • (raw P deg dx g (ps.map up) l).v := by
  have hmass : (raw P deg dx g (ps.map up) l).mass = (raw P deg dx g ps l).mass := by
    rw [raw_mass, raw_mass, List.map_map]
    congr 1
    exact List.map_congr_left fun p hp => by simp only [Function.comp, hup p hp]
  simp only [muslFinish]
  split_ifs with h <;> rw [finish_mass] at *
  · rw [smul_smul]
    congr 1
    have : (raw P deg dx g ps l).mass ≠ 0 := fun h0 => by rw [h0, zero_mul] at h; exact lt_irrefl _ h
    field_simp
  · have h0 : (raw P deg dx g ps l).mass = 0 := by
      by_contra hne
      exact h (mul_pos (lt_of_le_of_ne (raw_mass_nonneg l) (Ne.symm hne)) hm)
    rw [smul_zero, raw_eq_zero (by rw [hmass, h0])]
    exact (smul_zero _).symm

/-- Total momentum of the grid at the end of a step, as written to the grid file. -/
lemma grid_momentum (hS : S.P = mkTransferParams deg dx fr mibf m vol) (hd : deg ≠ .one) (hm : 0 < m)
    (h : GoodGrid dx g ps) (hn : NoTinyWeights deg dx g ps) (ht : threads.flatten.Perm ps) (hk : KeepsMotion plast)
    {qs : List (Particle (d + 2) K)} (hq : stepOnGrid S dt grav bc plast g [] threads ps = some qs) :
    ∑ i ∈ gridIndices g, (p2gFinish S.P (raw S.P deg dx g ps) (flatIndex g.size i)).mass •
      gradVel S deg dx dt grav bc g ps (flatIndex g.size i) = momentum m qs := by
  have hP : S.P.deg = deg := by rw [hS]; rfl
  have hP1 : S.P.oneOverDx = 1 / dx := by rw [hS]; rfl
  have hPm : S.P.particleMass = m := by rw [hS]; rfl
  obtain ⟨F, hF, hF2⟩ := stepOnGrid_eq (S := S) (dt := dt) (grav := grav) (bc := bc) hP hP1 h ht hk
  obtain rfl := Option.some.inj (hq.symm.trans hF)
  rw [sum_gridIndices g fun l => (p2gFinish S.P (raw S.P deg dx g ps) l).mass • gradVel S deg dx dt grav bc g ps l]
  by_cases hu : S.useMusl = true
  · let up : Particle (d + 2) K → Particle (d + 2) K := fun p =>
      let q := g2pTransfer S.P g.size (stepEuler S deg dx dt grav bc g ps) p (stencilOf deg dx g p.x)
      { q with v := blendVelocity S.P q }
    have hup : ∀ p ∈ ps, (up p).x = p.x := fun p _ => rfl
    have hgv : gradVel S deg dx dt grav bc g ps = muslFinish S.P
        (fun l => (p2gFinish S.P (raw S.P deg dx g ps) l).mass) (fun l => (raw S.P deg dx g (ps.map up) l).v) := by
      simp only [gradVel, if_pos hu]; rfl
    rw [hgv]
    refine (Finset.sum_congr rfl fun l _ => musl_momentum (P := S.P) (hPm ▸ hm) hup l).trans ?_
    have hn' : NoTinyWeights deg dx g (ps.map up) := by
      intro q hq
      obtain ⟨p, hp, rfl⟩ := List.mem_map.mp hq
      rw [hup p hp]
      exact hn p hp
    rw [← Finset.smul_sum, sum_raw_v (h.map hup) hn', hPm]
    simp only [momentum, List.map_map]
    rw [← sum_map_smul]
    congr 1
    refine List.map_congr_left fun p hp => ?_
    simp only [Function.comp, (hF2 p hp).1, up]
  · have hgv : gradVel S deg dx dt grav bc g ps = (stepEuler S deg dx dt grav bc g ps).v := by
      simp only [gradVel, if_neg hu]
    rw [hgv]
    have hs := wall_sums (S := S) (dt := dt) (grav := grav) (bc := bc) hS hd hm h hn
    have hb := blend_momentum (P := S.P) (n := g.size) (e := stepEuler S deg dx dt grav bc g ps) (F := F)
      (st := fun p => stencilOf deg dx g p.x) (fun p hp => (hF2 p hp).1) hs.1 hs.2
    have h1 := sum_interpV (P := S.P) h hn (stepEuler S deg dx dt grav bc g ps).v
    rw [hPm] at h1
    rw [← h1, hb, sum_map_smul, hs.1]
    simp only [momentum]; rw [sum_map_smul]

/-- First moment of the nodal masses. -/
lemma grid_firstMoment (hS : S.P = mkTransferParams deg dx fr mibf m vol)
    (h : GoodGrid dx g ps) (hn : NoTinyWeights deg dx g ps) :
    ∑ i ∈ gridIndices g, (p2gFinish S.P (raw S.P deg dx g ps) (flatIndex g.size i)).mass • nodeAt g i =
      firstMoment m ps := by
  have hPm : S.P.particleMass = m := by rw [hS]; rfl
  have h1 := sum_interp (P := S.P) h hn (posAt g)
  have h2 : ∑ i ∈ gridIndices g, (p2gFinish S.P (raw S.P deg dx g ps) (flatIndex g.size i)).mass • nodeAt g i =
      m • ∑ l ∈ Finset.range (gridNodes g.size), (raw S.P deg dx g ps l).mass • posAt g l := by
    rw [← sum_gridIndices g fun l => (raw S.P deg dx g ps l).mass • posAt g l, Finset.smul_sum]
    refine Finset.sum_congr rfl fun i hi => ?_
    rw [posAt_flat (mem_gridIndices.mp hi), finish_mass, hPm, mul_comm, smul_smul]
  rw [h2, ← h1]
  simp only [firstMoment]
  rw [sum_map_smul]
  congr 2
  refine List.map_congr_left fun p hp => ?_
  have hg := h.good (deg := deg) hp
  funext a
  simp only [Finset.sum_apply, Pi.smul_apply, smul_eq_mul, hg.posAt]
  exact hg.ok.sum_weight_nodePos a

end step

section files
variable {d : ℕ} {R : Setup (d + 2)} {i e : Bool} {fuel : ℕ} {s : LoopState (d + 2) (World (d + 2))}
variable {deg : Deg} {dx fr m vol : ℝ} {mibf : Bool} {n : ℕ} {t : ℝ} {w : World (d + 2)}

/-- **C77** Rows of the grid files. Every grid file comes with the particle file of the same frame. It has one row per
node, the positions of the rows differ, and the mass in a row is that of the particles around the position in the row
at the beginning of the last step, before the particles were moved. -/
theorem C77_rows (hS : R.S.P = mkTransferParams deg dx fr mibf m vol) (hdx : 0 < dx) (hm : 0 < m)
    (hpbc : R.S.pbc = false) (hsched : ∀ k ps, (R.sched k ps).flatten.Perm ps)
    (hev : .grid n t w ∈ filesOf (runProgram R i e fuel s)) (hnew : .grid n t w ∉ s.out) :
    .particles n t w ∈ filesOf (runProgram R i e fuel s) ∧ (gridRows w).length = ∏ a, (w.g a).length ∧
    ((gridRows w).map fun r => r.1).Nodup ∧
    (∀ X, X ∈ (gridRows w).map (fun r => r.1) ↔ ∀ a, X a ∈ w.g a) ∧
    ∃ s1 dt g, StepOf R s s1 dt g w ∧ t = s1.time + dt ∧
      ∀ r ∈ gridRows w, r.2.2 = massAt deg dx m s1.w.ps r.1 := by
  have hP : R.S.P.deg = deg := by rw [hS]; rfl
  have hP1 : R.S.P.oneOverDx = 1 / dx := by rw [hS]; rfl
  have hPdx : R.S.P.dx = dx := by rw [hS]; rfl
  obtain ⟨s1, dt, g, hst, rfl⟩ := run_grid hev hnew
  have hgood := physStep_goodGrid hpbc (by rw [hPdx]; exact hdx) (by rw [hS]; rfl) hst.phys
  rw [hPdx] at hgood
  refine ⟨run_paired hev hnew, ?_, ?_, ?_, s1, dt, g, hst, rfl, ?_⟩
  · rw [gridRows, List.length_map, List.length_range, (C16_saved_rows w.g w.vel w.mass).1]
  · rw [gridRows_eq, List.map_map]
    have hnd : (allNodes w.g.size).Nodup := by
      have : ((allNodes w.g.size).map (flatIndex w.g.size)).Nodup := by
        rw [map_flatIndex_allNodes]; exact List.nodup_range
      exact List.Nodup.of_map _ this
    refine List.Nodup.map_on ?_ hnd
    intro j hj k hk hjk
    funext a
    obtain ⟨x0, hx0⟩ := hgood.uniform a
    have hja := mem_allNodes.mp hj a
    have hka := mem_allNodes.mp hk a
    have hat : ∀ l, l < w.g.size a → (w.g a).getD l 0 = x0 + l * dx := by
      intro l hl
      rw [hx0]
      simp [List.getD, List.getElem?_map, show l < (w.g a).length from hl]
    have := congrFun hjk a
    simp only [Function.comp, nodeAt, hat _ hja, hat _ hka, add_right_inj] at this
    exact_mod_cast mul_right_cancel₀ hdx.ne' this
  · intro X
    rw [gridRows_eq, List.map_map, List.mem_map]
    constructor
    · rintro ⟨j, hj, rfl⟩ a
      have hja : j a < (w.g a).length := mem_allNodes.mp hj a
      simp only [Function.comp, nodeAt, List.getD, List.getElem?_eq_getElem hja, Option.getD_some]
      exact List.getElem_mem hja
    · intro hX
      choose j hj hjX using fun a => List.getElem_of_mem (hX a)
      refine ⟨j, mem_allNodes.mpr hj, ?_⟩
      funext a
      simp only [Function.comp, nodeAt, List.getD, List.getElem?_eq_getElem (hj a), Option.getD_some, hjX]
  · rw [gridRows_eq]
    intro r hr
    obtain ⟨j, hj, rfl⟩ := List.mem_map.mp hr
    obtain ⟨h1, -, -⟩ := physStep_grid (deg := deg) (dx := dx) hpbc hP hP1 (hsched _) hst.phys hgood
    simp only [h1]
    exact (node_values (dt := dt) (grav := g) hS hm hgood (mem_allNodes.mp hj)).1

/-- **C77** The masses in a grid file add up to the mass of the particles; in general up to the tiny weights the
transfer drops. -/
theorem C77_mass (hS : R.S.P = mkTransferParams deg dx fr mibf m vol) (hdx : 0 < dx) (hm : 0 < m)
    (hpbc : R.S.pbc = false) (hsched : ∀ k ps, (R.sched k ps).flatten.Perm ps)
    (hev : .grid n t w ∈ filesOf (runProgram R i e fuel s)) (hnew : .grid n t w ∉ s.out) :
    ((gridRows w).map fun r => r.2.2).sum ≤ w.ps.length * m ∧
    w.ps.length * m * (1 - 4 ^ (d + 2) * (1 / 10 ^ 25)) ≤ ((gridRows w).map fun r => r.2.2).sum ∧
    ((∀ s1 dt g w, StepOf R s s1 dt g w → NoTinyWeights deg dx w.g s1.w.ps) →
      ((gridRows w).map fun r => r.2.2).sum = w.ps.length * m) := by
  have hP : R.S.P.deg = deg := by rw [hS]; rfl
  have hP1 : R.S.P.oneOverDx = 1 / dx := by rw [hS]; rfl
  have hPdx : R.S.P.dx = dx := by rw [hS]; rfl
  obtain ⟨s1, dt, g, hst, rfl⟩ := run_grid hev hnew
  have hgood := physStep_goodGrid hpbc (by rw [hPdx]; exact hdx) (by rw [hS]; rfl) hst.phys
  rw [hPdx] at hgood
  obtain ⟨h1, h2, h3⟩ := physStep_grid (deg := deg) (dx := dx) hpbc hP hP1 (hsched _) hst.phys hgood
  obtain ⟨F, hF, -⟩ := stepOnGrid_eq (S := R.S) (dt := dt) (grav := g) (bc := stepWalls R dt s1.w w) hP hP1 hgood
    (hsched s1.step _) (plastTotal_keeps R dt)
  have hlen : w.ps.length = s1.w.ps.length := by
    rw [Option.some.inj (h3.symm.trans hF), List.length_map]
  have hfl : [s1.w.ps].flatten = s1.w.ps := by simp
  have hgood' : GoodGrid dx w.g [s1.w.ps].flatten := by rw [hfl]; exact hgood
  have hP2G : P2G (mkTransferParams deg dx fr mibf m vol) w.g [s1.w.ps] =
      some (p2gFinish R.S.P (raw R.S.P deg dx w.g s1.w.ps)) := by
    rw [← hS, P2G_eq hP hP1 hgood', hfl]
  have hsum : ((gridRows w).map fun r => r.2.2).sum =
      ∑ l ∈ Finset.range (gridNodes w.g.size), (p2gFinish R.S.P (raw R.S.P deg dx w.g s1.w.ps) l).mass := by
    rw [sum_gridRows w fun X v M => M,
      ← sum_gridIndices w.g fun l => (p2gFinish R.S.P (raw R.S.P deg dx w.g s1.w.ps) l).mass]
    exact Finset.sum_congr rfl fun j _ => h1 _
  obtain ⟨arr, b1, b2, b3, -⟩ := C01_bounds (deg := deg) (fr := fr) (mibf := mibf) (vol := vol) hgood' hm.le
  obtain rfl := Option.some.inj (hP2G.symm.trans b1)
  rw [hfl] at b2 b3
  rw [hsum, hlen]
  refine ⟨b2, b3, fun hn => ?_⟩
  obtain ⟨arr, c1, c2⟩ := C01_total (deg := deg) (fr := fr) (mibf := mibf) (vol := vol) (m := m) hgood'
    (by rw [hfl]; exact hn _ _ _ _ hst)
  obtain rfl := Option.some.inj (hP2G.symm.trans c1)
  rw [c2, hfl]

/-- **C77** The momentum of the rows of a grid file is that of the particles in the particle file of the same frame, and
the rows advanced by the last time step `dt` have the centre of mass of these particles. All walls, every `flip_ratio`,
with or without MUSL. -/
theorem C77_momentum (hS : R.S.P = mkTransferParams deg dx fr mibf m vol) (hd : deg ≠ .one) (hdx : 0 < dx) (hm : 0 < m)
    (hpbc : R.S.pbc = false) (hsched : ∀ k ps, (R.sched k ps).flatten.Perm ps)
    (hn : ∀ s1 dt g w, StepOf R s s1 dt g w → NoTinyWeights deg dx w.g s1.w.ps)
    (hev : .grid n t w ∈ filesOf (runProgram R i e fuel s)) (hnew : .grid n t w ∉ s.out) :
    ((gridRows w).map fun r => r.2.2 • r.2.1).sum = momentum m w.ps ∧
    (R.S.changePos = false → ∃ s1 dt g, StepOf R s s1 dt g w ∧ t = s1.time + dt ∧
      ((gridRows w).map fun r => r.2.2 • (r.1 + dt • r.2.1)).sum = firstMoment m w.ps) := by
  have hP : R.S.P.deg = deg := by rw [hS]; rfl
  have hP1 : R.S.P.oneOverDx = 1 / dx := by rw [hS]; rfl
  have hPdx : R.S.P.dx = dx := by rw [hS]; rfl
  obtain ⟨s1, dt, g, hst, rfl⟩ := run_grid hev hnew
  have hgood := physStep_goodGrid hpbc (by rw [hPdx]; exact hdx) (by rw [hS]; rfl) hst.phys
  rw [hPdx] at hgood
  obtain ⟨h1, h2, h3⟩ := physStep_grid (deg := deg) (dx := dx) hpbc hP hP1 (hsched _) hst.phys hgood
  have hno := hn _ _ _ _ hst
  have hmom := grid_momentum hS hd hm hgood hno (hsched _ _) (plastTotal_keeps R dt) h3
  refine ⟨?_, fun hcp => ⟨s1, dt, g, hst, rfl, ?_⟩⟩
  · rw [sum_gridRows w fun X v M => M • v, ← hmom]
    simp only [h1, h2]
  · rw [sum_gridRows w fun X v M => M • (X + dt • v)]
    obtain ⟨qs, h4, h5⟩ := C72_step (S := R.S) (dt := dt) (grav := g) (bc := stepWalls R dt s1.w w)
      (plast := plastTotal R dt) hS hd hm hpbc hcp hgood hno (hsched s1.step s1.w.ps) (plastTotal_keeps R dt)
    obtain rfl := Option.some.inj (h3.symm.trans h4)
    rw [h5, ← grid_firstMoment hS hgood hno, ← hmom, Finset.smul_sum, ← Finset.sum_add_distrib]
    refine Finset.sum_congr rfl fun j hj => ?_
    simp only [h1, h2]
    rw [smul_add, smul_comm]

end files
end Verif.Props
