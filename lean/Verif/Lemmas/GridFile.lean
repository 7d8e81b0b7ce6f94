import Verif.Lemmas.Run
import Verif.Props.WallMomentum

set_option linter.unusedSectionVars false
set_option linter.unusedSimpArgs false
set_option linter.unusedVariables false

/-!
# The grid arrays after a step
-/

namespace Verif
open Matrix Props

section musl
variable {K : Type*} [Field K] [LinearOrder K] [IsStrictOrderedRing K] [FloorRing K] {d : ℕ}
variable {deg : Deg} {dx : K} {g : Axes (d + 2) K} {S : StepParams (d + 2) K}
  {ps : List (Particle (d + 2) K)} {dt : K} {grav : Fin (d + 2) → K}
  {bc : ℕ → (Fin (d + 2) → K) → (Fin (d + 2) → K) → (Fin (d + 2) → K)}
  {plast : Particle (d + 2) K → Particle (d + 2) K}

/-- What MUSL leaves in the grid. -/
lemma musl_eq (hm : S.useMusl = true) (hP : S.P.deg = deg) (hP1 : S.P.oneOverDx = 1 / dx) (h : GoodGrid dx g ps)
    {qs : List (Particle (d + 2) K)}
    (hq : G2P S.P true dt plast g (stepEuler S deg dx dt grav bc g ps) ps = some qs)
    {r : List (List (Particle (d + 2) K)) × (ℕ → Fin (d + 2) → K)}
    (hr : MUSL S.P g (fun l => (p2gFinish S.P (raw S.P deg dx g ps) l).mass) [qs] = some r) :
    r.2 = gradVel S deg dx dt grav bc g ps := by
  have hg2p := withStencilsG2P_eq hP hP1 h
  simp only [G2P, hg2p, Option.bind_eq_bind, Option.bind_some, Option.some.injEq] at hq
  subst hq
  let e := stepEuler S deg dx dt grav bc g ps
  let up : Particle (d + 2) K → Particle (d + 2) K := fun p =>
    let q := g2pTransfer S.P g.size e p (stencilOf deg dx g p.x)
    { q with v := blendVelocity S.P q }
  have hup : ∀ p ∈ ps, (up p).x = p.x := fun p _ => rfl
  have hg' : GoodGrid dx g (ps.map up) := h.map hup
  have hmusl : [ps.map up].mapM (withStencils (stencilP2G S.P.deg S.P.oneOverDx g)) =
      some ([ps.map up].map fun t => t.map fun p => (p, stencilOf deg dx g p.x)) := by
    apply mapM_withStencils
    intro p hp
    rw [hP, hP1]
    exact (hg'.good (by simpa using hp)).p2g
  have hacc : muslAccumulate S.P g.size
      ([ps.map up].map fun t => t.map fun p => (p, stencilOf deg dx g p.x)) =
      fun l => (raw S.P deg dx g (ps.map up) l).v := by
    funext l
    rw [muslAccumulate_eq, ← List.map_flatten, List.map_map]
    have := raw_hom (P := S.P) (deg := deg) (dx := dx) (g := g) (ps := ps.map up) Cell.vHom l
    simp only [Cell.vHom_apply] at this
    rw [this]
    simp only [List.flatten_cons, List.flatten_nil, List.append_nil]
    rfl
  have h1 : (List.map (g2pParticle S.P true dt plast g.size e)
      (ps.map fun p => (p, stencilOf deg dx g p.x))).map
        (fun p => { p with v := blendVelocity S.P p }) = ps.map up := by
    rw [List.map_map, List.map_map]; rfl
  simp only [MUSL, List.map_cons, List.map_nil] at hr
  rw [show stepEuler S deg dx dt grav bc g ps = e from rfl, h1, hmusl] at hr
  simp only [Option.bind_eq_bind, Option.bind_some] at hr
  rw [hacc] at hr
  obtain rfl := Option.some.inj hr
  simp only [gradVel, hm, if_true]
  rfl

end musl

section whole
variable {d : ℕ} {R : Setup (d + 2)} {dt : ℝ} {grav : Fin (d + 2) → ℝ} {time : ℝ} {n : ℕ}
  {w w' : World (d + 2)} {ex : Bool}

/-- The walls as the step sees them. -/
noncomputable def stepWalls (R : Setup (d + 2)) (dt : ℝ) (w w' : World (d + 2)) :
    ℕ → (Fin (d + 2) → ℝ) → (Fin (d + 2) → ℝ) → (Fin (d + 2) → ℝ) :=
  boundaryCollision R.ops R.S.P.useMibf w'.friction dt R.objs w.plates

/-- A step without periodic boundaries: the grid arrays it leaves, and the particles. -/
lemma physStep_grid {deg : Deg} {dx : ℝ} (hpbc : R.S.pbc = false) (hP : R.S.P.deg = deg)
    (hP1 : R.S.P.oneOverDx = 1 / dx) (hsched : ∀ ps, (R.sched n ps).flatten.Perm ps)
    (h : physStep R w dt grav time n = some (w', ex)) (hg : GoodGrid dx w'.g w.ps) :
    (∀ l, w'.mass l = (p2gFinish R.S.P (raw R.S.P deg dx w'.g w.ps) l).mass) ∧
    w'.vel = gradVel R.S deg dx dt grav (stepWalls R dt w w') w'.g w.ps ∧
    stepOnGrid R.S dt grav (stepWalls R dt w w') (plastTotal R dt) w'.g [] (R.sched n w.ps) w.ps = some w'.ps := by
  simp only [physStep, hpbc, Bool.false_eq_true, if_false, List.append_nil, Option.bind_eq_bind,
    Option.bind_eq_some_iff] at h
  obtain ⟨bg, h1, h⟩ := h
  simp only [ne_eq, not_true_eq_false, and_false, if_false, Option.bind_eq_some_iff, Option.some.injEq] at h
  obtain ⟨arr, h2, qs, h3, h⟩ := h
  have h3' := g2pFull_eq h3
  by_cases hu : R.S.useMusl = true
  · simp only [if_pos hu, Option.bind_eq_some_iff] at h
    obtain ⟨r, h5, qv, h6, h⟩ := h
    obtain ⟨qs', h7, rfl⟩ := Option.map_eq_some_iff.mp h6
    obtain ⟨rfl, -⟩ := Prod.mk.inj (Option.some.inj h)
    have hP2G : P2G R.S.P bg.2 (R.sched n w.ps) = some (p2gFinish R.S.P (raw R.S.P deg dx bg.2 w.ps)) := by
      rw [P2G_eq hP hP1 (hg.perm (hsched _)), raw_perm (hsched _)]
    have harr : arr = p2gFinish R.S.P (raw R.S.P deg dx bg.2 w.ps) := Option.some.inj (h2.symm.trans hP2G)
    refine ⟨fun l => by rw [harr], ?_, ?_⟩
    · have h3'' := h3'
      rw [hu] at h3''
      refine musl_eq (S := R.S) hu hP hP1 hg (plast := plastTotal R dt) (qs := qs.map (·.1)) ?_ ?_
      · simp only [stepEuler, stepWalls]
        rw [← harr]; exact h3''
      · rw [← harr]; exact h5
    · simp only [stepOnGrid, hP2G, ← harr, ne_eq, not_true_eq_false, and_false, if_false, Option.bind_eq_bind,
        Option.bind_some, stepWalls, h3', if_pos hu, h5, deformFull_eq h7, hpbc]
      simp [List.map_map, Function.comp_def]
  · simp only [if_neg hu, Option.bind_some] at h
    obtain ⟨rfl, -⟩ := Prod.mk.inj (Option.some.inj h)
    have hP2G : P2G R.S.P bg.2 (R.sched n w.ps) = some (p2gFinish R.S.P (raw R.S.P deg dx bg.2 w.ps)) := by
      rw [P2G_eq hP hP1 (hg.perm (hsched _)), raw_perm (hsched _)]
    have harr : arr = p2gFinish R.S.P (raw R.S.P deg dx bg.2 w.ps) := Option.some.inj (h2.symm.trans hP2G)
    refine ⟨fun l => by rw [harr], ?_, ?_⟩
    · simp only [gradVel, if_neg hu, stepEuler, stepWalls]
      rw [← harr]
    · simp only [stepOnGrid, hP2G, ← harr, ne_eq, not_true_eq_false, and_false, if_false, Option.bind_eq_bind,
        Option.bind_some, stepWalls, h3', if_neg hu, hpbc]
      simp [List.map_map, Function.comp_def]

end whole
end Verif
