import Verif.Props.Periodic
import Verif.Lemmas.Momentum

set_option linter.unusedSectionVars false
set_option linter.unusedSimpArgs false
set_option linter.unusedVariables false

/-! # One step with periodic ghosts: the transfer to the grid sees `all`, the transfer back only `ps` -/

namespace Verif
open Matrix
variable {K : Type*} [Field K] [LinearOrder K] [IsStrictOrderedRing K] [FloorRing K] {d : ℕ}

section step
variable {deg : Deg} {dx : K} {g : Axes (d + 2) K} {S : StepParams (d + 2) K}
  {ps all ghs : List (Particle (d + 2) K)} {dt : K} {grav : Fin (d + 2) → K}
  {bc : ℕ → (Fin (d + 2) → K) → (Fin (d + 2) → K) → (Fin (d + 2) → K)}
  {plast : Particle (d + 2) K → Particle (d + 2) K} {threads : List (List (Particle (d + 2) K))}

/-- The velocities used for the velocity gradient: the Euler result, or the MUSL re-projection of the particles
`ps` divided by the mass of `all`. -/
def gradVelG (S : StepParams (d + 2) K) (deg : Deg) (dx dt : K) (grav : Fin (d + 2) → K)
    (bc : ℕ → (Fin (d + 2) → K) → (Fin (d + 2) → K) → (Fin (d + 2) → K)) (g : Axes (d + 2) K)
    (all ps : List (Particle (d + 2) K)) : ℕ → Fin (d + 2) → K :=
  let e := stepEuler S deg dx dt grav bc g all
  if S.useMusl then
    muslFinish S.P (fun l => (p2gFinish S.P (raw S.P deg dx g all) l).mass)
      (fun l => (raw S.P deg dx g (ps.map fun p =>
        let q := g2pTransfer S.P g.size e p (stencilOf deg dx g p.x)
        { q with v := blendVelocity S.P q }) l).v)
  else e.v

lemma stepOnGrid_ghosts (hP : S.P.deg = deg) (hP1 : S.P.oneOverDx = 1 / dx) (hmibf : S.P.useMibf = false)
    (h : GoodGrid dx g ps) (ha : GoodGrid dx g all) (ht : threads.flatten.Perm all) (hk : KeepsMotion plast) :
    ∃ F : Particle (d + 2) K → Particle (d + 2) K,
      stepOnGrid S dt grav bc plast g ghs threads ps = some (ps.map F) ∧
      ∀ p ∈ ps,
        let e := stepEuler S deg dx dt grav bc g all
        let s := stencilOf deg dx g p.x
        let q := g2pTransfer S.P g.size e p s
        (F p).v = blendVelocity S.P q ∧ (F p).pic = q.pic ∧ (F p).Bmat = q.Bmat ∧
        (F p).x = (positionParticle S.P S.useMusl S.pbc S.changePos (S.L 0) dt q).x ∧
        ∃ r : Particle (d + 2) K, (F p).F = (plast r).F ∧ (F p).tau = (plast r).tau ∧
          r.tau = p.tau ∧
          r.F = trialF dt (interpGrad g.size (gradVelG S deg dx dt grav bc g all ps) s) p.F := by
  have hP2G : P2G S.P g threads = some (p2gFinish S.P (raw S.P deg dx g all)) := by
    rw [P2G_eq hP hP1 (ha.perm ht), raw_perm ht]
  have hg2p := withStencilsG2P_eq hP hP1 h
  cases hm : S.useMusl with
  | false =>
    refine ⟨fun p => positionParticle S.P false S.pbc S.changePos (S.L 0) dt
      (g2pParticle S.P false dt plast g.size (stepEuler S deg dx dt grav bc g all)
        (p, stencilOf deg dx g p.x)), ?_, ?_⟩
    · simp only [stepOnGrid, hP2G, G2P, hg2p, hm, hmibf, Bool.false_eq_true, false_and, if_false,
        Option.bind_eq_bind, Option.bind_some, List.map_map]
      rfl
    · intro p hp
      simp only [positionParticle, g2pParticle, Bool.false_eq_true, if_false]
      refine ⟨?_, ?_, ?_, ?_, ?_⟩
      · simp only [blendVelocity, hk.v, hk.pic, hk.flip]
      · simp only [hk.pic]
      · simp only [hk.Bmat]
      · simp only [hk.x, hk.pic]
      · refine ⟨_, rfl, rfl, rfl, ?_⟩
        simp only [gradVelG, hm, Bool.false_eq_true, if_false]
        rfl
  | true =>
    let e := stepEuler S deg dx dt grav bc g all
    let up : Particle (d + 2) K → Particle (d + 2) K := fun p =>
      let q := g2pTransfer S.P g.size e p (stencilOf deg dx g p.x)
      { q with v := blendVelocity S.P q }
    have hup : ∀ p ∈ ps, (up p).x = p.x := fun p _ => rfl
    have hg' : GoodGrid dx g (ps.map up) := h.map hup
    have hmusl : [ps.map up].mapM (withStencils (stencilP2G S.P.deg S.P.oneOverDx g)) =
        some ([ps.map up].map fun t => t.map fun p => (p, stencilOf deg dx g p.x)) := by
      apply mapM_withStencils
      intro p hp
      rw [hP, hP1]
      exact (hg'.good (by simpa using hp)).p2g
    have hacc : muslAccumulate S.P g.size
        ([ps.map up].map fun t => t.map fun p => (p, stencilOf deg dx g p.x)) =
        fun l => (raw S.P deg dx g (ps.map up) l).v := by
      funext l
      rw [muslAccumulate_eq, ← List.map_flatten, List.map_map]
      have := raw_hom (P := S.P) (deg := deg) (dx := dx) (g := g) (ps := ps.map up) Cell.vHom l
      simp only [Cell.vHom_apply] at this
      rw [this]
      simp only [List.flatten_cons, List.flatten_nil, List.append_nil]
      rfl
    have hdef := withStencilsG2P_eq hP hP1 hg'
    refine ⟨fun p => positionParticle S.P true S.pbc S.changePos (S.L 0) dt
      (deformParticle dt plast g.size (gradVelG S deg dx dt grav bc g all ps)
        (up p, stencilOf deg dx g p.x)), ?_, ?_⟩
    · have h1 : (List.map (g2pParticle S.P true dt plast g.size e)
          (ps.map fun p => (p, stencilOf deg dx g p.x))).map
            (fun p => { p with v := blendVelocity S.P p }) = ps.map up := by
        rw [List.map_map, List.map_map]; rfl
      have hM : MUSL S.P g (fun l => (p2gFinish S.P (raw S.P deg dx g all) l).mass)
          [List.map (g2pParticle S.P true dt plast g.size e)
            (ps.map fun p => (p, stencilOf deg dx g p.x))] =
          some ([ps.map up], gradVelG S deg dx dt grav bc g all ps) := by
        simp only [MUSL, List.map_cons, List.map_nil, h1]
        rw [hmusl]
        simp only [Option.bind_eq_bind, Option.bind_some]
        rw [hacc]
        simp only [gradVelG, hm, if_true]
        rfl
      simp only [stepOnGrid, hP2G, G2P, hg2p, hm, hmibf, Bool.false_eq_true, false_and, if_false,
        Option.bind_eq_bind, Option.bind_some, if_true]
      rw [show eulerUpdate S.P dt grav bc g (p2gFinish S.P (raw S.P deg dx g all)) = e from rfl, hM]
      simp only [Option.bind_some, deformationUpdate, List.flatten_cons, List.flatten_nil,
        List.append_nil, hdef, Option.bind_eq_bind, List.map_map]
      rfl
    · intro p hp
      simp only [positionParticle, deformParticle, if_true]
      refine ⟨?_, ?_, ?_, ?_, ?_⟩
      · simp only [hk.v]; rfl
      · simp only [hk.pic]; rfl
      · simp only [hk.Bmat]; rfl
      · simp only [hk.x, hk.pic]; rfl
      · exact ⟨_, rfl, rfl, rfl, rfl⟩

end step
end Verif
