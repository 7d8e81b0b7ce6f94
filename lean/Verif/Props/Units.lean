import Verif.Lemmas.UnitsPlastic
import Verif.Model.Files
import Verif.Props.Run

set_option linter.unusedSimpArgs false
set_option linter.unusedVariables false
set_option linter.unusedSectionVars false

/-!
# C87: results do not depend on the units; C88: nor on the convention of `q`

`Scales` holds the conversion factors (`Lemmas/Units.lean`); `U.setup`, `U.world` convert the parameters and the
state of a simulation.
-/

namespace Verif.Props
open Verif Matrix

section step
variable {d : ℕ} (U : Scales) {R : Setup (d + 2)}

lemma plasticUpdate_scale (h : U.Fits R.m) (dt : ℝ) (q : Particle (d + 2) ℝ) :
    plasticUpdate (U.setup R) (U.time * dt) (U.particle q) = (plasticUpdate R dt q).map (Prod.map U.particle id) := by
  have := plasticity_scale U R.m h R.cabs R.svd dt q false
  simp only [plasticUpdate, Scales.setup, this, Option.map_map]
  rfl

lemma g2pFull_scale (h : U.Fits R.m) (dt : ℝ) (g : Axes (d + 2) ℝ) (e : EulerArr (d + 2) ℝ) (ps : List (Particle (d + 2) ℝ)) :
    g2pFull (U.setup R) (U.time * dt) (U.axes g) (U.euler e) (ps.map U.particle) =
      (g2pFull R dt g e ps).map (List.map (Prod.map U.particle id)) := by
  have hP : (U.setup R).S.P = U.params R.S.P := rfl
  have hD : (U.params R.S.P).deg = R.S.P.deg := rfl
  have hO : (U.params R.S.P).oneOverDx = R.S.P.oneOverDx / U.len := rfl
  simp only [g2pFull, Option.bind_eq_bind, axes_size]
  rw [hP, hD, hO, withStencils_scale U (st := stencilG2P R.S.P.deg R.S.P.oneOverDx g)
    (fun x => stencilG2P_scale U _ _ g x) ps]
  cases withStencils (stencilG2P R.S.P.deg R.S.P.oneOverDx g) ps with
  | none => rfl
  | some qs =>
    simp only [Option.map_some, Option.bind_some]
    refine mapM_conv (fun p => ?_) qs
    obtain ⟨p, s⟩ := p
    have ht := g2pTransfer_scale U R.S.P g.size e p s
    simp only [g2pFullParticle, Scales.pair, hP]
    refine ite_conv (f := Option.map (Prod.map U.particle id)) Iff.rfl (fun _ => ?_) (fun _ => ?_)
    · rw [ht]; rfl
    · rw [← plasticUpdate_scale U h, ht]
      have hG : interpGrad g.size (U.euler e).v (U.stencil s) = _ := interpGrad_scale U g.size e.v s
      rw [hG]
      congr 1
      show { U.particle (g2pTransfer R.S.P g.size e p s) with
        F := trialF (U.time * dt) (U.time⁻¹ • interpGrad g.size e.v s) (g2pTransfer R.S.P g.size e p s).F } = _
      rw [trialF_scale]
      rfl

lemma deformFull_scale (h : U.Fits R.m) (dt : ℝ) (g : Axes (d + 2) ℝ) (v : ℕ → Fin (d + 2) → ℝ) (ps : List (Particle (d + 2) ℝ)) :
    deformFull (U.setup R) (U.time * dt) (U.axes g) (fun l => U.speed • v l) (ps.map U.particle) =
      (deformFull R dt g v ps).map (List.map (Prod.map U.particle id)) := by
  have hP : (U.setup R).S.P = U.params R.S.P := rfl
  have hD : (U.params R.S.P).deg = R.S.P.deg := rfl
  have hO : (U.params R.S.P).oneOverDx = R.S.P.oneOverDx / U.len := rfl
  simp only [deformFull, Option.bind_eq_bind, axes_size]
  rw [hP, hD, hO, withStencils_scale U (st := stencilG2P R.S.P.deg R.S.P.oneOverDx g)
    (fun x => stencilG2P_scale U _ _ g x) ps]
  cases withStencils (stencilG2P R.S.P.deg R.S.P.oneOverDx g) ps with
  | none => rfl
  | some qs =>
    simp only [Option.map_some, Option.bind_some]
    refine mapM_conv (fun p => ?_) qs
    rw [deformFullParticle, deformFullParticle, ← plasticUpdate_scale U h]
    congr 1
    show { U.particle p.1 with deltaGamma := 0
                               F := trialF (U.time * dt) (interpGrad g.size (fun l => U.speed • v l) (U.stencil p.2)) p.1.F } = _
    rw [interpGrad_scale, trialF_scale]
    simp only [Scales.particle, zero_div]

lemma physStep_scale (hpl : PlateScale U R.ops) (hR : ∀ k ps, (R.sched k ps).flatten.Perm ps)
    (hg : R.S.pbc = true ∨ U.len = 1) (hch : R.S.changePos = false ∨ U.len = 1) (hm : U.Fits R.m)
    (w : World (d + 2)) (dt : ℝ) (g : Fin (d + 2) → ℝ) (t : ℝ) (n : ℕ) :
    physStep (U.setup R) (U.world w) (U.time * dt) (U.acc • g) (U.time * t) n =
      (physStep R w dt g t n).map (Prod.map U.world id) := by
  rw [physStep_eq, physStep_eq, chooseGrid_scale U hg w n]
  have hP : (U.setup R).S.P = U.params R.S.P := rfl
  have hpb : (U.setup R).S.pbc = R.S.pbc := rfl
  have hL : (U.setup R).S.L 0 = U.len * R.S.L 0 := rfl
  have hdx : (U.params R.S.P).dx = U.len * R.S.P.dx := rfl
  have hmb : (U.params R.S.P).useMibf = R.S.P.useMibf := rfl
  have hps : (U.world w).ps = w.ps.map U.particle := rfl
  cases chooseGrid R.S ⟨w.ps, w.box, w.g, n⟩ with
  | none => rfl
  | some bg =>
    obtain ⟨box, gg⟩ := bg
    simp only [Option.map_some, Option.bind_some, Prod.map_apply]
    have hgh : (if (U.setup R).S.pbc = true then ghosts (U.setup R).S.P.dx ((U.setup R).S.L 0) 4 (U.world w).ps else []) =
        (if R.S.pbc = true then ghosts R.S.P.dx (R.S.L 0) 4 w.ps else []).map U.particle := by
      rw [hpb, hP, hdx, hL, hps]
      exact ite_conv (f := List.map U.particle) Iff.rfl (fun _ => ghosts_scale U _ _ _ _) (fun _ => rfl)
    rw [hgh]
    generalize (if R.S.pbc = true then ghosts R.S.P.dx (R.S.L 0) 4 w.ps else []) = gs
    rw [hP, hmb]
    refine ite_conv (f := Option.map (Prod.map U.world id)) ?_ (fun _ => rfl) (fun _ => ?_)
    · simp
    have h1 : P2G (U.params R.S.P) (U.axes gg) ((U.setup R).sched n ((U.world w).ps ++ gs.map U.particle)) =
        (P2G R.S.P gg (R.sched n (w.ps ++ gs))).map fun a l => U.cell (a l) := by
      rw [← P2G_scale U R.S.P gg]
      refine C03_p2g _ _ _ _ ((hR _ _).trans ?_)
      rw [← List.map_flatten, hps, ← List.map_append]
      exact ((hR n (w.ps ++ gs)).map _).symm
    rw [h1]
    cases P2G R.S.P gg (R.sched n (w.ps ++ gs)) with
    | none => rfl
    | some arr =>
      simp only [Option.map_some, Option.bind_some, afterP2G]
      have he : eulerUpdate (U.setup R).S.P (U.time * dt) (U.acc • g) (boundaryCollision (U.setup R).ops (U.setup R).S.P.useMibf
          (fun l => (U.cell (arr l)).friction) (U.time * dt) (U.setup R).objs (U.world w).plates) (U.axes gg) (fun l => U.cell (arr l)) = _ :=
        eulerUpdate_scale U R.S.P dt g (fun l X v => boundaryCollision_scale U hpl R.S.P.useMibf
          (fun l => (arr l).friction) dt R.objs w.plates l X v) gg arr
      rw [he, hps, g2pFull_scale U hm]
      generalize eulerUpdate R.S.P dt g (boundaryCollision R.ops R.S.P.useMibf (fun l => (arr l).friction) dt R.objs w.plates) gg arr = ev
      cases g2pFull R dt gg ev w.ps with
      | none => rfl
      | some qs =>
        simp only [Option.map_some, Option.bind_some]
        have hmid : (if (U.setup R).S.useMusl = true then
            (MUSL (U.setup R).S.P (U.axes gg) (fun l => (U.cell (arr l)).mass)
              [(qs.map (Prod.map U.particle id)).map (·.1)]).bind fun r =>
              (deformFull (U.setup R) (U.time * dt) (U.axes gg) r.2 r.1.flatten).map fun qs => (qs, r.2)
            else some (qs.map (Prod.map U.particle id), (U.euler ev).v)) =
            (if R.S.useMusl = true then (MUSL R.S.P gg (fun l => (arr l).mass) [qs.map (·.1)]).bind fun r =>
              (deformFull R dt gg r.2 r.1.flatten).map fun qs => (qs, r.2) else some (qs, ev.v)).map
              (Prod.map (List.map (Prod.map U.particle id)) fun v l => U.speed • v l) := by
          refine ite_conv (f := Option.map _) Iff.rfl (fun _ => ?_) (fun _ => rfl)
          have e1 : [(qs.map (Prod.map U.particle id)).map (·.1)] = [qs.map (·.1)].map (List.map U.particle) := by
            simp
          have hM : MUSL (U.setup R).S.P (U.axes gg) (fun l => (U.cell (arr l)).mass)
            [(qs.map (Prod.map U.particle id)).map (·.1)] = (MUSL R.S.P gg (fun l => (arr l).mass) [qs.map (·.1)]).map
              (Prod.map (List.map (List.map U.particle)) fun v l => U.speed • v l) := by
            rw [e1]
            exact MUSL_scale U R.S.P gg (fun l => (arr l).mass) [qs.map (·.1)]
          rw [hM]
          cases MUSL R.S.P gg (fun l => (arr l).mass) [qs.map (·.1)] with
          | none => rfl
          | some r =>
            simp only [Option.map_some, Option.bind_some, Prod.map_fst, Prod.map_snd]
            rw [← List.map_flatten, deformFull_scale U hm, Option.map_map, Option.map_map]
            rfl
        rw [hmid]
        cases (if R.S.useMusl = true then (MUSL R.S.P gg (fun l => (arr l).mass) [qs.map (·.1)]).bind fun r =>
              (deformFull R dt gg r.2 r.1.flatten).map fun qs => (qs, r.2) else some (qs, ev.v)) with
        | none => rfl
        | some qs' =>
          simp only [Option.map_some, Option.bind_some, Option.some.injEq, Prod.map_apply, id_eq]
          refine Prod.ext ?_ ?_
          · simp only [Scales.world, List.map_map]
            congr 1
            · rw [Prod.map_fst, List.map_map]
              refine List.map_congr_left fun q _ => ?_
              exact positionParticle_scale U R.S.P R.S.useMusl R.S.pbc R.S.changePos hch (R.S.L 0) dt q.1
            · refine List.map_congr_left fun p _ => ?_
              have hf : (U.setup R).C.frameDt = U.time * R.C.frameDt := frameDt_scale U R.C
              simp only [Function.comp]
              rw [hf]
              exact hpl.move _ _ _ _
          · simp [List.any_map, Function.comp_def]

lemma run_scale (hpl : PlateScale U R.ops) (hR : ∀ k ps, (R.sched k ps).flatten.Perm ps)
    (hg : R.S.pbc = true ∨ U.len = 1) (hch : R.S.changePos = false ∨ U.len = 1) (hm : U.Fits R.m)
    (hmu : R.S.P.useMibf = true → U.q = 1) (hslow : U.speed = 1 ∨ SlowLimit R.C ∧ SlowLimit (U.times R.C))
    (i e : Bool) (fuel : ℕ) (s : LoopState (d + 2) (World (d + 2))) :
    runProgram (U.setup R) i e fuel (s.scale U.world U.time U.acc) = (runProgram R i e fuel s).scale U.world U.time U.acc := by
  unfold runProgram
  have h1 : (U.setup R).m.elastic = R.m.elastic := rfl
  have h2 : (U.setup R).m.plastic = R.m.plastic := rfl
  have h3 : (U.setup R).C = U.times R.C := rfl
  have h4 : (U.setup R).S.P.useMibf = R.S.P.useMibf := rfl
  rw [h1, h2, h3, h4]
  refine ite_conv (f := Result.scale U.world U.time U.acc) Iff.rfl (fun _ => ?_) (fun _ => rfl)
  have := simulate_scale U (C := R.C) (ph := physics R) (ph' := physics (U.setup R)) (f := U.world) (a := U.acc) hslow
    (fun w => by
      have : (physics (U.setup R)).velocities (U.world w) = ((physics R).velocities w).map (U.speed • ·) := by
        simp [physics, Scales.world, Scales.particle, Function.comp_def]
      rw [this]
      exact maxSpeed_scale U.speed_pos _)
    (fun w dt g t n => physStep_scale U hpl hR hg hch hm w dt g t n)
    i R.m.elastic R.m.plastic e fuel { s with w := fillMuI R.m R.S.P.useMibf s.w }
  have e1 : ∀ w : World (d + 2), fillMuI (U.setup R).m R.S.P.useMibf (U.world w) = U.world (fillMuI R.m R.S.P.useMibf w) := by
    intro w
    unfold fillMuI
    refine ite_conv (f := U.world) Iff.rfl (fun hb => ?_) (fun _ => rfl)
    simp only [Scales.world, List.map_map]
    congr 1
    refine List.map_congr_left fun p _ => ?_
    simp only [Function.comp, Scales.particle]
    congr 1
    show (if R.m.plastic = .dpMui ∨ R.m.plastic = .mccMui then R.m.mu1 else U.q * R.m.M) = _
    rw [hmu hb, one_mul]
  simp only [LoopState.scale, e1] at this ⊢
  exact this

end step
end Verif.Props

namespace Verif.Props
open Verif Matrix

/-! ### the property theorems -/

/-- **C87** (2D). A simulation set up in other units runs exactly as before: same end, same number of steps, and
every file, time, position, velocity, stress, ... is the one of the original run converted to the new units. -/
theorem C87_run2 (U : Scales) {R : Setup 2} (hops : R.ops = plateOps2) (hR : ∀ k ps, (R.sched k ps).flatten.Perm ps)
    (hg : R.S.pbc = true ∨ U.len = 1) (hch : R.S.changePos = false ∨ U.len = 1) (hm : U.Fits R.m)
    (hmu : R.S.P.useMibf = true → U.q = 1) (hslow : U.speed = 1 ∨ SlowLimit R.C ∧ SlowLimit (U.times R.C))
    (i e : Bool) (fuel : ℕ) (s : LoopState 2 (World 2)) :
    runProgram (d := 0) (U.setup R) i e fuel (s.scale U.world U.time U.acc) =
      (runProgram (d := 0) R i e fuel s).scale U.world U.time U.acc :=
  run_scale (d := 0) U (hops ▸ plateScale2 U) hR hg hch hm hmu hslow i e fuel s

/-- **C87** (3D). -/
theorem C87_run3 (U : Scales) {R : Setup 3} (hops : R.ops = plateOps3) (hR : ∀ k ps, (R.sched k ps).flatten.Perm ps)
    (hg : R.S.pbc = true ∨ U.len = 1) (hch : R.S.changePos = false ∨ U.len = 1) (hm : U.Fits R.m)
    (hmu : R.S.P.useMibf = true → U.q = 1) (hslow : U.speed = 1 ∨ SlowLimit R.C ∧ SlowLimit (U.times R.C))
    (i e : Bool) (fuel : ℕ) (s : LoopState 3 (World 3)) :
    runProgram (d := 1) (U.setup R) i e fuel (s.scale U.world U.time U.acc) =
      (runProgram (d := 1) R i e fuel s).scale U.world U.time U.acc :=
  run_scale (d := 1) U (hops ▸ plateScale3 U) hR hg hch hm hmu hslow i e fuel s

/-- **C87**. The same files are written, in the same order, with converted times and contents. -/
theorem C87_files2 (U : Scales) {R : Setup 2} (hops : R.ops = plateOps2) (hR : ∀ k ps, (R.sched k ps).flatten.Perm ps)
    (hg : R.S.pbc = true ∨ U.len = 1) (hch : R.S.changePos = false ∨ U.len = 1) (hm : U.Fits R.m)
    (hmu : R.S.P.useMibf = true → U.q = 1) (hslow : U.speed = 1 ∨ SlowLimit R.C ∧ SlowLimit (U.times R.C))
    (i e : Bool) (fuel : ℕ) (s : LoopState 2 (World 2)) :
    filesOf (runProgram (d := 0) (U.setup R) i e fuel (s.scale U.world U.time U.acc)) =
      (filesOf (runProgram (d := 0) R i e fuel s)).map fun
        | .info => .info
        | .particles n t w => .particles n (U.time * t) (U.world w)
        | .grid n t w => .grid n (U.time * t) (U.world w)
        | .timing k => .timing k := by
  rw [C87_run2 U hops hR hg hch hm hmu hslow]
  have : ∀ l : List (Event (World 2)), l.map (Event.scale U.world U.time) = l.map fun
        | .info => .info
        | .particles n t w => .particles n (U.time * t) (U.world w)
        | .grid n t w => .grid n (U.time * t) (U.world w)
        | .timing k => .timing k := by
    intro l
    refine List.map_congr_left fun x _ => ?_
    cases x <;> rfl
  cases runProgram (d := 0) R i e fuel s <;> first | exact this _ | rfl

/-- Columns of an output file multiplied by a conversion factor. -/
noncomputable def scaleCols (c : ℝ) (g : Verif.Group) : Verif.Group := ⟨g.names, g.rows.map (List.map (c * ·))⟩

lemma savedP_scale {d : ℕ} (c : ℝ) (tau : Matrix (Fin d) (Fin d) ℝ) : savedP (c • tau) = c * savedP tau := by
  unfold savedP
  rw [trace_smul, smul_eq_mul, ← mul_neg, mul_div_assoc]

lemma savedQ_scale {d : ℕ} {c : ℝ} (hc : 0 < c) (a f : ℝ) (tau : Matrix (Fin d) (Fin d) ℝ) :
    savedQ (a * f) (c • tau) = a * c * savedQ f tau := by
  unfold savedQ
  rw [savedP_scale, mul_smul, ← smul_add]
  have : selfDoubleDot (c • (tau + savedP tau • (1 : Matrix (Fin d) (Fin d) ℝ))) =
      c * c * selfDoubleDot (tau + savedP tau • (1 : Matrix (Fin d) (Fin d) ℝ)) := by
    unfold selfDoubleDot
    simp only [Matrix.smul_apply, smul_eq_mul]
    rw [← List.sum_map_mul_left]
    congr 2
    funext i
    rw [← List.sum_map_mul_left]
    congr 2
    funext j
    ring
  rw [this, Real.sqrt_mul (mul_self_nonneg _), Real.sqrt_mul_self hc.le]
  ring

/-- **C87**. In the particle files, positions are multiplied by the factor of length, velocities by that of speed,
pressures by that of stress, shear stresses by that of stress and of the convention of `q`, rates by the inverse of
that of time (and of the convention), viscosities by that of stress times time; strains, volume ratios and friction
coefficients are unchanged. -/
theorem C87_particle_columns {d : ℕ} (U : Scales) (m : Material) (b : Bool) (ps : List (Particle (d + 2) ℝ)) :
    particleGroups (U.material m) b (ps.map U.particle) =
      (particleGroups m b ps).map fun g => scaleCols
        (if g.names = ["x", "y", "z"].take (d + 2) then U.len
         else if g.names = ["vx", "vy", "vz"].take (d + 2) then U.len / U.time
         else if g.names = ["p"] then U.stress
         else if g.names = ["q"] then U.q * U.stress
         else if g.names = ["delta_gamma"] then 1 / (U.q * U.time)
         else if g.names = ["viscosity"] then U.stress * U.time
         else 1) g := by
  have hp : (U.material m).plastic = m.plastic := rfl
  have hq : (U.material m).qPrefac = U.q * m.qPrefac := rfl
  have hofn : ∀ (c : ℝ) (v : Fin (d + 2) → ℝ), List.ofFn (c • v) = (List.ofFn v).map (c * ·) := by
    intro c v
    rw [List.map_ofFn]
    rfl
  unfold particleGroups
  rw [hp, hq, List.map_append]
  congr 1
  · rcases d with _ | d
    all_goals
      simp only [List.map_cons, List.map_nil, List.map_map, Function.comp_def, scaleCols, Scales.particle, savedP_scale,
        savedQ_scale U.stress_pos, hofn, Scales.speed]
      simp
  · split_ifs with h1 h2 h3 h3
    all_goals
      rcases d with _ | d
      all_goals
        simp [Function.comp_def, scaleCols, Scales.particle, div_eq_inv_mul]

/-- **C87**. The same for the grid files. -/
theorem C87_grid_columns {d : ℕ} (U : Scales) (b : Bool) (w : World (d + 2)) :
    gridGroups b (U.world w) =
      (gridGroups b w).map fun g => scaleCols
        (if g.names = ["x", "y", "z"].take (d + 2) then U.len
         else if g.names = ["vx", "vy", "vz"].take (d + 2) then U.len / U.time
         else if g.names = ["mass"] then U.stress * (U.time * U.time) / (U.len * U.len) * U.vol
         else 1) g := by
  have hofn : ∀ (c : ℝ) (v : Fin (d + 2) → ℝ), List.ofFn (c • v) = (List.ofFn v).map (c * ·) := by
    intro c v
    rw [List.map_ofFn]
    rfl
  have hpos : ∀ l, (savedPositions (U.world w).g).2 l = U.len • (savedPositions w.g).2 l := by
    intro l
    have hg : (U.world w).g = U.axes w.g := rfl
    unfold savedPositions
    rw [hg, axes_size]
    have key : ∀ (L : List (Fin (d + 2) → ℕ)) (a : ℕ) (f f' : ℕ → Fin (d + 2) → ℝ), (∀ l, f' l = U.len • f l) →
        ∀ l, (L.foldl (fun st i => (st.1 + 1, Function.update st.2 st.1 (nodePosOf (U.axes w.g) i))) (a, f')).2 l =
          U.len • (L.foldl (fun st i => (st.1 + 1, Function.update st.2 st.1 (nodePosOf w.g i))) (a, f)).2 l := by
      intro L
      induction L with
      | nil => intro a f f' h l; exact h l
      | cons i L ih =>
        intro a f f' h l
        rw [List.foldl_cons, List.foldl_cons]
        refine ih _ _ _ (fun l => ?_) l
        by_cases hl : l = a
        · subst hl
          simp only [Function.update_self, nodePosOf_scale]
        · simp only [Function.update_of_ne hl, h]
    exact key _ _ _ _ (fun l => (smul_zero _).symm) l
  have hn : gridNodes (U.world w).g.size = gridNodes w.g.size := by
    have : (U.world w).g.size = w.g.size := axes_size U w.g
    rw [this]
  unfold gridGroups
  simp only [hn, hpos, hofn]
  rw [List.map_append]
  congr 1
  · rcases d with _ | d
    all_goals
      simp only [List.map_cons, List.map_nil, List.map_map, Function.comp_def, scaleCols, Scales.world, hofn, Scales.speed,
        Scales.mass]
      simp
  · split_ifs
    all_goals
      rcases d with _ | d
      all_goals
        simp [Function.comp_def, scaleCols, Scales.world]

/-! ### the convention of `q` -/

/-- Only the convention of `q` is changed. -/
noncomputable def qOnly (c : ℝ) (hc : 0 < c) : Scales := ⟨1, 1, 1, 1, c, one_pos, one_pos, one_pos, one_pos, hc⟩

/-- The same material for `q` defined with `c` times the factor: every parameter that is a value of `q`, or a slope
of `q` against `p`, is multiplied by `c`; so is the viscous time of the models of Perzyna type, whose rate variable
is divided by `c`. -/
def forConvention (c : ℝ) (m : Material) : Material :=
  { m with
    qPrefac := c * m.qPrefac
    qMax := c * m.qMax
    qMin := c * m.qMin
    qCohesion := c * m.qCohesion
    M := c * m.M
    viscTime := if m.useDuvautLions then m.viscTime else c * m.viscTime }

/-- The same world, `delta_gamma` being divided by `c`. -/
noncomputable def rateConvention {d : ℕ} (c : ℝ) (w : World d) : World d :=
  { w with ps := w.ps.map fun p => { p with deltaGamma := p.deltaGamma / c } }

lemma qOnly_material {c : ℝ} (hc : 0 < c) (m : Material) : (qOnly c hc).material m = forConvention c m := by
  obtain ⟨⟩ := m
  simp only [Scales.material, forConvention, qOnly, Scales.dens, one_mul, mul_one, div_one]
  split_ifs <;> simp

lemma qOnly_world {d : ℕ} {c : ℝ} (hc : 0 < c) : ((qOnly c hc).world : World d → World d) = rateConvention c := by
  funext w
  obtain ⟨ps, box, g, pl, ma, ve, fr⟩ := w
  have h1 : (qOnly c hc).particle (d := d) = fun p => { p with deltaGamma := p.deltaGamma / c } := by
    funext p
    simp [Scales.particle, qOnly, Scales.speed]
  have h2 : (qOnly c hc).plate (d := d) = id := by
    funext p
    simp [Scales.plate, qOnly, Scales.speed]
  simp only [Scales.world, rateConvention, h1, h2, List.map_id]
  congr 1
  · cases box with
    | none => rfl
    | some b => simp [Scales.box, qOnly]
  · funext a; simp [Scales.axes, qOnly]
  · funext l; simp [Scales.mass, qOnly]
  · funext l; simp [Scales.speed, qOnly]

lemma qOnly_setup {d : ℕ} {c : ℝ} (hc : 0 < c) (R : Setup d) : (qOnly c hc).setup R = { R with m := forConvention c R.m } := by
  obtain ⟨C, S, m, objs, ops, cabs, svd, sched⟩ := R
  have h1 : (qOnly c hc).object (d := d) = id := by
    funext o
    simp [Scales.object, qOnly]
  have h2 : (qOnly c hc).times C = C := by simp [Scales.times, qOnly, Scales.dens]
  have h3 : (qOnly c hc).params S.P = S.P := by simp [Scales.params, qOnly, Scales.mass]
  have h4 : (qOnly c hc).len • S.L = S.L := by simp [qOnly]
  have h5 : S.ref.map ((qOnly c hc).len • ·) = S.ref := by cases S.ref <;> simp [qOnly]
  simp only [Scales.setup, qOnly_material, h1, h2, h3, h4, h5, List.map_id]

lemma loop_scale_map {d : ℕ} {W W' : Type*} (f : W → W') (s : LoopState d W) :
    s.scale f 1 1 = s.map f id := by
  have : ∀ l : List (Event W), l.map (Event.scale f 1) = l.map (Event.map f) := by
    intro l
    refine List.map_congr_left fun x _ => ?_
    cases x <;> simp [Event.scale, Event.map]
  simp [LoopState.scale, LoopState.map, this]

lemma result_scale_map {d : ℕ} {W W' : Type*} (f : W → W') (r : Result d W) : r.scale f 1 1 = r.map f id := by
  cases r <;> simp only [Result.scale, Result.map, loop_scale_map]

/-- The models for which the convention of `q` can be changed. -/
def AnyConvention (m : Material) : Prop :=
  m.plastic = .noPlasticity ∨ m.plastic = .vm ∨ m.plastic = .dpSoft ∨
  (m.plastic = .vmVisc ∧ m.xi = 0 ∧ m.viscExponent = 1) ∨
  (m.plastic = .dpVisc ∧ m.viscExponent = 1 ∧ m.useMibf = false)

lemma AnyConvention.fits {m : Material} (h : AnyConvention m) {c : ℝ} (hc : 0 < c) : (qOnly c hc).Fits m := by
  right
  rcases h with h | h | h | h | h
  · rw [h]; trivial
  · rw [h]; trivial
  · rw [h]; trivial
  · rw [h.1]; exact h.2
  · rw [h.1]; exact h.2

/-- **C88** (2D). Whichever factor is chosen in the definition `q = factor * ||dev(tau)||` of the shear stress
(simulation.hpp:110, default `1/sqrt(2)`), the run is the same when the material parameters are given for that
definition; only the rate `delta_gamma` is divided by the ratio of the factors. -/
theorem C88_convention2 {c : ℝ} (hc : 0 < c) {R : Setup 2} (hops : R.ops = plateOps2)
    (hR : ∀ k ps, (R.sched k ps).flatten.Perm ps) (hm : AnyConvention R.m) (hmu : R.S.P.useMibf = false)
    (i e : Bool) (fuel : ℕ) (s : LoopState 2 (World 2)) :
    runProgram (d := 0) { R with m := forConvention c R.m } i e fuel (s.map (rateConvention c) id) =
      (runProgram (d := 0) R i e fuel s).map (rateConvention c) id := by
  have := C87_run2 (qOnly c hc) hops hR (.inr rfl) (.inr rfl) (hm.fits hc) (fun h => by rw [hmu] at h; cases h)
    (.inl (by simp [qOnly, Scales.speed])) i e fuel s
  have ha : (qOnly c hc).acc = 1 := by simp [qOnly, Scales.acc]
  have ht : (qOnly c hc).time = 1 := rfl
  rw [qOnly_setup, qOnly_world, ha, ht, loop_scale_map, result_scale_map] at this
  exact this

/-- **C88** (3D). -/
theorem C88_convention3 {c : ℝ} (hc : 0 < c) {R : Setup 3} (hops : R.ops = plateOps3)
    (hR : ∀ k ps, (R.sched k ps).flatten.Perm ps) (hm : AnyConvention R.m) (hmu : R.S.P.useMibf = false)
    (i e : Bool) (fuel : ℕ) (s : LoopState 3 (World 3)) :
    runProgram (d := 1) { R with m := forConvention c R.m } i e fuel (s.map (rateConvention c) id) =
      (runProgram (d := 1) R i e fuel s).map (rateConvention c) id := by
  have := C87_run3 (qOnly c hc) hops hR (.inr rfl) (.inr rfl) (hm.fits hc) (fun h => by rw [hmu] at h; cases h)
    (.inl (by simp [qOnly, Scales.speed])) i e fuel s
  have ha : (qOnly c hc).acc = 1 := by simp [qOnly, Scales.acc]
  have ht : (qOnly c hc).time = 1 := rfl
  rw [qOnly_setup, qOnly_world, ha, ht, loop_scale_map, result_scale_map] at this
  exact this

end Verif.Props
