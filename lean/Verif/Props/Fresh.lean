import Verif.Props.Kept

set_option linter.unusedSectionVars false
set_option linter.unusedSimpArgs false
set_option linter.unusedVariables false

/-!
# C130: a new run does not depend on the old grid and the helper variables of the particles
-/

namespace Verif.Props
open Verif Matrix
noncomputable section

variable {d : ℕ}

/-! ### Specification -/

/-- A particle without the two interpolated velocities `pic` and `flip`, and without the affine matrix unless `aff`. -/
def unhelped (aff : Bool) (p : Particle d ℝ) : Particle d ℝ :=
  { p with pic := 0, flip := 0, Bmat := if aff then p.Bmat else 0 }

/-- The particles agree except for `pic`, `flip` and, if `flip_ratio` is not negative, the affine matrix; the plates agree.
With periodic boundaries the box of the grid (never read then) agrees. Nothing is said about the grid. -/
structure SameStart (R : Setup d) (w w' : World d) : Prop where
  ps : w'.ps.map (unhelped (decide (R.S.P.flipRatio < 0))) = w.ps.map (unhelped (decide (R.S.P.flipRatio < 0)))
  plates : w'.plates = w.plates
  box : R.S.pbc = true → w'.box = w.box

/-- The end of a run which had already written the files `a` when it began. -/
def after {W : Type*} (a : List (Event W)) : Result d W → Result d W
  | .refused s => .refused { s with out := a ++ s.out }
  | .finished s => .finished { s with out := a ++ s.out }
  | .failed s => .failed { s with out := a ++ s.out }
  | .ub => .ub
  | .outOfFuel s => .outOfFuel { s with out := a ++ s.out }

/-- What is written before the first step. -/
def firstFiles {W : Type*} (C : TimeConfig d) (w : W) : List (Event W) :=
  if C.saveSim then [.info, .particles 0 0 w] else []

/-! ### one step -/

section step
variable {aff : Bool} {p p' : Particle d ℝ}

lemma unhelped_fields (h : unhelped aff p' = unhelped aff p) :
    ∃ a b c, p' = { p with pic := a, flip := b, Bmat := if aff then p.Bmat else c } := by
  obtain ⟨x, v, pic, fl, F, B, tau, e1, e2, e3, g, vi, mu⟩ := p
  obtain ⟨x', v', pic', fl', F', B', tau', e1', e2', e3', g', vi', mu'⟩ := p'
  simp only [unhelped, Particle.mk.injEq] at h
  refine ⟨pic', fl', B', ?_⟩
  cases aff <;> simp_all

lemma withStencils_unhelped {st : (Fin d → ℝ) → Option (Stencil d ℝ)} {ps ps' : List (Particle d ℝ)}
    (h : ps'.map (unhelped aff) = ps.map (unhelped aff)) :
    (withStencils st ps').map (List.map (Prod.map (unhelped aff) id)) = (withStencils st ps).map (List.map (Prod.map (unhelped aff) id)) := by
  unfold withStencils
  refine mapM_forget (u := unhelped aff) (fun p p' hp => ?_) h
  have hx : p'.x = p.x := by obtain ⟨_, _, _, rfl⟩ := unhelped_fields hp; rfl
  rw [hx, Option.map_map, Option.map_map]
  congr 1
  funext s
  simp [hp]

lemma contribution_unhelped {P : TransferParams ℝ} (h : unhelped (decide (P.flipRatio < 0)) p' = unhelped (decide (P.flipRatio < 0)) p)
    (s : Stencil d ℝ) (j : Fin d → Fin 4) : contribution P p' s j = contribution P p s j := by
  obtain ⟨_, _, _, rfl⟩ := unhelped_fields h
  by_cases hf : P.flipRatio < 0
  · simp only [contribution, hf, decide_true, if_true]
  · simp only [contribution, if_neg hf]

lemma P2G_unhelped {P : TransferParams ℝ} (g : Axes d ℝ) {ts ts' : List (List (Particle d ℝ))}
    (h : ts'.map (List.map (unhelped (decide (P.flipRatio < 0)))) = ts.map (List.map (unhelped (decide (P.flipRatio < 0))))) :
    P2G P g ts' = P2G P g ts := by
  unfold P2G
  simp only [Option.bind_eq_bind]
  rcases map_eq_cases (mapM_forget (f := withStencils (stencilP2G P.deg P.oneOverDx g))
    (f' := withStencils (stencilP2G P.deg P.oneOverDx g)) (u := List.map (unhelped (decide (P.flipRatio < 0))))
    (v := List.map (Prod.map (unhelped (decide (P.flipRatio < 0))) id))
    (fun a a' ha => withStencils_unhelped ha) h) with ⟨h1, h2⟩ | ⟨c', c, h1, h2, hc⟩
  · rw [h1, h2]
  · rw [h1, h2]
    simp only [Option.bind_some]
    have : p2gAccumulate P g.size c' = p2gAccumulate P g.size c := by
      unfold p2gAccumulate
      refine foldl_forget (u := List.map (Prod.map (unhelped (decide (P.flipRatio < 0))) id)) (fun x t t' ht => ?_) _ hc
      congr 1
      unfold threadLocal
      refine foldl_forget (u := Prod.map (unhelped (decide (P.flipRatio < 0))) id) (fun x p p' hp => ?_) _ ht
      obtain ⟨p, s⟩ := p
      obtain ⟨p', s'⟩ := p'
      simp only [Prod.map, id_eq, Prod.mk.injEq] at hp
      obtain ⟨hp, rfl⟩ := hp
      unfold depositParticle
      congr 1
      funext x j
      simp only [depositAt, contribution_unhelped hp]
    rw [this]

lemma ghosts_unhelped (dx Lx : ℝ) (sf : ℕ) (ps : List (Particle (d + 1) ℝ)) :
    (ghosts dx Lx sf ps).map (unhelped aff) = ghosts dx Lx sf (ps.map (unhelped aff)) := by
  unfold ghosts
  rw [List.map_filterMap, List.filterMap_map]
  congr 1
  funext p
  simp only [Function.comp_def, Option.map_map]
  rfl

lemma sched_unhelped {R : Setup d} (hR : ∀ k ps, (R.sched k ps).flatten.Perm ps) (g : Axes d ℝ) (n n' : ℕ)
    {ps ps' : List (Particle d ℝ)}
    (h : ps'.map (unhelped (decide (R.S.P.flipRatio < 0))) = ps.map (unhelped (decide (R.S.P.flipRatio < 0)))) :
    P2G R.S.P g (R.sched n' ps') = P2G R.S.P g (R.sched n ps) := by
  have h1 : ∀ n ps, P2G R.S.P g (R.sched n ps) = P2G R.S.P g [ps] := fun n ps =>
    C03_p2g _ _ _ _ (by simpa using hR n ps)
  rw [h1, h1]
  exact P2G_unhelped g (by simp [h])

lemma mapM_same {α β γ : Type*} {f : α → Option β} {u : α → γ} (h : ∀ a a', u a' = u a → f a' = f a) {l l' : List α}
    (hl : l'.map u = l.map u) : l'.mapM f = l.mapM f := by
  have := mapM_forget (f := f) (f' := f) (u := u) (v := id) (fun a a' ha => by rw [h a a' ha]) hl
  simpa using this

lemma g2pFull_unhelped {R : Setup d} {dt : ℝ} (g : Axes d ℝ) (e : EulerArr d ℝ) {ps ps' : List (Particle d ℝ)}
    (h : ps'.map (unhelped aff) = ps.map (unhelped aff)) : g2pFull R dt g e ps' = g2pFull R dt g e ps := by
  unfold g2pFull
  simp only [Option.bind_eq_bind]
  rcases map_eq_cases (withStencils_unhelped (st := stencilG2P R.S.P.deg R.S.P.oneOverDx g) h) with ⟨h1, h2⟩ | ⟨c', c, h1, h2, hc⟩
  · rw [h1, h2]
  · rw [h1, h2]
    simp only [Option.bind_some]
    refine mapM_same (u := Prod.map (unhelped aff) id) (fun p p' hp => ?_) hc
    obtain ⟨p, s⟩ := p
    obtain ⟨p', s'⟩ := p'
    simp only [Prod.map, id_eq, Prod.mk.injEq] at hp
    obtain ⟨hp, rfl⟩ := hp
    obtain ⟨_, _, _, rfl⟩ := unhelped_fields hp
    rfl

/-- Two steps on the same grid, from particles that agree except for the helper variables. -/
lemma physStep_unhelped {R : Setup (d + 2)} (hR : ∀ k ps, (R.sched k ps).flatten.Perm ps) {w w' : World (d + 2)}
    (hw : SameStart R w w') {n n' : ℕ}
    (hcg : chooseGrid R.S ⟨w'.ps, w'.box, w'.g, n'⟩ = chooseGrid R.S ⟨w.ps, w.box, w.g, n⟩) (dt : ℝ) (g : Fin (d + 2) → ℝ) (t : ℝ) :
    physStep R w' dt g t n' = physStep R w dt g t n := by
  obtain ⟨hps, hpl, hbox⟩ := hw
  obtain ⟨ps, box, gr, plates, mass, vel, fr⟩ := w
  obtain ⟨ps', box', gr', plates', mass', vel', fr'⟩ := w'
  simp only at hps hpl hbox hcg
  subst hpl
  rw [physStep_eq, physStep_eq]
  set aff := decide (R.S.P.flipRatio < 0) with haff
  have hgh : (ps' ++ if R.S.pbc then ghosts R.S.P.dx (R.S.L 0) 4 ps' else []).map (unhelped aff) =
      (ps ++ if R.S.pbc then ghosts R.S.P.dx (R.S.L 0) 4 ps else []).map (unhelped aff) := by
    rw [List.map_append, List.map_append, hps]
    congr 1
    split_ifs
    · rw [ghosts_unhelped, ghosts_unhelped, hps]
    · rfl
  have hgn : ((if R.S.pbc = true then ghosts R.S.P.dx (R.S.L 0) 4 ps' else []) ≠ []) =
      ((if R.S.pbc = true then ghosts R.S.P.dx (R.S.L 0) 4 ps else []) ≠ []) := by
    split_ifs
    · have h1 := congrArg List.length (ghosts_unhelped (aff := aff) R.S.P.dx (R.S.L 0) 4 ps')
      have h2 := congrArg List.length (ghosts_unhelped (aff := aff) R.S.P.dx (R.S.L 0) 4 ps)
      rw [hps] at h1
      simp only [List.length_map] at h1 h2
      rw [← List.length_pos_iff, ← List.length_pos_iff, h1, h2]
    · rfl
  simp only [hcg, hgn]
  cases chooseGrid R.S ⟨ps, box, gr, n⟩ with
  | none => simp only [Option.bind_none]
  | some bg =>
    simp only [Option.bind_some]
    by_cases hg : R.S.P.useMibf = true ∧ (if R.S.pbc = true then ghosts R.S.P.dx (R.S.L 0) 4 ps else []) ≠ []
    · rw [if_pos hg, if_pos hg]
    rw [if_neg hg, if_neg hg, sched_unhelped hR bg.2 n n' hgh]
    cases P2G R.S.P bg.2 (R.sched n (ps ++ if R.S.pbc = true then ghosts R.S.P.dx (R.S.L 0) 4 ps else [])) with
    | none => simp only [Option.bind_none]
    | some arr =>
      simp only [Option.bind_some, afterP2G]
      rw [g2pFull_unhelped bg.2 _ hps]

/-- **C130** (one step) A step does not read the interpolated velocities, the affine matrices (if `flip_ratio` is not negative)
and the grid arrays; the first step of a simulation does not read the grid at all. -/
theorem C130_step {R : Setup (d + 2)} (hR : ∀ k ps, (R.sched k ps).flatten.Perm ps) {w w' : World (d + 2)} (hw : SameStart R w w')
    {n : ℕ} (hn : n = 0 ∨ (w'.box = w.box ∧ w'.g = w.g)) (dt : ℝ) (g : Fin (d + 2) → ℝ) (t : ℝ) :
    physStep R w' dt g t n = physStep R w dt g t n := by
  refine physStep_unhelped hR hw ?_ dt g t
  have hx : (w'.ps.map fun p => p.x) = w.ps.map fun p => p.x := by
    have : ∀ l : List (Particle (d + 2) ℝ), (l.map fun p => p.x) =
        (l.map (unhelped (decide (R.S.P.flipRatio < 0)))).map fun p => p.x := by
      intro l; rw [List.map_map]; rfl
    rw [this w'.ps, this w.ps, hw.ps]
  unfold chooseGrid
  rcases hn with rfl | ⟨h1, h2⟩
  · by_cases hp : R.S.pbc = true
    · simp only [hp, if_true, hw.box hp]
    · simp only [hp, Bool.false_eq_true, if_false, if_true, hx]
  · simp only [hx, h1, h2]

end step

/-! ### whole runs -/

section run
variable {W : Type*} {C : TimeConfig d} {ph : Physics d W} {gf : Fin d → ℝ}

lemma saveFrame_after (a : List (Event W)) (s : LoopState d W) :
    saveFrame C { s with out := a ++ s.out } = { saveFrame C s with out := a ++ (saveFrame C s).out } := by
  unfold saveFrame
  split_ifs <;> simp

lemma endOfFrame_after (a : List (Event W)) (s : LoopState d W) :
    endOfFrame C { s with out := a ++ s.out } = { endOfFrame C s with out := a ++ (endOfFrame C s).out } := by
  unfold endOfFrame
  split_ifs
  · exact saveFrame_after a { s with frame := s.frame + 1 }
  · rfl

lemma finish_after (a : List (Event W)) (s : LoopState d W) :
    Verif.finish C { s with out := a ++ s.out } = { Verif.finish C s with out := a ++ (Verif.finish C s).out } := by
  unfold Verif.finish
  split_ifs <;> simp

/-- The same for one iteration. -/
def nextAfter (a : List (Event W)) : Next d W → Next d W
  | .cont s => .cont { s with out := a ++ s.out }
  | .brk s => .brk { s with out := a ++ s.out }
  | .fail s => .fail { s with out := a ++ s.out }
  | .ub => .ub

lemma loopBody_after (a : List (Event W)) (s : LoopState d W) :
    loopBody C ph gf { s with out := a ++ s.out } = nextAfter a (loopBody C ph gf s) := by
  simp only [loopBody]
  cases updateDt C gf s.frame s.time (ph.velocities s.w) s.gravity with
  | none => rfl
  | some r =>
    obtain ⟨dt, g⟩ := r
    simp only
    cases ph.step s.w dt g s.time s.step with
    | none => rfl
    | some r =>
      obtain ⟨w, ex⟩ := r
      cases ex with
      | true => rfl
      | false =>
        simp only
        have h := endOfFrame_after (C := C) a { s with w := w, gravity := g, time := s.time + dt, step := s.step + 1 }
        simp only at h
        rw [h]
        simp only
        split_ifs
        · rw [saveFrame_after]; rfl
        · rfl

lemma loop_after (a : List (Event W)) : ∀ (fuel : ℕ) (s : LoopState d W),
    loop C ph gf fuel { s with out := a ++ s.out } = after a (loop C ph gf fuel s) := by
  intro fuel
  induction fuel with
  | zero =>
    intro s
    unfold loop
    simp only
    split_ifs
    · rfl
    · rw [finish_after]; rfl
  | succ fuel ih =>
    intro s
    unfold loop
    simp only
    split_ifs
    · rw [loopBody_after]
      cases loopBody C ph gf s with
      | cont t => exact ih t
      | brk t => simp only [nextAfter, finish_after]; rfl
      | fail t => rfl
      | ub => rfl
    · rw [finish_after]; rfl

variable {R : Setup (d + 2)} {s s' : LoopState (d + 2) (World (d + 2))} {i e : Bool} {fuel : ℕ}

lemma fillMuI_same {m : Material} {b : Bool} {w w' : World (d + 2)} (h : SameStart R w w') :
    SameStart R (fillMuI m b w) (fillMuI m b w') := by
  cases b with
  | false => exact h
  | true =>
    refine ⟨?_, h.plates, h.box⟩
    have : ∀ (x : ℝ) (l : List (Particle (d + 2) ℝ)), (l.map fun p => ({ p with muI := x } : Particle (d + 2) ℝ)).map
        (unhelped (decide (R.S.P.flipRatio < 0))) =
        (l.map (unhelped (decide (R.S.P.flipRatio < 0)))).map fun p => ({ p with muI := x } : Particle (d + 2) ℝ) := by
      intro x l; rw [List.map_map, List.map_map]; rfl
    simp only [fillMuI, if_true]
    rw [this, this, h.ps]

/-- **C130** A simulation does not depend on what an earlier one has left in the grid and in the helper variables of the
particles: two new runs that differ only in these are the same run `r`, apart from the file of the initial state. -/
theorem C130_run (hR : ∀ k ps, (R.sched k ps).flatten.Perm ps) (ha : accepted i R.m.elastic R.m.plastic e = true)
    (hw : SameStart R s.w s'.w) (hg : s'.gravity = s.gravity) (hs : s.step = 0) (hs' : s'.step = 0)
    (hf : 0 < R.C.endFrame) :
    ∃ r, runProgram R i e (fuel + 1) s = after (s.out ++ firstFiles R.C (fillMuI R.m R.S.P.useMibf s.w)) r ∧
      runProgram R i e (fuel + 1) s' = after (s'.out ++ firstFiles R.C (fillMuI R.m R.S.P.useMibf s'.w)) r := by
  have hw1 := fillMuI_same (m := R.m) (b := R.S.P.useMibf) hw
  have form : ∀ s : LoopState (d + 2) (World (d + 2)), s.step = 0 → runProgram R i e (fuel + 1) s =
      after (s.out ++ firstFiles R.C (fillMuI R.m R.S.P.useMibf s.w))
        (loop R.C (physics R) s.gravity (fuel + 1) ⟨fillMuI R.m R.S.P.useMibf s.w, 0, 0, 0, s.gravity, []⟩) := by
    intro s hs
    rw [← loop_after]
    unfold runProgram Verif.simulate
    rw [if_pos ha, if_pos ha]
    simp only [firstFiles, hs]
    split_ifs <;> simp [hs]
  refine ⟨_, form s hs, ?_⟩
  rw [form s' hs']
  congr 1
  rw [hg]
  generalize fillMuI R.m R.S.P.useMibf s.w = w at hw1
  generalize fillMuI R.m R.S.P.useMibf s'.w = w' at hw1
  have hv : (physics R).velocities w' = (physics R).velocities w := by
    have : ∀ l : List (Particle (d + 2) ℝ), (l.map fun p => p.v) = (l.map (unhelped (decide (R.S.P.flipRatio < 0)))).map fun p => p.v := by
      intro l; rw [List.map_map]; rfl
    show (w'.ps.map fun p => p.v) = w.ps.map fun p => p.v
    rw [this w'.ps, this w.ps, hw1.ps]
  unfold loop
  simp only [hf, if_true]
  have hb : loopBody R.C (physics R) s.gravity ⟨w', 0, 0, 0, s.gravity, []⟩ =
      loopBody R.C (physics R) s.gravity ⟨w, 0, 0, 0, s.gravity, []⟩ := by
    simp only [loopBody, hv]
    cases updateDt R.C s.gravity 0 0 ((physics R).velocities w) s.gravity with
    | none => rfl
    | some r =>
      obtain ⟨dt, g⟩ := r
      simp only
      have h1 : (physics R).step w' dt g 0 0 = (physics R).step w dt g 0 0 := C130_step hR hw1 (.inl rfl) dt g 0
      rw [h1]
  rw [hb]

/-- **C130** The file of the initial state is the same, too. -/
theorem C130_first (hw : SameStart R s.w s'.w) :
    particleGroups R.m R.S.P.useMibf (fillMuI R.m R.S.P.useMibf s'.w).ps =
      particleGroups R.m R.S.P.useMibf (fillMuI R.m R.S.P.useMibf s.w).ps := by
  have h := (fillMuI_same (m := R.m) (b := R.S.P.useMibf) hw).ps
  have key : ∀ l : List (Particle (d + 2) ℝ), particleGroups R.m R.S.P.useMibf l =
      particleGroups R.m R.S.P.useMibf (l.map (unhelped (decide (R.S.P.flipRatio < 0)))) := by
    intro l
    simp only [particleGroups, List.map_map]
    rfl
  rw [key, key (fillMuI R.m R.S.P.useMibf s.w).ps, h]

end run

end
end Verif.Props
