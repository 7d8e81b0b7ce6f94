import Verif.Props.Fresh
import Verif.Props.Seam
import Verif.Props.Continue

set_option linter.unusedSectionVars false
set_option linter.unusedSimpArgs false
set_option linter.unusedVariables false

/-!
# C131: a periodic simulation can be restarted from its particles
-/

namespace Verif.Props
open Verif Matrix
noncomputable section

variable {d : ℕ}

/-! ### Specification -/

/-- The file of timings with the steps counted from `k`. -/
def recountFile {W : Type*} (k : ℕ) : Event W → Event W
  | .timing n => .timing (n + k)
  | ev => ev

/-- A state of the main loop with the steps counted from `k`. -/
def recountState {W : Type*} (k : ℕ) (s : LoopState d W) : LoopState d W :=
  { s with step := s.step + k, out := s.out.map (recountFile k) }

/-- The end of a run with the steps counted from `k`. -/
def recount {W : Type*} (k : ℕ) : Result d W → Result d W
  | .refused s => .refused (recountState k s)
  | .finished s => .finished (recountState k s)
  | .failed s => .failed (recountState k s)
  | .ub => .ub
  | .outOfFuel s => .outOfFuel (recountState k s)

/-! ### the main loop -/

section loop
variable {W : Type*} {C : TimeConfig d} {ph : Physics d W} {gf : Fin d → ℝ} {k : ℕ}

lemma saveFrame_recount (s : LoopState d W) : saveFrame C (recountState k s) = recountState k (saveFrame C s) := by
  unfold saveFrame recountState
  split_ifs <;> simp [recountFile]

lemma endOfFrame_recount (s : LoopState d W) : endOfFrame C (recountState k s) = recountState k (endOfFrame C s) := by
  unfold endOfFrame
  have h1 : (recountState k s).frame = s.frame := rfl
  have h2 : (recountState k s).time = s.time := rfl
  rw [h1, h2]
  split_ifs
  · exact saveFrame_recount { s with frame := s.frame + 1 }
  · rfl

lemma finish_recount (s : LoopState d W) : Verif.finish C (recountState k s) = recountState k (Verif.finish C s) := by
  unfold Verif.finish recountState
  split_ifs <;> simp [recountFile]

/-- The same for one iteration. -/
def nextRecount (k : ℕ) : Next d W → Next d W
  | .cont s => .cont (recountState k s)
  | .brk s => .brk (recountState k s)
  | .fail s => .fail (recountState k s)
  | .ub => .ub

lemma loopBody_recount {w' : W} (s : LoopState d W) (hv : ph.velocities w' = ph.velocities s.w)
    (h : ∀ dt g, ph.step w' dt g s.time (s.step + k) = ph.step s.w dt g s.time s.step) :
    loopBody C ph gf { recountState k s with w := w' } = nextRecount k (loopBody C ph gf s) := by
  simp only [loopBody, recountState, hv]
  cases updateDt C gf s.frame s.time (ph.velocities s.w) s.gravity with
  | none => rfl
  | some r =>
    obtain ⟨dt, g⟩ := r
    simp only [h]
    cases ph.step s.w dt g s.time s.step with
    | none => rfl
    | some r =>
      obtain ⟨w, ex⟩ := r
      cases ex with
      | true => rfl
      | false =>
        simp only
        have h := endOfFrame_recount (C := C) (k := k) { s with w := w, gravity := g, time := s.time + dt, step := s.step + 1 }
        have e : s.step + 1 + k = s.step + k + 1 := by omega
        simp only [recountState, e] at h
        have h2 := saveFrame_recount (C := C) (k := k)
          (endOfFrame C { s with w := w, gravity := g, time := s.time + dt, step := s.step + 1 })
        simp only [recountState] at h2
        simp only [h, h2]
        split_ifs <;> rfl

lemma loopBody_step {s t : LoopState d W} (h : loopBody C ph gf s = .cont t) : t.step = s.step + 1 := by
  simp only [loopBody] at h
  split at h
  · cases h
  · split at h
    · cases h
    · cases h
    · split_ifs at h
      · injection h with h
        rw [← h]
        unfold endOfFrame saveFrame
        split_ifs <;> rfl

lemma loop_recount (h : ∀ w dt g t n, 0 < n → ph.step w dt g t (n + k) = ph.step w dt g t n) :
    ∀ (fuel : ℕ) (s : LoopState d W), 0 < s.step → loop C ph gf fuel (recountState k s) = recount k (loop C ph gf fuel s) := by
  intro fuel
  induction fuel with
  | zero =>
    intro s hs
    unfold loop
    have h1 : (recountState k s).frame = s.frame := rfl
    rw [h1]
    split_ifs
    · rfl
    · rw [finish_recount]; rfl
  | succ fuel ih =>
    intro s hs
    unfold loop
    have h1 : (recountState k s).frame = s.frame := rfl
    rw [h1]
    split_ifs
    · have hb := loopBody_recount (C := C) (gf := gf) (k := k) (w' := s.w) s rfl (fun dt g => h s.w dt g s.time s.step hs)
      have e : ({ recountState k s with w := s.w } : LoopState d W) = recountState k s := rfl
      rw [e] at hb
      rw [hb]
      cases hn : loopBody C ph gf s with
      | cont t =>
        simp only [nextRecount]
        exact ih t (by rw [loopBody_step hn]; omega)
      | brk t => simp only [nextRecount, finish_recount]; rfl
      | fail t => rfl
      | ub => rfl
    · rw [finish_recount]; rfl

/-- What every step establishes holds at the end. -/
lemma loop_finished {Inv : W → ℕ → Prop} (h : ∀ w dt g t n w', Inv w n → ph.step w dt g t n = some (w', false) → Inv w' (n + 1)) :
    ∀ (fuel : ℕ) (s r : LoopState d W), Inv s.w s.step → loop C ph gf fuel s = .finished r → Inv r.w r.step := by
  have hfin : ∀ s : LoopState d W, (Verif.finish C s).w = s.w ∧ (Verif.finish C s).step = s.step := by
    intro s; unfold Verif.finish; split_ifs <;> simp
  have hsav : ∀ s : LoopState d W, (saveFrame C s).w = s.w ∧ (saveFrame C s).step = s.step := by
    intro s; unfold saveFrame; split_ifs <;> simp
  have hend : ∀ s : LoopState d W, (endOfFrame C s).w = s.w ∧ (endOfFrame C s).step = s.step := by
    intro s; unfold endOfFrame; split_ifs
    · exact hsav _
    · simp
  have hbody : ∀ s t : LoopState d W, Inv s.w s.step → loopBody C ph gf s = .cont t ∨ loopBody C ph gf s = .brk t →
      Inv t.w t.step := by
    intro s t hi hb
    simp only [loopBody] at hb
    split at hb
    · simp at hb
    · split at hb
      · simp at hb
      · simp at hb
      · rename_i w hw
        have := h _ _ _ _ _ _ hi hw
        split_ifs at hb
        · rcases hb with hb | hb
          · cases hb
          · injection hb with hb
            rw [← hb, (hsav _).1, (hsav _).2, (hend _).1, (hend _).2]
            exact this
        · rcases hb with hb | hb
          · injection hb with hb
            rw [← hb, (hend _).1, (hend _).2]
            exact this
          · cases hb
  intro fuel
  induction fuel with
  | zero =>
    intro s r hi hl
    unfold loop at hl
    split_ifs at hl
    injection hl with hl
    rw [← hl, (hfin _).1, (hfin _).2]
    exact hi
  | succ fuel ih =>
    intro s r hi hl
    unfold loop at hl
    split_ifs at hl
    · cases hn : loopBody C ph gf s with
      | cont t => rw [hn] at hl; exact ih t r (hbody s t hi (.inl hn)) hl
      | brk t =>
        rw [hn] at hl
        injection hl with hl
        rw [← hl, (hfin _).1, (hfin _).2]
        exact hbody s t hi (.inr hn)
      | fail t => rw [hn] at hl; cases hl
      | ub => rw [hn] at hl; cases hl
    · injection hl with hl
      rw [← hl, (hfin _).1, (hfin _).2]
      exact hi

end loop

/-! ### whole runs -/

section run
variable {R : Setup (d + 2)} {s t : LoopState (d + 2) (World (d + 2))} {i e : Bool} {fuel : ℕ}

lemma run_form (ha : accepted i R.m.elastic R.m.plastic e = true) (F : ℕ) (s : LoopState (d + 2) (World (d + 2))) :
    runProgram R i e F s = after (s.out ++ firstFiles R.C (fillMuI R.m R.S.P.useMibf s.w))
      (loop R.C (physics R) s.gravity F ⟨fillMuI R.m R.S.P.useMibf s.w, 0, 0, s.step, s.gravity, []⟩) := by
  rw [← loop_after]
  unfold runProgram Verif.simulate
  rw [if_pos ha, if_pos ha]
  simp only [firstFiles]
  split_ifs <;> simp

lemma fillMuI_grid (m : Material) (b : Bool) (w : World (d + 2)) : (fillMuI m b w).g = w.g := by
  unfold fillMuI; split_ifs <;> rfl

/-- The grid of a periodic simulation after at least one step is the grid of the domain. -/
lemma restart_grid {N : ℕ} (hpbc : R.S.pbc = true) {s0 : LoopState (d + 2) (World (d + 2))} (h0 : s0.step = 0)
    (h : runProgram (withFrames N R) i e fuel s0 = .finished t) (ht : 0 < t.step) :
    remeshPeriodic R.S.P.dx R.S.L 4 = some t.w.g := by
  have ha := accepted_of_finished h
  unfold runProgram at h
  rw [if_pos ha, simulate_eq ha] at h
  have key := loop_finished (C := (withFrames N R).C) (ph := physics (withFrames N R))
    (Inv := fun w n => 0 < n → remeshPeriodic R.S.P.dx R.S.L 4 = some w.g)
    (fun w dt g t n w' hi hs _ => by
      have hg := physStep_grid (R := withFrames N R) hpbc hs
      split_ifs at hg with hn
      · exact hg
      · rw [hg]; exact hi (by omega)) fuel _ t (by
        intro hlt
        exfalso
        have : (startState (withFrames N R).C { s0 with w := fillMuI (withFrames N R).m (withFrames N R).S.P.useMibf s0.w }).step =
            s0.step := by
          unfold startState; split_ifs <;> rfl
        omega) h
  exact key ht

lemma physStep_box {w w' : World (d + 2)} {dt time : ℝ} {grav : Fin (d + 2) → ℝ} {n : ℕ} {ex : Bool}
    (hpbc : R.S.pbc = true) (h : physStep R w dt grav time n = some (w', ex)) : w'.box = w.box := by
  obtain ⟨fr', ha⟩ := physStep_advance h
  simp only [advanceStep, hpbc, if_true, Option.bind_eq_bind, Option.bind_eq_some_iff] at ha
  obtain ⟨bg, hbg, qs, hqs, hσ⟩ := ha
  injection hσ with hσ
  injection hσ with _ hbox _ _
  simp only [chooseGrid, hpbc, if_true] at hbg
  rw [← hbox]
  split_ifs at hbg
  · obtain ⟨g, hg, rfl⟩ := Option.map_eq_some_iff.mp hbg
    rfl
  · rw [← Option.some.inj hbg]

/-- The box of the grid is not touched by a periodic simulation. -/
lemma restart_box {N : ℕ} (hpbc : R.S.pbc = true) {s0 : LoopState (d + 2) (World (d + 2))}
    (h : runProgram (withFrames N R) i e fuel s0 = .finished t) : t.w.box = s0.w.box := by
  have ha := accepted_of_finished h
  unfold runProgram at h
  rw [if_pos ha, simulate_eq ha] at h
  refine loop_finished (C := (withFrames N R).C) (ph := physics (withFrames N R)) (Inv := fun w n => w.box = s0.w.box)
    (fun w dt g t n w' hi hs => by
      rw [physStep_box (R := withFrames N R) hpbc hs, hi]) fuel _ t ?_ h
  unfold startState fillMuI
  split_ifs <;> rfl

/-- A simulation of at least one frame makes at least one step. -/
lemma restart_steps {N : ℕ} (hN : 0 < N) {s0 : LoopState (d + 2) (World (d + 2))}
    (h : runProgram (withFrames N R) i e fuel s0 = .finished t) : 0 < t.step := by
  have ha := accepted_of_finished h
  unfold runProgram at h
  rw [if_pos ha, simulate_eq ha] at h
  generalize hu : startState (withFrames N R).C { s0 with w := fillMuI (withFrames N R).m (withFrames N R).S.P.useMibf s0.w } = u at h
  have hf : u.frame < (withFrames N R).C.endFrame := by
    rw [← hu, start_frame]; exact hN
  have hfin : ∀ s : LoopState (d + 2) (World (d + 2)), (Verif.finish (withFrames N R).C s).step = s.step := by
    intro s; unfold Verif.finish; split_ifs <;> simp
  unfold loop at h
  rw [if_pos hf] at h
  cases fuel with
  | zero => cases h
  | succ fuel =>
    simp only at h
    cases hn : loopBody (withFrames N R).C (physics (withFrames N R)) s0.gravity u with
    | cont v =>
      rw [hn] at h
      exact loop_finished (Inv := fun w n => 0 < n) (fun _ _ _ _ n _ hi _ => Nat.succ_pos n) fuel v t
        (by rw [loopBody_step hn]; omega) h
    | brk v =>
      rw [hn] at h
      injection h with h
      rw [← h, hfin]
      simp only [loopBody] at hn
      split at hn
      · cases hn
      · split at hn
        · cases hn
        · cases hn
        · split_ifs at hn
          injection hn with hn
          rw [← hn]
          unfold saveFrame endOfFrame saveFrame
          split_ifs <;> simp
    | fail v => rw [hn] at h; cases h
    | ub => rw [hn] at h; cases h

lemma restart_same (hR : ∀ k ps, (R.sched k ps).flatten.Perm ps) (hpbc : R.S.pbc = true) (hf : 0 < R.C.endFrame)
    {N fuel0 : ℕ} {i0 e0 : Bool} {s0 : LoopState (d + 2) (World (d + 2))} (h0 : s0.step = 0)
    (h : runProgram (withFrames N R) i0 e0 fuel0 s0 = .finished t) (ht : 0 < t.step)
    (ha : accepted i R.m.elastic R.m.plastic e = true)
    (hw : SameStart R s.w t.w) (hg : s.gravity = t.gravity) (hs : s.step = 0) :
    ∃ r, runProgram R i e (fuel + 1) s = after (s.out ++ firstFiles R.C (fillMuI R.m R.S.P.useMibf s.w)) r ∧
      runProgram R i e (fuel + 1) t = after (t.out ++ firstFiles R.C (fillMuI R.m R.S.P.useMibf t.w)) (recount t.step r) := by
  have hgrid := restart_grid hpbc h0 h ht
  have hw1 := fillMuI_same (m := R.m) (b := R.S.P.useMibf) hw
  refine ⟨_, run_form ha _ s, ?_⟩
  rw [run_form ha _ t]
  congr 1
  rw [hs, hg]
  rw [← fillMuI_grid R.m R.S.P.useMibf] at hgrid
  generalize fillMuI R.m R.S.P.useMibf s.w = w at hw1
  generalize fillMuI R.m R.S.P.useMibf t.w = w' at hw1 hgrid
  generalize t.step = k at ht
  have hv : (physics R).velocities w' = (physics R).velocities w := by
    have : ∀ l : List (Particle (d + 2) ℝ), (l.map fun p => p.v) = (l.map (unhelped (decide (R.S.P.flipRatio < 0)))).map fun p => p.v := by
      intro l; rw [List.map_map]; rfl
    show (w'.ps.map fun p => p.v) = w.ps.map fun p => p.v
    rw [this w'.ps, this w.ps, hw1.ps]
  have hstep : ∀ dt g, (physics R).step w' dt g 0 (0 + k) = (physics R).step w dt g 0 0 := by
    intro dt g
    refine physStep_unhelped hR hw1 ?_ dt g 0
    have hk : ¬ 0 + k = 0 := by omega
    unfold chooseGrid
    simp only [hpbc, if_true, hk, if_false, hgrid, Option.map_some, hw1.box hpbc]
  have hlater : ∀ w dt g t n, 0 < n → (physics R).step w dt g t (n + k) = (physics R).step w dt g t n := by
    intro w dt g t n hn
    refine physStep_unhelped hR ⟨rfl, rfl, fun _ => rfl⟩ ?_ dt g t
    have h1 : ¬ n + k = 0 := by omega
    have h2 : ¬ n = 0 := by omega
    unfold chooseGrid
    simp only [hpbc, if_true, h1, h2, if_false]
  have hb := loopBody_recount (C := R.C) (ph := physics R) (gf := t.gravity) (k := k) (w' := w') ⟨w, 0, 0, 0, t.gravity, []⟩ hv hstep
  simp only [recountState, List.map_nil, Nat.zero_add] at hb
  unfold loop
  simp only [hf, if_true]
  rw [hb]
  cases hn : loopBody R.C (physics R) t.gravity ⟨w, 0, 0, 0, t.gravity, []⟩ with
  | cont u =>
    simp only [nextRecount]
    exact loop_recount hlater fuel u (by rw [loopBody_step hn]; simp)
  | brk u => simp only [nextRecount, finish_recount]; rfl
  | fail u => rfl
  | ub => rfl

/-- **C131** A periodic simulation ends in the state `t`. Continuing it by a second call of `simulate` (on `t`), or starting a new
simulation with its particles and plates (and the gravity reached; the interpolated velocities, and unless `flip_ratio` is negative
the affine matrices, may be anything), is the same: the same run `r`, apart from the numbering of the steps and the files written
before the first step. -/
theorem C131_restart (hR : ∀ k ps, (R.sched k ps).flatten.Perm ps) (hpbc : R.S.pbc = true) (hf : 0 < R.C.endFrame)
    {N fuel0 : ℕ} (hN : 0 < N) {i0 e0 : Bool} {s0 : LoopState (d + 2) (World (d + 2))} (h0 : s0.step = 0) (hbox : s0.w.box = none)
    (h : runProgram (withFrames N R) i0 e0 fuel0 s0 = .finished t)
    (ha : accepted i R.m.elastic R.m.plastic e = true) {ps : List (Particle (d + 2) ℝ)}
    (hps : ps.map (unhelped (decide (R.S.P.flipRatio < 0))) = t.w.ps.map (unhelped (decide (R.S.P.flipRatio < 0)))) :
    ∃ r, runProgram R i e (fuel + 1) ⟨.gridless ps t.w.plates, 0, 0, 0, t.gravity, []⟩ =
        after (firstFiles R.C (fillMuI R.m R.S.P.useMibf (.gridless ps t.w.plates))) r ∧
      runProgram R i e (fuel + 1) t = after (t.out ++ firstFiles R.C (fillMuI R.m R.S.P.useMibf t.w)) (recount t.step r) := by
  obtain ⟨r, h1, h2⟩ := restart_same (s := ⟨.gridless ps t.w.plates, 0, 0, 0, t.gravity, []⟩) (fuel := fuel) hR hpbc hf h0 h
    (restart_steps hN h) ha ⟨hps.symm, rfl, fun _ => (restart_box hpbc h).trans hbox⟩ rfl rfl
  exact ⟨r, h1, h2⟩

end run

end
end Verif.Props

namespace Verif.Props.RunEx
open Verif Matrix

/-- `C131_restart`: the periodic run `seam_run`, continued for another frame. -/
example (musl : Bool) : ∃ t r, runProgram (perSetup musl) true false 10 (start seam ![1, -10]) = .finished t ∧
    runProgram (d := 0) (perSetup musl) true false 10 ⟨.gridless t.w.ps t.w.plates, 0, 0, 0, t.gravity, []⟩ =
      after (firstFiles (perSetup musl).C (.gridless t.w.ps t.w.plates)) r ∧
    runProgram (d := 0) (perSetup musl) true false 10 t = after (t.out ++ firstFiles (perSetup musl).C t.w) (recount t.step r) := by
  obtain ⟨t, h, -⟩ := seam_run musl
  obtain ⟨r, h1, h2⟩ := C131_restart (d := 0) (R := perSetup musl) (N := 1) (i := true) (e := false) (fuel := 9) (ps := t.w.ps)
    (fun _ _ => by simp [perSetup]) rfl (by simp [perSetup, cfg, exConfig]) one_pos (s0 := start seam ![1, -10]) rfl rfl h rfl rfl
  exact ⟨t, r, h, h1, h2⟩

end Verif.Props.RunEx

namespace Verif.Props
open Verif Matrix

/-- A set-up without periodic boundaries. -/
def openParams : StepParams (0 + 2) ℚ := ⟨mkTransferParams .two 1 (-19 / 20) false 3 1, false, false, false, 1, none⟩

/-- One particle at `(x, 0)` after `n` steps; the box of the grid is the one made for the particle at the origin. -/
def movedOn (n : ℕ) (x : ℚ) : SimState (0 + 2) ℚ :=
  ⟨[{ Particle.init with x := ![x, 0] }], (remeshInit 1 none [![(0 : ℚ), 0]]).map (·.1), fun _ => [], n⟩

/-- **C131** fails without periodic boundaries: a particle has moved from the origin by half a cell. The simulation goes on with
nodes at the integers, a new simulation with the same particle has its nodes half-way between them. -/
theorem C131_open_false :
    (chooseGrid openParams (movedOn 1 (1 / 2))).map (·.2 0) = some [-2, -1, 0, 1, 2] ∧
      (chooseGrid openParams (movedOn 0 (1 / 2))).map (·.2 0) = some [-3 / 2, -1 / 2, 1 / 2, 3 / 2, 5 / 2] := by
  constructor
  · decide +kernel
  · decide +kernel

end Verif.Props

namespace Verif.Props
open Verif Matrix
noncomputable section

section whole
variable {d : ℕ} {R : Setup (d + 2)} {s t : LoopState (d + 2) (World (d + 2))} {i e : Bool} {fuel : ℕ}

lemma filesOf_after {W : Type*} (a : List (Event W)) {r : Result d W} (h : r ≠ .ub) : filesOf (after a r) = a ++ filesOf r := by
  cases r <;> first | rfl | exact absurd rfl h

lemma filesOf_recount {W : Type*} (k : ℕ) (r : Result d W) : filesOf (recount k r) = (filesOf r).map (recountFile k) := by
  cases r <;> rfl

lemma particles_recount {W : Type*} {k n : ℕ} {τ : ℝ} {w : W} {l : List (Event W)} :
    .particles n τ w ∈ l.map (recountFile k) ↔ .particles n τ w ∈ l := by
  rw [List.mem_map]
  constructor
  · rintro ⟨ev, h1, h2⟩
    cases ev <;> simp only [recountFile, reduceCtorEq] at h2
    rw [← h2]; exact h1
  · exact fun h => ⟨_, h, rfl⟩

lemma grid_recount {W : Type*} {k n : ℕ} {τ : ℝ} {w : W} {l : List (Event W)} :
    .grid n τ w ∈ l.map (recountFile k) ↔ .grid n τ w ∈ l := by
  rw [List.mem_map]
  constructor
  · rintro ⟨ev, h1, h2⟩
    cases ev <;> simp only [recountFile, reduceCtorEq] at h2
    rw [← h2]; exact h1
  · exact fun h => ⟨_, h, rfl⟩

/-- **C131** A periodic simulation of `N + M` frames can be made in two parts: after `N` frames a new simulation of `M` frames is
started with the particles, plates and gravity of the end of the first part. The files of its frames `1, 2, ...` are the files of the
frames `N + 1, N + 2, ...` of the undivided simulation, up to the number of the frame and the time. Conditions as in `C113_continue`. -/
theorem C131_parts (hR : ∀ k ps, (R.sched k ps).flatten.Perm ps) (hpbc : R.S.pbc = true) (hm : 0 < R.C.minDt)
    (hfd : R.C.minDt * (11 / 10) ≤ 1 / R.C.fps) {N M fuel0 : ℕ} (hN : 0 < N) (hM : 1 ≤ M) (hg : R.C.gravitySpecial = false)
    (hmibf : R.S.P.useMibf = false) (hops : SteadyOps R.ops) (hpl : ∀ p ∈ s.w.plates, p.vminFactor = 1) (hout : s.out = [])
    (h0 : s.step = 0) (hbox : s.w.box = none) (h : runProgram (withFrames N R) i e fuel0 s = .finished t)
    (ht : t.time = N / R.C.fps) {ps : List (Particle (d + 2) ℝ)}
    (hps : ps.map (unhelped (decide (R.S.P.flipRatio < 0))) = t.w.ps.map (unhelped (decide (R.S.P.flipRatio < 0)))) :
    ∃ k ≤ fuel0, ∀ n, 1 ≤ n → ∀ τ w,
      (.particles (n + N) (τ + N / R.C.fps) w ∈ filesOf (runProgram (withFrames (N + M) R) i e (k + (fuel + 1)) s) ↔
        .particles n τ w ∈ filesOf (runProgram (withFrames M R) i e (fuel + 1) ⟨.gridless ps t.w.plates, 0, 0, 0, t.gravity, []⟩)) ∧
      (.grid (n + N) (τ + N / R.C.fps) w ∈ filesOf (runProgram (withFrames (N + M) R) i e (k + (fuel + 1)) s) ↔
        .grid n τ w ∈ filesOf (runProgram (withFrames M R) i e (fuel + 1) ⟨.gridless ps t.w.plates, 0, 0, 0, t.gravity, []⟩)) := by
  obtain ⟨k, hk, hend, hfiles⟩ := C113_continue hm hfd hM hg hmibf hops hpl hout h ht (fuel + 1)
  obtain ⟨r, h1, h2⟩ := C131_restart (R := withFrames M R) (N := N) (fuel := fuel) (i := i) (e := e) hR hpbc hM hN h0 hbox h
    (accepted_of_finished (R := withFrames N R) h) hps
  by_cases hr : r = .ub
  · subst hr
    have h2' : runProgram (withFrames M R) i e (fuel + 1) t = .ub := h2
    have h1' : runProgram (withFrames M R) i e (fuel + 1) ⟨.gridless ps t.w.plates, 0, 0, 0, t.gravity, []⟩ = .ub := h1
    rw [h2'] at hend
    refine ⟨k, hk, fun n _ τ w => ?_⟩
    rw [h1']
    cases hq : runProgram (withFrames (N + M) R) i e (k + (fuel + 1)) s <;> rw [hq] at hend <;>
      first | exact hend.elim | simp [filesOf]
  have hr2 : recount t.step r ≠ .ub := by
    cases r <;> first | exact absurd rfl hr | (intro hc; cases hc)
  have hne : runProgram (withFrames M R) i e (fuel + 1) t ≠ .ub := by
    rw [h2]
    generalize recount t.step r = q at hr2
    cases q <;> first | exact absurd rfl hr2 | (intro hc; cases hc)
  obtain ⟨new, hnew, hn⟩ := hfiles hne
  rw [h2, filesOf_after _ hr2, List.append_assoc, List.append_cancel_left_eq, filesOf_recount] at hnew
  refine ⟨k, hk, fun n h1n τ w => ?_⟩
  have hfirst : ∀ (v : World (d + 2)) (l : List (Event (World (d + 2)))),
      (.particles n τ w ∈ firstFiles (withFrames M R).C v ++ l ↔ .particles n τ w ∈ l) ∧
      (.grid n τ w ∈ firstFiles (withFrames M R).C v ++ l ↔ .grid n τ w ∈ l) := by
    intro v l
    unfold firstFiles
    split_ifs
    · constructor
      · simp only [List.cons_append, List.nil_append, List.mem_cons, reduceCtorEq, false_or, Event.particles.injEq]
        constructor
        · rintro (⟨rfl, -⟩ | hh)
          · omega
          · exact hh
        · exact .inr
      · simp
    · simp
  obtain ⟨a1, a2⟩ := hn n h1n τ w
  rw [a1, a2, h1, filesOf_after _ hr, ← hnew, (hfirst _ _).1, (hfirst _ _).2, (hfirst _ _).1, (hfirst _ _).2, particles_recount,
    grid_recount]
  exact ⟨Iff.rfl, Iff.rfl⟩

end whole

end
end Verif.Props

namespace Verif.Props.RunEx
open Verif Matrix

/-- `C131_parts`: the periodic run `seam_run`, then a new simulation of one more frame. -/
example (musl : Bool) : ∃ t, runProgram (perSetup musl) true false 10 (start seam ![1, -10]) = .finished t ∧
    ∃ k ≤ 10, ∀ n, 1 ≤ n → ∀ τ w,
      (.particles (n + 1) (τ + 1) w ∈ filesOf (runProgram (d := 0) (withFrames 2 (perSetup musl)) true false (k + 10) (start seam ![1, -10])) ↔
        .particles n τ w ∈ filesOf (runProgram (d := 0) (perSetup musl) true false 10 ⟨.gridless t.w.ps t.w.plates, 0, 0, 0, t.gravity, []⟩)) := by
  obtain ⟨t, h, -⟩ := seam_run musl
  have ht : t.time = (1 : ℕ) / (perSetup musl).C.fps := by
    have hmem := C19_memory (R := perSetup musl) rfl h
    have hfr : t.frame = 1 := (C19_files (C := (perSetup musl).C) (by norm_num [perSetup, cfg, exConfig])
      (by norm_num [perSetup, cfg, exConfig]) rfl le_rfl 10 _ t
      (by simpa [runProgram, accepted, perSetup, Ex.mat] using h)).1
    rcases run_particles hmem (by simp [start]) with ⟨h0, -⟩ | ⟨s1, dt, g, ⟨k, hr, -, hu, -⟩, h⟩
    · omega
    have hk := only_begin_of (R := perSetup musl) rfl (by simp [seam]) seam_rest _ k s1 hr
    subst hk
    cases hr
    rw [h, begin_time]
    have hd : dt = chooseDt (perSetup musl).C 0 0 0 := by
      have hv : ((physics (perSetup musl)).velocities (begin (perSetup musl) (start seam ![1, -10])).w) = [0, 0] := by
        rw [seam_begin]
        simp [physics, start, seam, Particle.init]
      rw [hv, begin_time] at hu
      have hsp : maxSpeed [(0 : Fin 2 → ℝ), 0] = some 0 := by simp [maxSpeed, maxElement]
      simp only [updateDt, hsp, Option.map_some, Option.some.injEq, Prod.mk.injEq] at hu
      rw [← hu.1]
      have : (begin (perSetup musl) (start seam ![1, -10])).frame = 0 := start_frame _
      rw [this]
    rw [hd]
    rw [show chooseDt (perSetup musl).C 0 0 0 = chooseDt (exConfig (1 / 10) 1) 0 0 0 from rfl, ex_dt (by norm_num) le_rfl]
    norm_num [perSetup, cfg, exConfig]
  obtain ⟨k, hk, hf⟩ := C131_parts (R := perSetup musl) (N := 1) (M := 1) (fuel := 9) (ps := t.w.ps) (fun _ _ => by simp [perSetup]) rfl
    (by norm_num [perSetup, cfg, exConfig]) (by norm_num [perSetup, cfg, exConfig]) one_pos le_rfl rfl rfl steady2 (by simp [start]) rfl
    rfl rfl h ht rfl
  refine ⟨t, h, k, hk, fun n hn τ w => ?_⟩
  have := (hf n hn τ w).1
  rwa [show ((1 : ℕ) : ℝ) / (perSetup musl).C.fps = 1 by norm_num [perSetup, cfg, exConfig]] at this

end Verif.Props.RunEx
