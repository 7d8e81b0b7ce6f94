import Verif.Model.Run
import Mathlib.Algebra.Module.LinearMap.Defs

set_option linter.unusedSimpArgs false

/-!
# Runs of related programs

If a map between the worlds of two programs commutes with every step, it commutes with whole runs.
-/

namespace Verif
variable {d : ℕ} {W W' : Type*}

/-- The same file with another content. -/
def Event.map (f : W → W') : Event W → Event W'
  | .info => .info
  | .particles n t w => .particles n t (f w)
  | .grid n t w => .grid n t (f w)
  | .timing k => .timing k

/-- The loop state with worlds mapped by `f` and gravity by `γ`. -/
def LoopState.map (f : W → W') (γ : (Fin d → ℝ) → (Fin d → ℝ)) (s : LoopState d W) : LoopState d W' :=
  ⟨f s.w, s.time, s.frame, s.step, γ s.gravity, s.out.map (Event.map f)⟩

/-- The same end of a run, with worlds mapped by `f` and gravity by `γ`. -/
def Result.map (f : W → W') (γ : (Fin d → ℝ) → (Fin d → ℝ)) : Result d W → Result d W'
  | .refused s => .refused (s.map f γ)
  | .finished s => .finished (s.map f γ)
  | .failed s => .failed (s.map f γ)
  | .ub => .ub
  | .outOfFuel s => .outOfFuel (s.map f γ)

/-- The same for one iteration. -/
def Next.map (f : W → W') (γ : (Fin d → ℝ) → (Fin d → ℝ)) : Next d W → Next d W'
  | .cont s => .cont (s.map f γ)
  | .brk s => .brk (s.map f γ)
  | .fail s => .fail (s.map f γ)
  | .ub => .ub

lemma saveFrame_map (C : TimeConfig d) (f : W → W') (γ) (s : LoopState d W) :
    saveFrame C (s.map f γ) = (saveFrame C s).map f γ := by
  unfold saveFrame
  split_ifs <;> simp [LoopState.map, Event.map]

lemma endOfFrame_map (C : TimeConfig d) (f : W → W') (γ) (s : LoopState d W) :
    endOfFrame C (s.map f γ) = (endOfFrame C s).map f γ := by
  unfold endOfFrame
  have h1 : (s.map f γ).frame = s.frame := rfl
  have h2 : (s.map f γ).time = s.time := rfl
  rw [h1, h2]
  split_ifs
  · exact saveFrame_map C f γ { s with frame := s.frame + 1 }
  · rfl

lemma finish_map (C : TimeConfig d) (f : W → W') (γ) (s : LoopState d W) :
    finish C (s.map f γ) = (finish C s).map f γ := by
  unfold finish
  split_ifs <;> simp [LoopState.map, Event.map]

lemma rampGravity_map (C : TimeConfig d) (γ : (Fin d → ℝ) →ₗ[ℝ] (Fin d → ℝ)) (gf g : Fin d → ℝ) (t : ℝ) :
    rampGravity C (γ gf) (γ g) t = γ (rampGravity C gf g t) := by
  unfold rampGravity
  split_ifs <;> simp

lemma updateDt_map {C : TimeConfig d} {γ : (Fin d → ℝ) →ₗ[ℝ] (Fin d → ℝ)} {gf g : Fin d → ℝ} {n : ℕ} {t : ℝ}
    {vs vs' : List (Fin d → ℝ)} (h : maxSpeed vs' = maxSpeed vs) :
    updateDt C (γ gf) n t vs' (γ g) = (updateDt C gf n t vs g).map (Prod.map id γ) := by
  unfold updateDt
  rw [h, Option.map_map]
  congr 1
  funext s
  simp [rampGravity_map]

section
variable {C : TimeConfig d} {ph : Physics d W} {ph' : Physics d W'} {f : W → W'}
  {γ : (Fin d → ℝ) →ₗ[ℝ] (Fin d → ℝ)} {Inv : W → Prop}
  (hspeed : ∀ w, Inv w → maxSpeed (ph'.velocities (f w)) = maxSpeed (ph.velocities w))
  (hstep : ∀ w dt g t n, Inv w → ph'.step (f w) dt (γ g) t n = (ph.step w dt g t n).map (Prod.map f id))
  (hinv : ∀ w dt g t n w', Inv w → ph.step w dt g t n = some (w', false) → Inv w')

include hspeed hstep in
lemma loopBody_map (gf : Fin d → ℝ) (s : LoopState d W) (hs : Inv s.w) :
    loopBody C ph' (γ gf) (s.map f γ) = (loopBody C ph gf s).map f γ := by
  unfold loopBody
  have h1 : (s.map f γ).frame = s.frame := rfl
  have h2 : (s.map f γ).time = s.time := rfl
  have h3 : (s.map f γ).step = s.step := rfl
  have h4 : (s.map f γ).w = f s.w := rfl
  have h5 : (s.map f γ).gravity = γ s.gravity := rfl
  rw [h1, h2, h3, h4, h5, updateDt_map (hspeed s.w hs)]
  cases updateDt C gf s.frame s.time (ph.velocities s.w) s.gravity with
  | none => rfl
  | some r =>
    obtain ⟨dt, g⟩ := r
    simp only [Option.map_some, Prod.map_apply, id_eq]
    rw [hstep _ _ _ _ _ hs]
    cases ph.step s.w dt g s.time s.step with
    | none => rfl
    | some r =>
      obtain ⟨w, b⟩ := r
      simp only [Option.map_some, Prod.map_apply, id_eq]
      cases b with
      | true => rfl
      | false =>
        have key : ∀ s2 : LoopState d W,
            (if |C.finalTime - (s2.map f γ).time| < C.minDt * (11 / 10) ∨ C.finalTime < (s2.map f γ).time then
              Next.brk (saveFrame C (s2.map f γ)) else .cont (s2.map f γ)) =
            Next.map f γ (if |C.finalTime - s2.time| < C.minDt * (11 / 10) ∨ C.finalTime < s2.time then
              .brk (saveFrame C s2) else .cont s2) := by
          intro s2
          by_cases hc : |C.finalTime - s2.time| < C.minDt * (11 / 10) ∨ C.finalTime < s2.time
          · exact (if_pos hc).trans (by rw [if_pos hc, saveFrame_map]; rfl)
          · exact (if_neg hc).trans (by rw [if_neg hc]; rfl)
        have := key (endOfFrame C { s with w := w, gravity := g, time := s.time + dt, step := s.step + 1 })
        rw [← endOfFrame_map] at this
        exact this

include hinv in
lemma loopBody_inv {gf : Fin d → ℝ} {s s' : LoopState d W} (hs : Inv s.w)
    (h : loopBody C ph gf s = .cont s') : Inv s'.w := by
  unfold loopBody at h
  cases h1 : updateDt C gf s.frame s.time (ph.velocities s.w) s.gravity with
  | none => rw [h1] at h; cases h
  | some r =>
    obtain ⟨dt, g⟩ := r
    rw [h1] at h
    simp only at h
    cases h2 : ph.step s.w dt g s.time s.step with
    | none => rw [h2] at h; cases h
    | some r =>
      obtain ⟨w, b⟩ := r
      rw [h2] at h
      cases b with
      | true => cases h
      | false =>
        simp only at h
        split_ifs at h
        have : s'.w = w := by
          injection h with h
          rw [← h]
          unfold endOfFrame saveFrame
          split_ifs <;> rfl
        rw [this]
        exact hinv _ _ _ _ _ _ hs h2

include hspeed hstep hinv in
lemma loop_map (gf : Fin d → ℝ) : ∀ (fuel : ℕ) (s : LoopState d W), Inv s.w →
    loop C ph' (γ gf) fuel (s.map f γ) = (loop C ph gf fuel s).map f γ := by
  intro fuel
  induction fuel with
  | zero =>
    intro s _
    unfold loop
    have h1 : (s.map f γ).frame = s.frame := rfl
    rw [h1, finish_map]
    split_ifs <;> rfl
  | succ fuel ih =>
    intro s hs
    unfold loop
    have h1 : (s.map f γ).frame = s.frame := rfl
    rw [h1, finish_map]
    split_ifs
    · rw [loopBody_map hspeed hstep gf s hs]
      cases hb : loopBody C ph gf s with
      | cont s' => exact ih s' (loopBody_inv hinv hs hb)
      | brk s' => simp only [Next.map]; rw [finish_map]; rfl
      | fail s' => rfl
      | ub => rfl
    · rfl

include hspeed hstep hinv in
lemma simulate_map (i : Bool) (em : ElasticModel) (pm : PlasticModel) (e : Bool) (fuel : ℕ) (s : LoopState d W)
    (hs : Inv s.w) :
    simulate C ph' i em pm e fuel (s.map f γ) = (simulate C ph i em pm e fuel s).map f γ := by
  unfold simulate
  by_cases ha : accepted i em pm e = true
  · rw [if_pos ha, if_pos ha]
    have := loop_map (C := C) hspeed hstep hinv s.gravity fuel
      (if C.saveSim then { s with time := 0, frame := 0, out := s.out ++ [.info, .particles 0 0 s.w] }
        else { s with time := 0, frame := 0 }) (by split_ifs <;> exact hs)
    simp only [LoopState.map] at this ⊢
    rw [← this]
    split_ifs <;> simp [Event.map]
  · rw [if_neg ha, if_neg ha]; rfl

end

/-! ### one step of the program without `do` -/

/-- The part of `physStep` after the particle-to-grid transfer. -/
noncomputable def afterP2G (R : Setup (d + 2)) (w : World (d + 2)) (dt : ℝ) (gravity : Fin (d + 2) → ℝ)
    (time : ℝ) (bg : Option (Fin (d + 2) → AxisInit ℝ) × Axes (d + 2) ℝ) (arr : GridArr (d + 2) ℝ) :
    Option (World (d + 2) × Bool) :=
  (g2pFull R dt bg.2 (eulerUpdate R.S.P dt gravity
      (boundaryCollision R.ops R.S.P.useMibf (fun l => (arr l).friction) dt R.objs w.plates) bg.2 arr) w.ps).bind fun qs =>
  (if R.S.useMusl then (MUSL R.S.P bg.2 (fun l => (arr l).mass) [qs.map (·.1)]).bind fun r =>
    (deformFull R dt bg.2 r.2 r.1.flatten).map fun qs => (qs, r.2) else some (qs, (eulerUpdate R.S.P dt gravity
      (boundaryCollision R.ops R.S.P.useMibf (fun l => (arr l).friction) dt R.objs w.plates) bg.2 arr).v)).bind fun qv =>
  some ({ ps := qv.1.map fun q => positionParticle R.S.P R.S.useMusl R.S.pbc R.S.changePos (R.S.L 0) dt q.1
          box := bg.1, g := bg.2, plates := w.plates.map fun p => R.ops.move p dt R.C.frameDt time
          mass := fun l => (arr l).mass, vel := qv.2, friction := fun l => (arr l).friction },
        qv.1.any (·.2))

lemma physStep_eq (R : Setup (d + 2)) (w : World (d + 2)) (dt : ℝ) (gravity : Fin (d + 2) → ℝ) (time : ℝ) (n : ℕ) :
    physStep R w dt gravity time n =
      (chooseGrid R.S ⟨w.ps, w.box, w.g, n⟩).bind fun bg =>
        if R.S.P.useMibf ∧ (if R.S.pbc then ghosts R.S.P.dx (R.S.L 0) 4 w.ps else []) ≠ [] then none
        else (P2G R.S.P bg.2 (R.sched n (w.ps ++ if R.S.pbc then ghosts R.S.P.dx (R.S.L 0) 4 w.ps else []))).bind
          (afterP2G R w dt gravity time bg) := by
  unfold physStep afterP2G
  cases chooseGrid R.S ⟨w.ps, w.box, w.g, n⟩ with
  | none => rfl
  | some bg =>
    simp only [Option.bind_eq_bind, Option.bind_some]
    by_cases hm : R.S.P.useMibf = true ∧ (if R.S.pbc = true then ghosts R.S.P.dx (R.S.L 0) 4 w.ps else []) ≠ []
    · rw [if_pos hm, if_pos hm]; rfl
    · rw [if_neg hm, if_neg hm]
      congr 1
      funext arr
      congr 1
      funext qs
      by_cases hu : R.S.useMusl = true
      · simp only [if_pos hu, Option.bind_assoc]
      · simp only [if_neg hu, Option.bind_some]

end Verif
