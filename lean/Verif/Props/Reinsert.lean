import Verif.Props.Strength

set_option linter.unusedSectionVars false
set_option linter.unusedSimpArgs false
set_option linter.unusedVariables false

/-!
# C94: re-insertion of particles (`change_particle_positions`)
-/

namespace Verif.Props
open Verif Matrix
noncomputable section

/-- A particle beyond `x = 0.8` is put back to `x = -0.1`, and lifted by `0.27`. -/
def putBack {d : ℕ} (x : Fin (d + 2) → ℝ) : Fin (d + 2) → ℝ := fun a =>
  if 0.8 < x 0 then (if a = 0 then -0.1 else if a = 1 then x 1 + 0.27 else x a) else x a

lemma reinsert_eq {d : ℕ} (x : Fin (d + 2) → ℝ) : reinsert x = putBack x := by
  funext a
  have e1 : (8 / 10 : ℝ) = 0.8 := by norm_num
  have e2 : (-(1 / 10) : ℝ) = -0.1 := by norm_num
  have e3 : (27 / 100 : ℝ) = 0.27 := by norm_num
  unfold reinsert putBack
  rw [e1, e2, e3]
  by_cases h : 0.8 < x 0
  · rw [if_pos h, if_pos h]
    by_cases ha1 : a = 1
    · subst ha1
      rw [Function.update_self, if_neg (by simp), if_pos rfl]
    · rw [Function.update_of_ne ha1, if_neg ha1]
      by_cases ha0 : a = 0
      · subst ha0; rw [Function.update_self, if_pos rfl]
      · rw [Function.update_of_ne ha0, if_neg ha0]
  · rw [if_neg h, if_neg h]

lemma putBack_le {d : ℕ} (x : Fin (d + 2) → ℝ) : putBack x 0 ≤ 0.8 := by
  by_cases h : 0.8 < x 0
  · rw [putBack, if_pos h, if_pos rfl]; norm_num
  · rw [putBack, if_neg h]; exact not_lt.mp h

lemma putBack_id {d : ℕ} {x : Fin (d + 2) → ℝ} (h : x 0 ≤ 0.8) : putBack x = x := by
  funext a; rw [putBack, if_neg (not_lt.mpr h)]

/-! ### one step -/

section step
variable {d : ℕ}

/-- The set-up with the option `change_particle_positions` set to `b`. -/
def withPutBack (b : Bool) (R : Setup (d + 2)) : Setup (d + 2) := { R with S := { R.S with changePos := b } }

lemma withPutBack_self (R : Setup (d + 2)) : withPutBack R.S.changePos R = R := rfl

/-- All particles put back. -/
def putBackAll (w : World (d + 2)) : World (d + 2) := { w with ps := w.ps.map fun p => { p with x := putBack p.x } }

/-- **C94** A step with `change_particle_positions` is the step without it, after which the particles beyond `x = 0.8`
are moved; nothing else changes. -/
theorem C94_step (R : Setup (d + 2)) (w : World (d + 2)) (dt : ℝ) (g : Fin (d + 2) → ℝ) (t : ℝ) (n : ℕ) :
    physStep (withPutBack true R) w dt g t n =
      (physStep (withPutBack false R) w dt g t n).map fun r => (putBackAll r.1, r.2) := by
  have hpos : ∀ q : Particle (d + 2) ℝ, positionParticle R.S.P R.S.useMusl R.S.pbc true (R.S.L 0) dt q =
      (fun p : Particle (d + 2) ℝ => { p with x := putBack p.x })
        (positionParticle R.S.P R.S.useMusl R.S.pbc false (R.S.L 0) dt q) := by
    intro q
    simp only [positionParticle, if_true, Bool.false_eq_true, if_false, reinsert_eq]
  have hmap : ∀ l : List (Particle (d + 2) ℝ × Bool),
      l.map (fun q => positionParticle R.S.P R.S.useMusl R.S.pbc true (R.S.L 0) dt q.1) =
      (l.map fun q => positionParticle R.S.P R.S.useMusl R.S.pbc false (R.S.L 0) dt q.1).map
        fun p : Particle (d + 2) ℝ => { p with x := putBack p.x } := by
    intro l
    rw [List.map_map]
    exact List.map_congr_left fun q _ => hpos q.1
  have hall : ∀ b : Bool, physStep (withPutBack b R) w dt g t n =
      (do
        let bg ← chooseGrid R.S ⟨w.ps, w.box, w.g, n⟩
        let ghs := if R.S.pbc then ghosts R.S.P.dx (R.S.L 0) 4 w.ps else []
        if R.S.P.useMibf ∧ ghs ≠ [] then none
        let arr ← P2G R.S.P bg.2 (R.sched n (w.ps ++ ghs))
        let bc := boundaryCollision R.ops R.S.P.useMibf (fun l => (arr l).friction) dt R.objs w.plates
        let e := eulerUpdate R.S.P dt g bc bg.2 arr
        let qs ← g2pFull R dt bg.2 e w.ps
        let qv ← if R.S.useMusl then do
            let r ← MUSL R.S.P bg.2 (fun l => (arr l).mass) [qs.map (·.1)]
            (deformFull R dt bg.2 r.2 r.1.flatten).map fun qs => (qs, r.2)
          else some (qs, e.v)
        some
          ({ ps := qv.1.map fun q => positionParticle R.S.P R.S.useMusl R.S.pbc b (R.S.L 0) dt q.1
             box := bg.1
             g := bg.2
             plates := w.plates.map fun p => R.ops.move p dt R.C.frameDt t
             mass := fun l => (arr l).mass
             vel := qv.2
             friction := fun l => (arr l).friction },
           qv.1.any (·.2))) := fun b => rfl
  rw [hall, hall]
  simp only [Option.bind_eq_bind, Option.map_bind]
  congr 1
  funext bg
  by_cases hm : R.S.P.useMibf = true ∧ (if R.S.pbc = true then ghosts R.S.P.dx (R.S.L 0) 4 w.ps else []) ≠ []
  · simp only [if_pos hm]; rfl
  simp only [if_neg hm, Option.bind_some, Function.comp_def, Option.map_bind]
  congr 1
  funext arr
  congr 1
  funext qs
  by_cases hu : R.S.useMusl = true
  · simp only [if_pos hu, Option.map_bind, Function.comp_def, hmap, Option.map_some, putBackAll]
  · simp only [if_neg hu, hmap, Option.map_some, putBackAll]

end step

/-! ### runs -/

section loop
variable {d : ℕ} {W : Type*} {C : TimeConfig d} {ph ph' : Physics d W} {gf : Fin d → ℝ} {s0 : LoopState d W}

/-- Two loops that agree in all steps made are the same. -/
lemma loop_congr (hv : ∀ w, ph'.velocities w = ph.velocities w)
    (h : ∀ k s, Reach C ph gf s0 k s → s.frame < C.endFrame → ∀ dt g,
      updateDt C gf s.frame s.time (ph.velocities s.w) s.gravity = some (dt, g) →
      ph'.step s.w dt g s.time s.step = ph.step s.w dt g s.time s.step) :
    ∀ (fuel k : ℕ) (s : LoopState d W), Reach C ph gf s0 k s → loop C ph' gf fuel s = loop C ph gf fuel s := by
  intro fuel
  induction fuel with
  | zero => intro k s _; unfold loop; rfl
  | succ fuel ih =>
    intro k s hr
    unfold loop
    split_ifs with hf
    · have hb : loopBody C ph' gf s = loopBody C ph gf s := by
        unfold loopBody
        rw [hv]
        cases hu : updateDt C gf s.frame s.time (ph.velocities s.w) s.gravity with
        | none => rfl
        | some r => simp only [h k s hr hf r.1 r.2 hu]
      rw [hb]
      cases hc : loopBody C ph gf s with
      | cont s' => exact ih (k + 1) s' (.next hr hf hc)
      | brk s' => rfl
      | fail s' => rfl
      | ub => rfl
    · rfl

end loop

section run
variable {d : ℕ} {R : Setup (d + 2)} {i e : Bool} {fuel : ℕ} {s : LoopState (d + 2) (World (d + 2))}

/-- In every step made by a run of `R` on `s`, no particle ends beyond `x = 0.8`. -/
def StaysBefore (R : Setup (d + 2)) (s : LoopState (d + 2) (World (d + 2))) : Prop :=
  ∀ k s1, Reach R.C (physics R) s.gravity (begin R s) k s1 → ∀ dt g w ex,
    updateDt R.C s.gravity s1.frame s1.time (s1.w.ps.map fun p => p.v) s1.gravity = some (dt, g) →
    physStep R s1.w dt g s1.time s1.step = some (w, ex) → ∀ p ∈ w.ps, p.x 0 ≤ 0.8

/-- **C94** If no particle gets beyond `x = 0.8`, the option has no effect. -/
theorem C94_unused (h : StaysBefore (withPutBack false R) s) :
    runProgram (withPutBack true R) i e fuel s = runProgram (withPutBack false R) i e fuel s := by
  by_cases ha : accepted i R.m.elastic R.m.plastic e = true
  · have ha1 : accepted i (withPutBack true R).m.elastic (withPutBack true R).m.plastic e = true := ha
    have ha2 : accepted i (withPutBack false R).m.elastic (withPutBack false R).m.plastic e = true := ha
    simp only [runProgram, ha1, ha2, if_true]
    rw [simulate_eq ha1, simulate_eq ha2]
    refine loop_congr (C := R.C) (ph := physics (withPutBack false R)) (ph' := physics (withPutBack true R))
      (fun w => rfl) (fun k s1 hr hf dt g hu => ?_) fuel 0 _ .start
    show physStep (withPutBack true R) s1.w dt g s1.time s1.step = physStep (withPutBack false R) s1.w dt g s1.time s1.step
    rw [C94_step]
    cases hst : physStep (withPutBack false R) s1.w dt g s1.time s1.step with
    | none => rfl
    | some r =>
      have := h k s1 hr dt g r.1 r.2 hu hst
      rw [Option.map_some]
      congr 2
      simp only [putBackAll]
      congr 1
      conv_rhs => rw [← List.map_id r.1.ps]
      refine List.map_congr_left fun p hp => ?_
      rw [putBack_id (this p hp)]; rfl
  · have ha1 : ¬ accepted i (withPutBack true R).m.elastic (withPutBack true R).m.plastic e = true := ha
    have ha2 : ¬ accepted i (withPutBack false R).m.elastic (withPutBack false R).m.plastic e = true := ha
    simp only [runProgram, if_neg ha1, if_neg ha2]

end run

section sim
variable {d : ℕ} {s : Sim (d + 2)} {b : Build (d + 2)} {fuel : ℕ}

/-- **C94** With `change_particle_positions`, no particle of any particle file but the initial one is beyond
`x = 0.8`. -/
theorem C94_file (hc : s.changeParticlePositions = true) {n : ℕ} {t : ℝ} {w : World (d + 2)}
    (hev : .particles n t w ∈ filesOf (s.simulate b fuel)) (hn : n ≠ 0) : ∀ p ∈ w.ps, p.x 0 ≤ 0.8 := by
  obtain ⟨dx, m, vol, -, -, -, hev⟩ := sim_files hev
  rcases run_particles hev (by simp [Sim.fresh]) with ⟨h, -⟩ | ⟨s1, dt, g, hst, -⟩
  · exact absurd h hn
  have h := hst.phys
  have e : withPutBack true (s.setup b (Nat.succ_pos _) dx m vol) = s.setup b (Nat.succ_pos _) dx m vol := by
    simp [withPutBack, Sim.setup, hc]
  rw [← e, C94_step] at h
  obtain ⟨r, -, hr⟩ := Option.map_eq_some_iff.mp h
  obtain ⟨rfl, -⟩ := Prod.mk.inj hr
  intro p hp
  obtain ⟨q, -, rfl⟩ := List.mem_map.mp hp
  exact putBack_le q.x

end sim
end
end Verif.Props
