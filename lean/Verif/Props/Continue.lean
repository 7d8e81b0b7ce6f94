import Verif.Props.Longer
import Verif.Props.Directory
import Verif.Props.Memory

set_option linter.unusedSectionVars false
set_option linter.unusedSimpArgs false
set_option linter.unusedVariables false

/-!
# C113: calling `simulate` again continues the simulation
-/

namespace Verif.Props
open Verif Matrix

section spec
variable {d : ℕ} {W : Type*}

/-- The file of a frame `N` frames and the time `T` later. -/
def Event.later (N : ℕ) (T : ℝ) : Event W → Event W
  | .info => .info
  | .particles n t w => .particles (n + N) (t + T) w
  | .grid n t w => .grid (n + N) (t + T) w
  | .timing k => .timing k

/-- The same state, `N` frames and the time `T` later. -/
structure LaterState (N : ℕ) (T : ℝ) (s s' : LoopState d W) : Prop where
  w : s'.w = s.w
  time : s'.time = s.time + T
  frame : s'.frame = s.frame + N
  step : s'.step = s.step
  gravity : s'.gravity = s.gravity

/-- The same end of a run, `N` frames and the time `T` later. -/
def LaterEnd (N : ℕ) (T : ℝ) : Result d W → Result d W → Prop
  | .finished s, .finished s' => LaterState N T s s'
  | .failed s, .failed s' => LaterState N T s s'
  | .outOfFuel s, .outOfFuel s' => LaterState N T s s'
  | .refused s, .refused s' => LaterState N T s s'
  | .ub, .ub => True
  | _, _ => False

/-- The motion of a plate without a loading phase (`vmin_factor = 1`) does not depend on the time of day. -/
def SteadyOps (ops : PlateOps d) : Prop := ∀ p : Plate d, p.vminFactor = 1 →
  (∀ dt fd t t', ops.move p dt fd t = ops.move p dt fd t') ∧ ∀ dt fd t, (ops.move p dt fd t).vminFactor = 1

end spec

lemma factor_steady {d : ℕ} {p : Plate d} (h : p.vminFactor = 1) (fd t : ℝ) : p.factor fd t = 1 := by
  unfold Plate.factor; rw [h]; simp

lemma steady2 : SteadyOps plateOps2 := by
  intro p h
  refine ⟨fun dt fd t t' => ?_, fun dt fd t => ?_⟩
  · simp only [plateOps2, Plate.move2, factor_steady h]
  · simp only [plateOps2, Plate.move2]
    cases p.type <;> exact h

lemma steady3 : SteadyOps plateOps3 := by
  intro p h
  refine ⟨fun dt fd t t' => ?_, fun dt fd t => ?_⟩
  · simp only [plateOps3, Plate.move3, factor_steady h]
  · simp only [plateOps3, Plate.move3]
    cases p.type <;> exact h

namespace Resume

section loop
variable {d : ℕ} {W : Type*} {C : TimeConfig d} {ph : Physics d W} {gf gf' : Fin d → ℝ} {N M : ℕ}
  {a b : List (Event W)} {s s' : LoopState d W} {Inv : W → Prop}

/-- The same state, `N` frames later, of runs that wrote `a` and `b` before. -/
structure Same (C : TimeConfig d) (N : ℕ) (a b : List (Event W)) (s s' : LoopState d W) : Prop extends
    LaterState N (C.frameDt * N) s s' where
  out : ∃ l, s.out = a ++ l ∧ s'.out = b ++ l.map (Event.later N (C.frameDt * N))

lemma Same.save {K K' : ℕ} (h : Same C N a b s s') : Same C N a b (saveFrame (framesC C K) s) (saveFrame (framesC C K') s') := by
  obtain ⟨l, h1, h2⟩ := h.out
  by_cases hs : C.saveSim = true
  · have e : ∀ (K : ℕ) (s : LoopState d W), saveFrame (framesC C K) s = { s with out := s.out ++ [.particles s.frame s.time s.w] ++
        if C.saveGrid then [.grid s.frame s.time s.w] else [] } := fun K s => if_pos hs
    rw [e, e]
    refine ⟨⟨h.w, h.time, h.frame, h.step, h.gravity⟩, l ++ [.particles s.frame s.time s.w] ++
      if C.saveGrid then [.grid s.frame s.time s.w] else [], ?_, ?_⟩
    · simp [h1, List.append_assoc]
    · simp only [h2, h.frame, h.time, h.w, List.map_append, List.append_assoc]
      split_ifs <;> rfl
  · have e : ∀ (K : ℕ) (s : LoopState d W), saveFrame (framesC C K) s = s := fun K s => if_neg hs
    rw [e, e]; exact h

lemma Same.finish {K K' : ℕ} (h : Same C N a b s s') : Same C N a b (finish (framesC C K) s) (finish (framesC C K') s') := by
  obtain ⟨l, h1, h2⟩ := h.out
  by_cases hs : C.saveSim = true
  · have e : ∀ (K : ℕ) (s : LoopState d W), Verif.finish (framesC C K) s = { s with out := s.out ++ [.timing s.step] } := fun K s => if_pos hs
    rw [e, e]
    refine ⟨⟨h.w, h.time, h.frame, h.step, h.gravity⟩, l ++ [.timing s.step], ?_, ?_⟩
    · simp [h1]
    · simp [h2, h.step, Event.later]
  · have e : ∀ (K : ℕ) (s : LoopState d W), Verif.finish (framesC C K) s = s := fun K s => if_neg hs
    rw [e, e]; exact h

lemma Same.after (h : Same C N a b s s') (dt : ℝ) (g : Fin d → ℝ) (w : W) :
    Same C N a b (afterStep C s dt g w) (afterStep C s' dt g w) := by
  unfold afterStep endOfFrame
  have key : Same C N a b { s with w := w, gravity := g, time := s.time + dt, step := s.step + 1 }
      { s' with w := w, gravity := g, time := s'.time + dt, step := s'.step + 1 } :=
    ⟨⟨rfl, by simp only [h.time]; ring, h.frame, by simp only [h.step], rfl⟩, h.out⟩
  by_cases hc : C.frameDt * (s.frame + 1) - (s.time + dt) < C.minDt * (11 / 10)
  · have hc' : C.frameDt * (s'.frame + 1) - (s'.time + dt) < C.minDt * (11 / 10) := by
      rw [h.frame, h.time]; push_cast; linarith
    simp only [hc, hc', if_true]
    exact Same.save (C := C) (K := C.endFrame) (K' := C.endFrame) ⟨⟨key.w, key.time, by simp only [h.frame]; omega, key.step, key.gravity⟩, key.out⟩
  · have hc' : ¬ C.frameDt * (s'.frame + 1) - (s'.time + dt) < C.minDt * (11 / 10) := by
      rw [h.frame, h.time]; push_cast; linarith
    simp only [hc, hc', if_false]
    exact key

lemma final_add : TimeConfig.finalTime (framesC C (N + M)) = TimeConfig.finalTime (framesC C M) + C.frameDt * N := by
  simp only [TimeConfig.finalTime, TimeConfig.frameDt]; push_cast; ring

lemma Same.dt (h : Same C N a b s s') (hg : C.gravitySpecial = false) (vs : List (Fin d → ℝ)) :
    updateDt (framesC C (N + M)) gf' s'.frame s'.time vs s'.gravity = updateDt (framesC C M) gf s.frame s.time vs s.gravity := by
  unfold updateDt
  refine congrArg (fun f => Option.map f _) (funext fun v => Prod.ext ?_ ?_)
  · simp only [chooseDt]
    have e1 : TimeConfig.frameDt (framesC C (N + M)) * ((s'.frame : ℝ) + 1) - s'.time =
        TimeConfig.frameDt (framesC C M) * ((s.frame : ℝ) + 1) - s.time := by
      rw [h.frame, h.time]; simp only [TimeConfig.frameDt]; push_cast; ring
    have e2 : TimeConfig.finalTime (framesC C (N + M)) - s'.time = TimeConfig.finalTime (framesC C M) - s.time := by
      rw [final_add, h.time]; ring
    rw [e1, e2]
    rfl
  · simp only [rampGravity, hg, h.gravity]
    rfl

/-- The same end of the loop. -/
def SameEnd (C : TimeConfig d) (N : ℕ) (a b : List (Event W)) : Result d W → Result d W → Prop
  | .finished s, .finished s' => Same C N a b s s'
  | .failed s, .failed s' => Same C N a b s s'
  | .outOfFuel s, .outOfFuel s' => Same C N a b s s'
  | .ub, .ub => True
  | _, _ => False

/-- The two loops run side by side. -/
lemma loop_same (hg : C.gravitySpecial = false)
    (htime : ∀ w dt g t t' n, Inv w → ph.step w dt g t n = ph.step w dt g t' n)
    (hinv : ∀ w dt g t n w', Inv w → ph.step w dt g t n = some (w', false) → Inv w') :
    ∀ (fuel : ℕ) (s s' : LoopState d W), Same C N a b s s' → Inv s.w →
      SameEnd C N a b (loop (framesC C M) ph gf fuel s) (loop (framesC C (N + M)) ph gf' fuel s') := by
  have stop : ∀ (fuel : ℕ) (s s' : LoopState d W), Same C N a b s s' → ¬ s.frame < M →
      SameEnd C N a b (loop (framesC C M) ph gf fuel s) (loop (framesC C (N + M)) ph gf' fuel s') := by
    intro fuel s s' h hf
    have hfr := h.frame
    have hf' : ¬ s'.frame < N + M := by omega
    unfold loop
    rw [if_neg hf, if_neg hf']
    exact h.finish
  intro fuel
  induction fuel with
  | zero =>
    intro s s' h hi
    have hfr := h.frame
    by_cases hf : s.frame < M
    · have hf' : s'.frame < N + M := by omega
      unfold loop
      rw [if_pos hf, if_pos hf']
      exact h
    · exact stop 0 s s' h hf
  | succ fuel ih =>
    intro s s' h hi
    have hfr := h.frame
    by_cases hf : s.frame < M
    swap
    · exact stop _ s s' h hf
    have hf' : s'.frame < N + M := by omega
    unfold loop
    rw [if_pos hf, if_pos hf']
    simp only [loopBody]
    rw [h.dt (gf := gf) (M := M) hg, h.w]
    cases hq : updateDt (framesC C M) gf s.frame s.time (ph.velocities s.w) s.gravity with
    | none => trivial
    | some q =>
      obtain ⟨dt, g⟩ := q
      simp only
      rw [h.step, htime s.w dt g s'.time s.time s.step hi]
      cases hs : ph.step s.w dt g s.time s.step with
      | none => trivial
      | some q =>
        obtain ⟨w, bb⟩ := q
        cases bb with
        | true => exact ⟨⟨rfl, h.time, h.frame, rfl, rfl⟩, h.out⟩
        | false =>
          simp only
          have hE : endOfFrame (framesC C M) { s with w := w, gravity := g, time := s.time + dt, step := s.step + 1 } =
            afterStep C s dt g w := rfl
          have hE' : endOfFrame (framesC C (N + M)) { s' with w := w, gravity := g, time := s'.time + dt, step := s.step + 1 } =
            afterStep C s' dt g w := by rw [← h.step]; rfl
          rw [hE, hE']
          have hA := h.after dt g w
          have hcond : (|TimeConfig.finalTime (framesC C (N + M)) - (afterStep C s' dt g w).time| < C.minDt * (11 / 10) ∨
              TimeConfig.finalTime (framesC C (N + M)) < (afterStep C s' dt g w).time) ↔
              (|TimeConfig.finalTime (framesC C M) - (afterStep C s dt g w).time| < C.minDt * (11 / 10) ∨
              TimeConfig.finalTime (framesC C M) < (afterStep C s dt g w).time) := by
            rw [final_add, hA.time, add_sub_add_right_eq_sub, add_lt_add_iff_right]
          by_cases hc : |TimeConfig.finalTime (framesC C M) - (afterStep C s dt g w).time| < C.minDt * (11 / 10) ∨
              TimeConfig.finalTime (framesC C M) < (afterStep C s dt g w).time
          · rw [if_pos hc, if_pos (hcond.mpr hc)]
            exact hA.save.finish
          · rw [if_neg hc, if_neg fun h => hc (hcond.mp h)]
            refine ih _ _ hA ?_
            have : (afterStep C s dt g w).w = w := by
              unfold afterStep endOfFrame saveFrame; split_ifs <;> rfl
            rw [this]
            exact hinv _ _ _ _ _ _ hi hs

/-- More iterations do not change a run that has ended. -/
lemma loop_enough : ∀ (fuel F : ℕ) (s r : LoopState d W), fuel ≤ F → loop C ph gf fuel s = .finished r → loop C ph gf F s = .finished r := by
  intro fuel
  induction fuel with
  | zero =>
    intro F s r _ h
    unfold loop at h ⊢
    split_ifs at h ⊢ with hf
    exact h
  | succ fuel ih =>
    intro F s r hF h
    obtain ⟨F, rfl⟩ : ∃ k, F = k + 1 := ⟨F - 1, by omega⟩
    unfold loop at h ⊢
    split_ifs at h ⊢ with hf
    · cases hb : loopBody C ph gf s with
      | cont s' => rw [hb] at h; exact ih F s' r (by omega) h
      | brk s' => rw [hb] at h; exact h
      | fail s' => rw [hb] at h; exact h
      | ub => rw [hb] at h; exact h
    · exact h

lemma finish_eq (s : LoopState d W) : (finish C s).w = s.w ∧ (finish C s).time = s.time ∧ (finish C s).frame = s.frame ∧
    (finish C s).step = s.step ∧ (finish C s).gravity = s.gravity := by
  unfold finish; split_ifs <;> simp

lemma saveFrame_eq (s : LoopState d W) : (saveFrame C s).w = s.w ∧ (saveFrame C s).time = s.time ∧ (saveFrame C s).frame = s.frame ∧
    (saveFrame C s).step = s.step ∧ (saveFrame C s).gravity = s.gravity := by
  unfold saveFrame; split_ifs <;> simp

/-- The longer loop reaches the state in which the shorter loop ends. -/
lemma loop_pass (hm : 0 < C.minDt) (hfd : C.minDt * (11 / 10) ≤ C.frameDt) (hM : 1 ≤ M)
    (hinv : ∀ w dt g t n w', Inv w → ph.step w dt g t n = some (w', false) → Inv w') :
    ∀ (fuel : ℕ) (s r : LoopState d W), Inv s.w → loop (framesC C N) ph gf fuel s = .finished r → r.time ≤ C.frameDt * N →
    ∃ k ≤ fuel, ∃ mid : LoopState d W, (mid.w = r.w ∧ mid.time = r.time ∧ mid.frame = r.frame ∧ mid.step = r.step ∧ mid.gravity = r.gravity) ∧
      Inv r.w ∧ (∀ F, loop (framesC C (N + M)) ph gf (k + F) s = loop (framesC C (N + M)) ph gf F mid) ∧
      ∀ ev ∈ mid.out, ev ∈ s.out ∨ FrameIn {n | n ≤ r.frame} ev := by
  have hfd0 : 0 ≤ C.frameDt := by linarith [mul_pos hm (by norm_num : (0:ℝ) < 11/10)]
  have stop : ∀ (fuel : ℕ) (s r : LoopState d W), Inv s.w → ¬ s.frame < N → loop (framesC C N) ph gf fuel s = .finished r →
    ∃ k ≤ fuel, ∃ mid : LoopState d W, (mid.w = r.w ∧ mid.time = r.time ∧ mid.frame = r.frame ∧ mid.step = r.step ∧ mid.gravity = r.gravity) ∧
      Inv r.w ∧ (∀ F, loop (framesC C (N + M)) ph gf (k + F) s = loop (framesC C (N + M)) ph gf F mid) ∧
      ∀ ev ∈ mid.out, ev ∈ s.out ∨ FrameIn {n | n ≤ r.frame} ev := by
    intro fuel s r hi hf h
    unfold loop at h
    rw [if_neg hf] at h
    injection h with h
    subst h
    obtain ⟨h1, h2, h3, h4, h5⟩ := finish_eq (C := framesC C N) s
    exact ⟨0, Nat.zero_le _, s, ⟨h1.symm, h2.symm, h3.symm, h4.symm, h5.symm⟩, h1 ▸ hi, fun F => by rw [zero_add], fun ev h => .inl h⟩
  have grow : ∀ (fuel : ℕ) (s r : LoopState d W), loop (framesC C N) ph gf fuel s = .finished r → s.frame ≤ r.frame := by
    intro fuel
    induction fuel with
    | zero =>
      intro s r h
      unfold loop at h
      split_ifs at h
      injection h with h
      rw [← h, (finish_eq s).2.2.1]
    | succ fuel ih =>
      intro s r h
      unfold loop at h
      split_ifs at h with hf
      · simp only [loopBody] at h
        cases hq : updateDt (framesC C N) gf s.frame s.time (ph.velocities s.w) s.gravity with
        | none => rw [hq] at h; cases h
        | some q =>
          obtain ⟨dt, g⟩ := q
          rw [hq] at h
          simp only at h
          cases hs : ph.step s.w dt g s.time s.step with
          | none => rw [hs] at h; cases h
          | some q =>
            obtain ⟨w, b⟩ := q
            rw [hs] at h
            cases b with
            | true => cases h
            | false =>
              simp only at h
              rw [show endOfFrame (framesC C N) { s with w := w, gravity := g, time := s.time + dt, step := s.step + 1 } =
                afterStep C s dt g w from rfl] at h
              have hle : s.frame ≤ (afterStep C s dt g w).frame := by
                rcases afterStep_cases (C := C) s dt g w with ⟨-, h, -⟩ | ⟨h, -⟩ <;> omega
              by_cases hN : |TimeConfig.finalTime (framesC C N) - (afterStep C s dt g w).time| < C.minDt * (11 / 10) ∨
                  TimeConfig.finalTime (framesC C N) < (afterStep C s dt g w).time
              · rw [if_pos hN] at h
                injection h with h
                rw [← h, (finish_eq _).2.2.1, (saveFrame_eq _).2.2.1]
                exact hle
              · rw [if_neg hN] at h
                exact hle.trans (ih _ _ h)
      · injection h with h
        rw [← h, (finish_eq s).2.2.1]
  intro fuel
  induction fuel with
  | zero =>
    intro s r hi h ht
    by_cases hf : s.frame < N
    · unfold loop at h
      rw [if_pos hf] at h
      cases h
    · exact stop 0 s r hi hf h
  | succ fuel ih =>
    intro s r hi h ht
    by_cases hf : s.frame < N
    swap
    · exact stop _ s r hi hf h
    have hfM : s.frame < N + M := by omega
    have hgrow := grow _ _ _ h
    unfold loop at h
    rw [if_pos hf] at h
    simp only [loopBody] at h
    cases hq : updateDt (framesC C N) gf s.frame s.time (ph.velocities s.w) s.gravity with
    | none => rw [hq] at h; cases h
    | some q =>
      obtain ⟨dt, g⟩ := q
      rw [hq] at h
      simp only at h
      cases hs : ph.step s.w dt g s.time s.step with
      | none => rw [hs] at h; cases h
      | some q =>
        obtain ⟨w, b⟩ := q
        rw [hs] at h
        cases b with
        | true => cases h
        | false =>
          simp only at h
          have hE : ∀ K : ℕ, endOfFrame (framesC C K) { s with w := w, gravity := g, time := s.time + dt, step := s.step + 1 } =
            afterStep C s dt g w := fun K => rfl
          rw [hE] at h
          have hw : (afterStep C s dt g w).w = w := by
            unfold afterStep endOfFrame saveFrame; split_ifs <;> rfl
          have hi' : Inv (afterStep C s dt g w).w := by rw [hw]; exact hinv _ _ _ _ _ _ hi hs
          have houts : ∀ ev ∈ (afterStep C s dt g w).out, ev ∈ s.out ∨ FrameIn {n | n ≤ (afterStep C s dt g w).frame} ev := by
            rcases afterStep_cases (C := C) s dt g w with ⟨-, -, h⟩ | ⟨h0, -, h2, -⟩
            · rw [h]; exact fun ev h => .inl h
            · intro ev hev
              refine (h2 ev hev).imp_right fun h' => ?_
              rw [h0]
              cases ev <;> simp [FrameIn] at h' ⊢ <;> omega
          have hstep : ∀ F, ¬ (|TimeConfig.finalTime (framesC C (N + M)) - (afterStep C s dt g w).time| < C.minDt * (11 / 10) ∨
              TimeConfig.finalTime (framesC C (N + M)) < (afterStep C s dt g w).time) →
              loop (framesC C (N + M)) ph gf (F + 1) s = loop (framesC C (N + M)) ph gf F (afterStep C s dt g w) := by
            intro F hc
            conv_lhs => unfold loop
            rw [if_pos hfM]
            simp only [loopBody]
            rw [updateDt_frames (N := N) (M := N + M) (by omega) hfd0 hf, hq]
            simp only
            rw [hs]
            simp only
            rw [hE, if_neg hc]
          by_cases hN : |TimeConfig.finalTime (framesC C N) - (afterStep C s dt g w).time| < C.minDt * (11 / 10) ∨
              TimeConfig.finalTime (framesC C N) < (afterStep C s dt g w).time
          · rw [if_pos hN] at h
            injection h with h
            obtain ⟨f1, f2, f3, f4, f5⟩ := finish_eq (C := framesC C N) (saveFrame (framesC C N) (afterStep C s dt g w))
            obtain ⟨g1, g2, g3, g4, g5⟩ := saveFrame_eq (C := framesC C N) (afterStep C s dt g w)
            rw [h] at f1 f2 f3 f4 f5
            refine ⟨1, by omega, afterStep C s dt g w, ⟨by rw [f1, g1], by rw [f2, g2], by rw [f3, g3], by rw [f4, g4], by rw [f5, g5]⟩,
              by rw [f1, g1]; exact hi', fun F => ?_, ?_⟩
            · rw [add_comm 1 F]
              refine hstep F ?_
              have ht' : (afterStep C s dt g w).time ≤ C.frameDt * N := by rw [← g2, ← f2]; exact ht
              have hfin : C.frameDt * N + C.frameDt ≤ TimeConfig.finalTime (framesC C (N + M)) := by
                have : (1 : ℝ) ≤ M := by exact_mod_cast hM
                have e : TimeConfig.finalTime (framesC C (N + M)) = C.frameDt * N + C.frameDt * M := by
                  simp only [TimeConfig.finalTime, TimeConfig.frameDt]; push_cast; ring
                rw [e]
                linarith [mul_le_mul_of_nonneg_left this hfd0]
              push Not
              refine ⟨le_trans ?_ (le_abs_self _), ?_⟩ <;> linarith
            · rw [f3, g3]; exact houts
          · rw [if_neg hN] at h
            obtain ⟨k, hk, mid, h1, h2, h3, h4⟩ := ih _ r hi' h ht
            have hgrow' := grow _ _ _ h
            refine ⟨k + 1, by omega, mid, h1, h2, fun F => ?_, fun ev hev => ?_⟩
            · rw [show k + 1 + F = k + F + 1 by ring, hstep (k + F) ?_, h3 F]
              have hle : TimeConfig.finalTime (framesC C N) ≤ TimeConfig.finalTime (framesC C (N + M)) :=
                mul_le_mul_of_nonneg_right (by push_cast; linarith [(Nat.cast_nonneg M : (0:ℝ) ≤ M)]) hfd0
              push Not at hN ⊢
              refine ⟨?_, by linarith [hN.2]⟩
              have h1 := hN.1
              rw [abs_of_nonneg (by linarith [hN.2])] at h1
              exact le_trans (by linarith) (le_abs_self _)
            · rcases h4 ev hev with h | h
              · refine (houts ev h).imp_right fun h' => ?_
                cases ev <;> simp [FrameIn] at h' ⊢ <;> omega
              · exact .inr h

end loop
end Resume
open Resume

section run
variable {d : ℕ} {R : Setup (d + 2)} {N M fuel fuel2 : ℕ} {i e : Bool} {s r r2 : LoopState (d + 2) (World (d + 2))}

lemma accepted_of_finished {R : Setup (d + 2)} (h : runProgram R i e fuel s = .finished r) :
    accepted i R.m.elastic R.m.plastic e = true := by
  by_contra ha
  simp only [runProgram, ha, if_false, Bool.false_eq_true, reduceCtorEq] at h

/-- **C113** Continuing a simulation. A first call of `simulate` ends after `N` frames, exactly at the time `N / fps`, and `simulate` is called
a second time on the same object, for `M` frames. Then a single call with `N + M` frames takes the same steps and ends in the same way (normally,
with an error, or with undefined behaviour) in the same state; its files of the frames `N + 1, N + 2, ...` are the files of the frames `1, 2, ...`
of the second call, up to the number of the frame and the time. Conditions: the gravity is constant, the plates have no loading phase, and
`use_mibf` is off. -/
theorem C113_continue (hm : 0 < R.C.minDt) (hfd : R.C.minDt * (11 / 10) ≤ 1 / R.C.fps) (hM : 1 ≤ M)
    (hg : R.C.gravitySpecial = false) (hmibf : R.S.P.useMibf = false) (hops : SteadyOps R.ops)
    (hpl : ∀ p ∈ s.w.plates, p.vminFactor = 1) (hout : s.out = [])
    (h1 : runProgram (withFrames N R) i e fuel s = .finished r) (ht : r.time = N / R.C.fps) (fuel2 : ℕ) :
    ∃ k ≤ fuel,
      LaterEnd N (N / R.C.fps) (runProgram (withFrames M R) i e fuel2 r) (runProgram (withFrames (N + M) R) i e (k + fuel2) s) ∧
      (runProgram (withFrames M R) i e fuel2 r ≠ .ub → ∃ new, filesOf (runProgram (withFrames M R) i e fuel2 r) = r.out ++ new ∧
        ∀ n, 1 ≤ n → ∀ t w,
        (.particles (n + N) (t + N / R.C.fps) w ∈ filesOf (runProgram (withFrames (N + M) R) i e (k + fuel2) s) ↔ .particles n t w ∈ new) ∧
        (.grid (n + N) (t + N / R.C.fps) w ∈ filesOf (runProgram (withFrames (N + M) R) i e (k + fuel2) s) ↔ .grid n t w ∈ new)) := by
  have ha := accepted_of_finished h1
  have hph : ∀ K, physics (withFrames K R) = physics R := fun K => rfl
  have hfill : ∀ (K : ℕ) (s : LoopState (d + 2) (World (d + 2))),
      { s with w := fillMuI (withFrames K R).m (withFrames K R).S.P.useMibf s.w } = s := by
    intro K s
    rw [show fillMuI (withFrames K R).m (withFrames K R).S.P.useMibf s.w = s.w from if_neg (by simp [withFrames, hmibf])]
  have hrun : ∀ (K F : ℕ) (s : LoopState (d + 2) (World (d + 2))),
      runProgram (withFrames K R) i e F s = loop (framesC R.C K) (physics R) s.gravity F (startState R.C s) := by
    intro K F s
    have ha' : accepted i (withFrames K R).m.elastic (withFrames K R).m.plastic e = true := ha
    unfold runProgram
    rw [if_pos ha', hfill, simulate_eq ha']
    rfl
  rw [hrun] at h1
  simp only [hrun]
  have hf : r.frame = N := by
    rcases Nat.eq_zero_or_pos N with rfl | hN
    · unfold loop at h1
      rw [if_neg (by simp)] at h1
      injection h1 with h1
      rw [← h1, (finish_eq _).2.2.1, start_frame]
    · have hH := start_head (C := framesC R.C N) hm hfd s
      obtain ⟨s', hd, hr⟩ := loop_done (C := framesC R.C N) hm hfd fuel _ (by rw [start_frame]; exact hN) hH r h1
      rw [hr, (finish_eq _).2.2.1, hd.frame]
  set Inv : World (d + 2) → Prop := fun w => ∀ p ∈ w.plates, p.vminFactor = 1 with hInv
  have hinv : ∀ w dt g t n w', Inv w → (physics R).step w dt g t n = some (w', false) → Inv w' := by
    intro w dt g t n w' hw h
    intro p hp
    rw [physStep_plates h] at hp
    obtain ⟨q, hq, rfl⟩ := List.mem_map.mp hp
    exact (hops q (hw q hq)).2 _ _ _
  have htime : ∀ w dt g t t' n, Inv w → (physics R).step w dt g t n = (physics R).step w dt g t' n := by
    intro w dt g t t' n hw
    have e : (w.plates.map fun p => R.ops.move p dt R.C.frameDt t) = w.plates.map fun p => R.ops.move p dt R.C.frameDt t' :=
      List.map_congr_left fun p hp => (hops p (hw p hp)).1 _ _ _ _
    show physStep R w dt g t n = physStep R w dt g t' n
    unfold physStep
    rw [e]
  have hT : R.C.frameDt * N = N / R.C.fps := by rw [TimeConfig.frameDt]; ring
  have hw0 : (startState R.C s).w = s.w := by simp only [startState]; split_ifs <;> rfl
  obtain ⟨k, hk, mid, ⟨m1, m2, m3, m4, m5⟩, hi, hpass, hfiles⟩ := loop_pass (C := R.C) (ph := physics R) (N := N) (M := M) hm hfd hM hinv
    fuel _ r (by rw [hw0]; exact hpl) h1 (by rw [ht, hT])
  set st := startState R.C r with hst
  have hstw : st.w = r.w ∧ st.step = r.step ∧ st.gravity = r.gravity := by
    rw [hst]; simp only [startState]; split_ifs <;> exact ⟨rfl, rfl, rfl⟩
  have hSame : Same R.C N st.out mid.out st mid :=
    ⟨⟨by rw [m1, hstw.1], by rw [m2, hst, start_time, ht, hT, zero_add], by rw [m3, hst, start_frame, hf, zero_add], by rw [m4, hstw.2.1],
      by rw [m5, hstw.2.2]⟩, [], by simp, by simp⟩
  have key := loop_same (M := M) (gf := r.gravity) (gf' := s.gravity) hg htime hinv fuel2 st mid hSame (by rw [hstw.1]; exact hi)
  rw [← hpass fuel2] at key
  refine ⟨k, hk, ?_, fun hub => ?_⟩
  · rw [← hT]
    revert key
    generalize loop (framesC R.C M) (physics R) r.gravity fuel2 st = A
    generalize loop (framesC R.C (N + M)) (physics R) s.gravity (k + fuel2) (startState R.C s) = B
    intro key
    cases A <;> cases B <;> first | exact key.toLaterState | exact key | exact key.elim
  obtain ⟨l, e1, e2⟩ : ∃ l, filesOf (loop (framesC R.C M) (physics R) r.gravity fuel2 st) = st.out ++ l ∧
      filesOf (loop (framesC R.C (N + M)) (physics R) s.gravity (k + fuel2) (startState R.C s)) =
        mid.out ++ l.map (Event.later N (R.C.frameDt * N)) := by
    revert key hub
    generalize loop (framesC R.C M) (physics R) r.gravity fuel2 st = A
    generalize loop (framesC R.C (N + M)) (physics R) s.gravity (k + fuel2) (startState R.C s) = B
    intro key hub
    cases A <;> cases B <;> first | exact key.out | exact key.elim | exact absurd rfl hub
  obtain ⟨pre, hpre, hpre'⟩ : ∃ pre, st.out = r.out ++ pre ∧ ∀ ev ∈ pre, ∀ n t w, ev = .particles n t w ∨ ev = .grid n t w → n = 0 := by
    rw [hst]; simp only [startState]
    split_ifs
    · refine ⟨_, rfl, ?_⟩
      intro ev hev n t w h
      simp only [List.mem_cons, List.not_mem_nil, or_false] at hev
      rcases hev with rfl | rfl <;> rcases h with h | h <;> simp at h
      exact h.1.symm
    · exact ⟨[], by simp, by simp⟩
  refine ⟨pre ++ l, by rw [e1, hpre, List.append_assoc], fun n hn t w => ?_⟩
  have hold : ∀ ev ∈ mid.out, ∀ t w, ev ≠ .particles (n + N) t w ∧ ev ≠ .grid (n + N) t w := by
    intro ev hev t w
    rcases hfiles ev hev with h | h
    · have : ∀ t w, Event.particles (n + N) t w ≠ ev ∧ Event.grid (n + N) t w ≠ ev := by
        intro t w
        simp only [startState] at h
        split_ifs at h
        · simp only [hout, List.nil_append, List.mem_cons, List.not_mem_nil, or_false] at h
          rcases h with rfl | rfl
          · simp
          · simp; omega
        · rw [show ({ s with time := 0, frame := 0 } : LoopState (d + 2) (World (d + 2))).out = [] from hout] at h
          simp at h
      exact ⟨(this t w).1.symm, (this t w).2.symm⟩
    · constructor <;> rintro rfl <;> simp [FrameIn] at h <;> omega
  have hnew : ∀ ev ∈ pre, ev ≠ .particles n t w ∧ ev ≠ .grid n t w := fun ev hev =>
    ⟨fun h => by have := hpre' ev hev n t w (.inl h); omega, fun h => by have := hpre' ev hev n t w (.inr h); omega⟩
  rw [e2]
  constructor
  · constructor
    · intro h
      rcases List.mem_append.mp h with h | h
      · exact absurd rfl (hold _ h _ _).1
      · obtain ⟨ev, hev, e⟩ := List.mem_map.mp h
        refine List.mem_append_right _ ?_
        cases ev <;> simp only [Event.later, reduceCtorEq, Event.particles.injEq] at e
        obtain ⟨a1, a2, a3⟩ := e
        rw [hT] at a2
        obtain rfl := Nat.add_right_cancel a1
        obtain rfl := add_right_cancel a2
        subst a3
        exact hev
    · intro h
      rcases List.mem_append.mp h with h | h
      · exact absurd rfl (hnew _ h).1
      · exact List.mem_append_right _ (List.mem_map.mpr ⟨_, h, by simp only [Event.later, hT]⟩)
  · constructor
    · intro h
      rcases List.mem_append.mp h with h | h
      · exact absurd rfl (hold _ h _ _).2
      · obtain ⟨ev, hev, e⟩ := List.mem_map.mp h
        refine List.mem_append_right _ ?_
        cases ev <;> simp only [Event.later, reduceCtorEq, Event.grid.injEq] at e
        obtain ⟨a1, a2, a3⟩ := e
        rw [hT] at a2
        obtain rfl := Nat.add_right_cancel a1
        obtain rfl := add_right_cancel a2
        subst a3
        exact hev
    · intro h
      rcases List.mem_append.mp h with h | h
      · exact absurd rfl (hnew _ h).2
      · exact List.mem_append_right _ (List.mem_map.mpr ⟨_, h, by simp only [Event.later, hT]⟩)

local notation "⟪" o ", " f "⟫" => outPath (Output.directory o) (Output.simName o) f

/-- **C113** But the files of the two calls get in each other's way: both calls number their frames from 0. Afterwards the particle file of frame 0
shows the particles at the end of the first call, those of the frames up to `M` are the files of the second call, and files of later frames,
if `M < N`, are those of the first call. -/
theorem C113_files (hd : d ≤ 1) (hm : 0 < R.C.minDt) (hfd : R.C.minDt * (11 / 10) ≤ 1 / R.C.fps) (hsave : R.C.saveSim = true)
    (hN : 1 ≤ N) (hM : 1 ≤ M) (hmibf : R.S.P.useMibf = false) (h1 : runProgram (withFrames N R) i e fuel s = .finished r)
    (h2 : runProgram (withFrames M R) i e fuel2 r = .finished r2) (o : Output) :
    ∃ new1 new2, r.out = s.out ++ new1 ∧ r2.out = r.out ++ new2 ∧ ∀ D : Disk,
      (∃ f, diskAfter (withFrames M R) o new2 (diskAfter (withFrames N R) o new1 D) ⟪o, particleFile 0⟫ = some (.ply f) ∧ ShowsParticles R.m R.S.P.useMibf f r.w.ps) ∧
      (∀ n ≤ M, ∃ t w f, .particles n t w ∈ new2 ∧ diskAfter (withFrames M R) o new2 (diskAfter (withFrames N R) o new1 D) ⟪o, particleFile n⟫ = some (.ply f) ∧
        ShowsParticles R.m R.S.P.useMibf f w.ps) ∧
      ∀ n, M < n → n ≤ N → ∃ t w f, .particles n t w ∈ new1 ∧ diskAfter (withFrames M R) o new2 (diskAfter (withFrames N R) o new1 D) ⟪o, particleFile n⟫ = some (.ply f) ∧
        ShowsParticles R.m R.S.P.useMibf f w.ps := by
  obtain ⟨new1, e1, D1⟩ := C84_directory (R := withFrames N R) hd hm hfd hsave hN h1 o
  obtain ⟨new2, e2, D2⟩ := C84_directory (R := withFrames M R) hd hm hfd hsave hM h2 o
  obtain ⟨new2', e2', L2⟩ := C84_leftover (R := withFrames M R) hd hm hfd hsave hM h2 o
  obtain rfl : new2' = new2 := List.append_cancel_left (e2'.symm.trans e2)
  refine ⟨new1, new2', e1, e2, fun D => ?_⟩
  obtain ⟨t, w, -, hw0, -, hP, -⟩ := D2 (diskAfter (withFrames N R) o new1 D)
  refine ⟨?_, fun n hn => ?_, fun n h3 h4 => ?_⟩
  · obtain ⟨-, f, hf1, hf2⟩ := hP 0 (Nat.zero_le _)
    refine ⟨f, hf1, ?_⟩
    rw [hw0, begin_w, show fillMuI (withFrames M R).m (withFrames M R).S.P.useMibf r.w = r.w from if_neg (by simp [withFrames, hmibf])] at hf2
    exact hf2
  · obtain ⟨h5, f, hf1, hf2⟩ := hP n hn
    exact ⟨t n, w n, f, h5, hf1, hf2⟩
  · obtain ⟨t, w, -, -, -, hP, -⟩ := D1 D
    obtain ⟨h5, f, hf1, hf2⟩ := hP n h4
    refine ⟨t n, w n, f, h5, ?_, hf2⟩
    rw [((L2 _).1 n h3).1]
    exact hf1

end run

namespace RunEx

/-- A pair at rest: one frame and then two more are the same as three. -/
example (musl : Bool) (pm : PlasticModel) : ∃ r r2 r3,
    runProgram (d := 0) (withFrames 1 (setup musl 3 pm)) true false 10 (start pair 0) = .finished r ∧
    runProgram (d := 0) (withFrames 2 (setup musl 3 pm)) true false 30 r = .finished r2 ∧
    runProgram (d := 0) (withFrames 3 (setup musl 3 pm)) true false 40 (start pair 0) = .finished r3 ∧
    r3.w = r2.w ∧ r3.time = r2.time + 1 := by
  obtain ⟨r, h1, -⟩ := rest_frames musl pm (n := 1) le_rfl
  obtain ⟨r3, h3, -⟩ := rest_frames musl pm (n := 3) (by norm_num)
  have ht : r.time = (1 : ℕ) / (setup musl 3 pm).C.fps := by
    have hmem := C19_memory (R := withFrames 1 (setup musl 3 pm)) rfl h1
    have hfr : r.frame = 1 := (C19_files (C := (withFrames 1 (setup musl 3 pm)).C) (by norm_num [withFrames, setup, cfg, exConfig])
      (by norm_num [withFrames, setup, cfg, exConfig]) rfl le_rfl 10 _ r
      (by simpa [runProgram, accepted, withFrames, setup, Ex.mat] using h1)).1
    rcases run_particles hmem (by simp [start]) with ⟨h0, -⟩ | ⟨s1, dt, g, ⟨k, hr, -, hu, -⟩, h⟩
    · omega
    have hk := only_begin musl (pm := pm) (by simp [pair]) (fun p hp => (pair_rest p hp).1) 0 k s1 hr
    subst hk
    cases hr
    rw [h, begin_time]
    have hd : dt = chooseDt (exConfig (1 / 10) 1) 0 0 0 := by
      have hv : ((physics (withFrames 1 (setup musl 3 pm))).velocities (begin (withFrames 1 (setup musl 3 pm)) (start pair 0)).w) =
          [0, 0] := by
        rw [begin_w]
        simp [physics, fillMuI, withFrames, setup, start, mkTransferParams, pair, Particle.init]
      rw [hv, begin_time] at hu
      have hsp : maxSpeed [(0 : Fin 2 → ℝ), 0] = some 0 := by simp [maxSpeed, maxElement]
      simp only [updateDt, hsp, Option.map_some, Option.some.injEq, Prod.mk.injEq] at hu
      rw [← hu.1]
      have : (begin (withFrames 1 (setup musl 3 pm)) (start pair 0)).frame = 0 := start_frame _
      rw [this]
      rfl
    rw [hd, ex_dt (by norm_num) le_rfl]
    norm_num [setup, cfg, exConfig]
  obtain ⟨k, hk, hend, -⟩ := C113_continue (R := setup musl 3 pm) (N := 1) (M := 2) (by norm_num [setup, cfg, exConfig])
    (by norm_num [setup, cfg, exConfig]) (by norm_num) rfl rfl steady2 (by simp [start]) rfl h1 ht 30
  have h3' : runProgram (d := 0) (withFrames 3 (setup musl 3 pm)) true false (k + 30) (start pair 0) = .finished r3 ∧
      runProgram (d := 0) (withFrames 3 (setup musl 3 pm)) true false 40 (start pair 0) = .finished r3 := by
    have ha := accepted_of_finished h3
    unfold runProgram at h3 ⊢
    rw [if_pos ha, simulate_eq ha] at h3
    rw [if_pos ha, if_pos ha, simulate_eq ha, simulate_eq ha]
    exact ⟨loop_enough _ _ _ _ (by omega) h3, loop_enough _ _ _ _ (by omega) h3⟩
  rw [h3'.1] at hend
  cases h2 : runProgram (d := 0) (withFrames 2 (setup musl 3 pm)) true false 30 r with
  | finished r2 =>
    rw [h2] at hend
    refine ⟨r, r2, r3, h1, h2, h3'.2, hend.w, ?_⟩
    rw [hend.time]
    norm_num [setup, cfg, exConfig]
  | failed _ => rw [h2] at hend; exact hend.elim
  | refused _ => rw [h2] at hend; exact hend.elim
  | outOfFuel _ => rw [h2] at hend; exact hend.elim
  | ub => rw [h2] at hend; exact hend.elim

end RunEx
end Verif.Props
