import Verif.Props.Run
import Verif.Props.Time
import Verif.Props.RunExamples

set_option linter.unusedSectionVars false
set_option linter.unusedSimpArgs false
set_option linter.unusedVariables false

/-!
# C109: output options and the number of frames do not influence the simulation
-/

namespace Verif.Props
open Verif Matrix

section spec
variable {d : ℕ} {W : Type*}

/-- The files that are written with the given options, among all files. -/
def wanted (saveSim saveGrid : Bool) : Event W → Bool
  | .grid _ _ _ => saveSim && saveGrid
  | _ => saveSim

/-- The same end of a run with fewer files. -/
def Result.select (p : Event W → Bool) : Result d W → Result d W
  | .refused s => .refused { s with out := s.out.filter p }
  | .finished s => .finished { s with out := s.out.filter p }
  | .failed s => .failed { s with out := s.out.filter p }
  | .ub => .ub
  | .outOfFuel s => .outOfFuel { s with out := s.out.filter p }

/-- The set-up with the given output options. -/
def withOutput (saveSim saveGrid : Bool) (R : Setup d) : Setup d := { R with C := { R.C with saveSim := saveSim, saveGrid := saveGrid } }

/-- The set-up with another number of frames. -/
def withFrames (N : ℕ) (R : Setup d) : Setup d := { R with C := { R.C with endFrame := N } }

/-- The file belongs to a frame in `A`. -/
def FrameIn (A : Set ℕ) : Event W → Prop
  | .particles n _ _ => n ∈ A
  | .grid n _ _ => n ∈ A
  | _ => False

end spec

section loop
variable {d : ℕ} {W : Type*} {C : TimeConfig d} {ph : Physics d W} {gf : Fin d → ℝ}

/-- Fewer files. -/
def LoopState.select (p : Event W → Bool) (s : LoopState d W) : LoopState d W := { s with out := s.out.filter p }

lemma saveFrame_select (ss sg : Bool) (s : LoopState d W) :
    saveFrame { C with saveSim := ss, saveGrid := sg } (LoopState.select (wanted ss sg) s) =
      LoopState.select (wanted ss sg) (saveFrame { C with saveSim := true, saveGrid := true } s) := by
  cases ss <;> cases sg <;> simp [saveFrame, LoopState.select, wanted] <;> rfl

lemma loop_select (ss sg : Bool) (fuel : ℕ) (s : LoopState d W) :
    loop { C with saveSim := ss, saveGrid := sg } ph gf fuel (LoopState.select (wanted ss sg) s) =
      Result.select (wanted ss sg) (loop { C with saveSim := true, saveGrid := true } ph gf fuel s) := by
  have hfin : ∀ s : LoopState d W, finish { C with saveSim := ss, saveGrid := sg } (LoopState.select (wanted ss sg) s) =
      LoopState.select (wanted ss sg) (finish { C with saveSim := true, saveGrid := true } s) := by
    intro s
    cases ss <;> simp [finish, LoopState.select, wanted]
    rfl
  have hend : ∀ s : LoopState d W, endOfFrame { C with saveSim := ss, saveGrid := sg } (LoopState.select (wanted ss sg) s) =
      LoopState.select (wanted ss sg) (endOfFrame { C with saveSim := true, saveGrid := true } s) := by
    intro s
    unfold endOfFrame
    by_cases h : C.frameDt * (s.frame + 1) - s.time < C.minDt * (11 / 10)
    · refine (if_pos h).trans (Eq.trans ?_ (congrArg _ (if_pos h).symm))
      exact saveFrame_select ss sg { s with frame := s.frame + 1 }
    · exact (if_neg h).trans (congrArg _ (if_neg h).symm)
  induction fuel generalizing s with
  | zero =>
    unfold loop
    by_cases h : s.frame < C.endFrame
    · refine (if_pos h).trans (Eq.trans ?_ (congrArg _ (if_pos h).symm)); rfl
    · refine (if_neg h).trans (Eq.trans ?_ (congrArg _ (if_neg h).symm))
      rw [hfin]; rfl
  | succ fuel ih =>
    unfold loop
    by_cases h : s.frame < C.endFrame
    · refine (if_pos h).trans (Eq.trans ?_ (congrArg _ (if_pos h).symm))
      simp only [loopBody]
      have hu : updateDt { C with saveSim := ss, saveGrid := sg } gf (LoopState.select (wanted ss sg) s).frame
          (LoopState.select (wanted ss sg) s).time (ph.velocities (LoopState.select (wanted ss sg) s).w)
          (LoopState.select (wanted ss sg) s).gravity =
          updateDt { C with saveSim := true, saveGrid := true } gf s.frame s.time (ph.velocities s.w) s.gravity := rfl
      rw [hu]
      cases hq : updateDt { C with saveSim := true, saveGrid := true } gf s.frame s.time (ph.velocities s.w) s.gravity with
      | none => rfl
      | some q =>
        obtain ⟨dt, g⟩ := q
        simp only
        have hst : ph.step (LoopState.select (wanted ss sg) s).w dt g (LoopState.select (wanted ss sg) s).time
          (LoopState.select (wanted ss sg) s).step = ph.step s.w dt g s.time s.step := rfl
        rw [hst]
        cases hs : ph.step s.w dt g s.time s.step with
        | none => rfl
        | some r =>
          obtain ⟨w, b⟩ := r
          cases b with
          | true => rfl
          | false =>
            simp only
            have hE := hend { s with w := w, gravity := g, time := s.time + dt, step := s.step + 1 }
            set E := endOfFrame { C with saveSim := true, saveGrid := true }
              { s with w := w, gravity := g, time := s.time + dt, step := s.step + 1 } with hEdef
            rw [show endOfFrame { C with saveSim := ss, saveGrid := sg }
              { LoopState.select (wanted ss sg) s with
                w := w, gravity := g, time := (LoopState.select (wanted ss sg) s).time + dt,
                step := (LoopState.select (wanted ss sg) s).step + 1 } = LoopState.select (wanted ss sg) E from hE]
            by_cases hb : |C.finalTime - E.time| < C.minDt * (11 / 10) ∨ C.finalTime < E.time
            · rw [show (if |TimeConfig.finalTime { C with saveSim := ss, saveGrid := sg } - (LoopState.select (wanted ss sg) E).time| <
                  C.minDt * (11 / 10) ∨ TimeConfig.finalTime { C with saveSim := ss, saveGrid := sg } < (LoopState.select (wanted ss sg) E).time
                  then Next.brk (saveFrame { C with saveSim := ss, saveGrid := sg } (LoopState.select (wanted ss sg) E)) else
                  Next.cont (LoopState.select (wanted ss sg) E)) = _ from if_pos hb,
                show (if |TimeConfig.finalTime { C with saveSim := true, saveGrid := true } - E.time| <
                  C.minDt * (11 / 10) ∨ TimeConfig.finalTime { C with saveSim := true, saveGrid := true } < E.time
                  then Next.brk (saveFrame { C with saveSim := true, saveGrid := true } E) else Next.cont E) = _ from if_pos hb]
              simp only [saveFrame_select, hfin]
              rfl
            · rw [show (if |TimeConfig.finalTime { C with saveSim := ss, saveGrid := sg } - (LoopState.select (wanted ss sg) E).time| <
                  C.minDt * (11 / 10) ∨ TimeConfig.finalTime { C with saveSim := ss, saveGrid := sg } < (LoopState.select (wanted ss sg) E).time
                  then Next.brk (saveFrame { C with saveSim := ss, saveGrid := sg } (LoopState.select (wanted ss sg) E)) else
                  Next.cont (LoopState.select (wanted ss sg) E)) = _ from if_neg hb,
                show (if |TimeConfig.finalTime { C with saveSim := true, saveGrid := true } - E.time| <
                  C.minDt * (11 / 10) ∨ TimeConfig.finalTime { C with saveSim := true, saveGrid := true } < E.time
                  then Next.brk (saveFrame { C with saveSim := true, saveGrid := true } E) else Next.cont E) = _ from if_neg hb]
              exact ih E
    · refine (if_neg h).trans (Eq.trans ?_ (congrArg _ (if_neg h).symm))
      rw [hfin]; rfl

/-- The state at the end of an iteration, before the test for the final time. -/
noncomputable def afterStep (C : TimeConfig d) (s : LoopState d W) (dt : ℝ) (g : Fin d → ℝ) (w : W) : LoopState d W :=
  endOfFrame C { s with w := w, gravity := g, time := s.time + dt, step := s.step + 1 }

/-- Within an iteration either no frame is completed and nothing is written, or one is and only its files are written. -/
lemma afterStep_cases (s : LoopState d W) (dt : ℝ) (g : Fin d → ℝ) (w : W) :
    (¬ (C.frameDt * (s.frame + 1) - (s.time + dt) < C.minDt * (11 / 10)) ∧ (afterStep C s dt g w).frame = s.frame ∧
      (afterStep C s dt g w).out = s.out) ∨
    ((afterStep C s dt g w).frame = s.frame + 1 ∧ (∀ ev ∈ s.out, ev ∈ (afterStep C s dt g w).out) ∧
      (∀ ev ∈ (afterStep C s dt g w).out, ev ∈ s.out ∨ FrameIn {s.frame + 1} ev) ∧
      ∀ ev, ev ∈ (saveFrame C (afterStep C s dt g w)).out ↔ ev ∈ (afterStep C s dt g w).out) := by
  by_cases h : C.frameDt * (s.frame + 1) - (s.time + dt) < C.minDt * (11 / 10)
  · right
    have e : afterStep C s dt g w =
        saveFrame C { s with w := w, gravity := g, time := s.time + dt, step := s.step + 1, frame := s.frame + 1 } := if_pos h
    rw [e]
    unfold saveFrame
    cases C.saveSim <;> cases C.saveGrid <;> simp
    all_goals first
      | exact ⟨fun ev h => .inl h, fun ev h => h.elim .inl fun h => .inr (by subst h; rfl)⟩
      | exact fun ev h => .inl h
      | refine ⟨fun ev h => .inl h, fun ev h => ?_, fun ev => by tauto⟩
        rcases h with h | h | h
        · exact .inl h
        · exact .inr (by subst h; rfl)
        · exact .inr (by subst h; rfl)
  · left
    have e : afterStep C s dt g w = { s with w := w, gravity := g, time := s.time + dt, step := s.step + 1 } := if_neg h
    rw [e]
    exact ⟨h, rfl, rfl⟩

lemma afterStep_time (s : LoopState d W) (dt : ℝ) (g : Fin d → ℝ) (w : W) : (afterStep C s dt g w).time = s.time + dt := by
  unfold afterStep endOfFrame saveFrame; split_ifs <;> rfl

lemma saveFrame_frame' (s : LoopState d W) : (saveFrame C s).frame = s.frame := by
  unfold saveFrame; split_ifs <;> rfl

lemma mem_finish {s : LoopState d W} {A : Set ℕ} {ev : Event W} (hev : FrameIn A ev) : ev ∈ (finish C s).out ↔ ev ∈ s.out := by
  unfold finish
  split_ifs
  · cases ev <;> simp [FrameIn] at hev ⊢
  · rfl

lemma finish_frame' (s : LoopState d W) : (finish C s).frame = s.frame := by
  unfold finish; split_ifs <;> rfl

/-- Before the last frame is completed the loop does not end. -/
lemma no_break (hm : 0 ≤ C.minDt) (hfd : 0 ≤ C.frameDt) {s : LoopState d W} (hf : s.frame < C.endFrame) {t : ℝ}
    (h : ¬ (C.frameDt * (s.frame + 1) - t < C.minDt * (11 / 10))) : ¬ (|C.finalTime - t| < C.minDt * (11 / 10) ∨ C.finalTime < t) := by
  have h1 : C.frameDt * (s.frame + 1) ≤ C.finalTime := by
    rw [TimeConfig.finalTime, mul_comm]
    refine mul_le_mul_of_nonneg_right ?_ hfd
    exact_mod_cast hf
  push Not at h ⊢
  refine ⟨?_, by linarith [mul_nonneg hm (by norm_num : (0 : ℝ) ≤ 11 / 10)]⟩
  exact le_trans (by linarith) (le_abs_self _)

/-- From a state at the head of the loop, only files of later frames are added. -/
lemma loop_later (hm : 0 ≤ C.minDt) (hfd : 0 ≤ C.frameDt) : ∀ (fuel : ℕ) (s : LoopState d W), loop C ph gf fuel s ≠ .ub →
    ∀ ev, FrameIn {n | n ≤ s.frame} ev → (ev ∈ filesOf (loop C ph gf fuel s) ↔ ev ∈ s.out) := by
  intro fuel
  induction fuel with
  | zero =>
    intro s _ ev hev
    unfold loop
    split_ifs
    · rfl
    · exact mem_finish hev
  | succ fuel ih =>
    intro s hub ev hev
    unfold loop at hub ⊢
    split_ifs at hub ⊢ with hf
    · simp only [loopBody] at hub ⊢
      cases hq : updateDt C gf s.frame s.time (ph.velocities s.w) s.gravity with
      | none => rw [hq] at hub; exact absurd rfl hub
      | some q =>
        obtain ⟨dt, g⟩ := q
        rw [hq] at hub
        simp only at hub ⊢
        cases hs : ph.step s.w dt g s.time s.step with
        | none => rw [hs] at hub; exact absurd rfl hub
        | some r =>
          obtain ⟨w, b⟩ := r
          rw [hs] at hub
          cases b with
          | true => rfl
          | false =>
            simp only at hub ⊢
            rw [show endOfFrame C { s with w := w, gravity := g, time := s.time + dt, step := s.step + 1 } = afterStep C s dt g w from rfl] at hub ⊢
            have key : ev ∈ (afterStep C s dt g w).out ↔ ev ∈ s.out := by
              rcases afterStep_cases (C := C) s dt g w with ⟨-, -, h⟩ | ⟨-, h1, h2, -⟩
              · rw [h]
              · refine ⟨fun h => (h2 _ h).resolve_right fun h' => ?_, h1 _⟩
                cases ev <;> simp [FrameIn] at hev h' <;> omega
            have hev' : FrameIn {n | n ≤ (afterStep C s dt g w).frame} ev := by
              rcases afterStep_cases (C := C) s dt g w with ⟨-, h, -⟩ | ⟨h, -⟩
              · rw [h]; exact hev
              · rw [h]; cases ev <;> simp [FrameIn] at hev ⊢ <;> omega
            by_cases hb : |C.finalTime - (afterStep C s dt g w).time| < C.minDt * (11 / 10) ∨ C.finalTime < (afterStep C s dt g w).time
            · rw [if_pos hb]
              refine (mem_finish hev).trans ?_
              rcases afterStep_cases (C := C) s dt g w with ⟨h0, -, -⟩ | ⟨-, -, -, h⟩
              · rw [afterStep_time] at hb
                exact absurd hb (no_break hm hfd hf h0)
              · rw [h, key]
            · rw [if_neg hb] at hub ⊢
              exact (ih _ hub ev hev').trans key
    · exact mem_finish hev

/-- The configuration with another number of frames. -/
abbrev framesC (C : TimeConfig d) (K : ℕ) : TimeConfig d := { C with endFrame := K }

/-- While the shorter run is not over, the time step does not depend on the number of frames. -/
lemma chooseDt_frames {N M : ℕ} (hNM : N ≤ M) (hfd : 0 ≤ C.frameDt) {n : ℕ} (hn : n < N) (t v : ℝ) :
    chooseDt (framesC C M) n t v = chooseDt (framesC C N) n t v := by
  have key : ∀ K : ℕ, n < K → ∀ x : ℝ, min (min x (C.frameDt * (n + 1) - t)) (TimeConfig.finalTime (framesC C K) - t) =
      min x (C.frameDt * (n + 1) - t) := by
    intro K hK x
    refine min_eq_left (le_trans (min_le_right _ _) (sub_le_sub_right ?_ _))
    rw [TimeConfig.finalTime, mul_comm]
    refine mul_le_mul_of_nonneg_right ?_ hfd
    exact_mod_cast hK
  unfold chooseDt
  simp only
  have h1 := key M (by omega)
  have h2 := key N hn
  simp only [TimeConfig.frameDt] at h1 h2 ⊢
  rw [h1, h2]
  rfl

lemma updateDt_frames {N M : ℕ} (hNM : N ≤ M) (hfd : 0 ≤ C.frameDt) {n : ℕ} (hn : n < N) (t : ℝ) (vs : List (Fin d → ℝ)) (g : Fin d → ℝ) :
    updateDt (framesC C M) gf n t vs g = updateDt (framesC C N) gf n t vs g := by
  unfold updateDt
  refine congrArg (fun f => Option.map f _) (funext fun v => ?_)
  exact Prod.ext (chooseDt_frames hNM hfd hn t v) rfl

/-- The longer loop writes the same files for the frames of the shorter. -/
lemma loop_frames {N M : ℕ} (hNM : N ≤ M) (hm : 0 ≤ C.minDt) (hfd : 0 ≤ C.frameDt) : ∀ (fuel fuel' : ℕ) (s r : LoopState d W), fuel ≤ fuel' →
    loop (framesC C N) ph gf fuel s = .finished r → loop (framesC C M) ph gf fuel' s ≠ .ub →
    ∀ ev, FrameIn {n | n ≤ r.frame} ev → (ev ∈ filesOf (loop (framesC C M) ph gf fuel' s) ↔ ev ∈ r.out) := by
  have stop : ∀ (fuel fuel' : ℕ) (s r : LoopState d W), ¬ s.frame < N →
      loop (framesC C N) ph gf fuel s = .finished r → loop (framesC C M) ph gf fuel' s ≠ .ub →
      ∀ ev, FrameIn {n | n ≤ r.frame} ev → (ev ∈ filesOf (loop (framesC C M) ph gf fuel' s) ↔ ev ∈ r.out) := by
    intro fuel fuel' s r hf h hub ev hev
    have : r = finish (framesC C N) s := by
      unfold loop at h
      rw [if_neg hf] at h
      injection h with h
      exact h.symm
    subst this
    rw [finish_frame'] at hev
    rw [mem_finish hev]
    exact loop_later (C := (framesC C M)) hm hfd fuel' s hub ev hev
  intro fuel
  induction fuel with
  | zero =>
    intro fuel' s r _ h hub ev hev
    by_cases hf : s.frame < N
    · unfold loop at h
      rw [if_pos hf] at h
      cases h
    · exact stop 0 fuel' s r hf h hub ev hev
  | succ fuel ih =>
    intro fuel' s r hle h hub ev hev
    by_cases hf : s.frame < N
    swap
    · exact stop _ fuel' s r hf h hub ev hev
    obtain ⟨fuel', rfl⟩ : ∃ k, fuel' = k + 1 := ⟨fuel' - 1, by omega⟩
    have hfM : s.frame < M := by omega
    unfold loop at h hub ⊢
    rw [if_pos hf] at h
    rw [if_pos hfM] at hub ⊢
    simp only [loopBody] at h hub ⊢
    rw [updateDt_frames hNM hfd hf] at hub ⊢
    cases hq : updateDt (framesC C N) gf s.frame s.time (ph.velocities s.w) s.gravity with
    | none => rw [hq] at h; cases h
    | some q =>
      obtain ⟨dt, g⟩ := q
      rw [hq] at h hub
      simp only at h hub ⊢
      cases hs : ph.step s.w dt g s.time s.step with
      | none => rw [hs] at h; cases h
      | some q =>
        obtain ⟨w, b⟩ := q
        rw [hs] at h hub
        cases b with
        | true => cases h
        | false =>
          simp only at h hub ⊢
          have hE : ∀ K : ℕ, endOfFrame (framesC C K) { s with w := w, gravity := g, time := s.time + dt, step := s.step + 1 } =
            afterStep C s dt g w := fun K => rfl
          rw [hE] at h hub ⊢
          by_cases hN : |TimeConfig.finalTime (framesC C N) - (afterStep C s dt g w).time| < C.minDt * (11 / 10) ∨
              TimeConfig.finalTime (framesC C N) < (afterStep C s dt g w).time
          · rw [if_pos hN] at h
            injection h with h
            subst h
            rw [finish_frame', saveFrame_frame'] at hev
            rw [mem_finish hev]
            rcases afterStep_cases (C := C) s dt g w with ⟨h0, -, -⟩ | ⟨-, -, -, h2⟩
            · rw [afterStep_time] at hN
              exact absurd hN (no_break (C := (framesC C N)) hm hfd hf h0)
            · have h2N : ev ∈ (saveFrame (framesC C N) (afterStep C s dt g w)).out ↔ ev ∈ (afterStep C s dt g w).out := h2 ev
              have h2M : ev ∈ (saveFrame (framesC C M) (afterStep C s dt g w)).out ↔ ev ∈ (afterStep C s dt g w).out := h2 ev
              rw [h2N]
              by_cases hM : |TimeConfig.finalTime (framesC C M) - (afterStep C s dt g w).time| < C.minDt * (11 / 10) ∨
                  TimeConfig.finalTime (framesC C M) < (afterStep C s dt g w).time
              · rw [if_pos hM]
                exact (mem_finish hev).trans h2M
              · rw [if_neg hM] at hub ⊢
                exact loop_later (C := (framesC C M)) hm hfd fuel' _ hub ev hev
          · rw [if_neg hN] at h
            have hM : ¬ (|TimeConfig.finalTime (framesC C M) - (afterStep C s dt g w).time| < C.minDt * (11 / 10) ∨
                TimeConfig.finalTime (framesC C M) < (afterStep C s dt g w).time) := by
              have hle : TimeConfig.finalTime (framesC C N) ≤ TimeConfig.finalTime (framesC C M) :=
                mul_le_mul_of_nonneg_right (by exact_mod_cast hNM) hfd
              push Not at hN ⊢
              refine ⟨?_, by linarith [hN.2]⟩
              have h1 := hN.1
              rw [abs_of_nonneg (by linarith [hN.2])] at h1
              exact le_trans (by linarith) (le_abs_self _)
            rw [if_neg hM] at hub ⊢
            exact ih fuel' _ r (by omega) h hub ev hev

end loop

section run
variable {d : ℕ} {R : Setup (d + 2)}

/-- **C109** The output options select files and have no other effect: whatever they are, the run takes the same steps, ends in the
same way, and its files are those wanted among the files of the run that saves everything. -/
theorem C109_output (ss sg i e : Bool) (fuel : ℕ) {s : LoopState (d + 2) (World (d + 2))} (hs : s.out = []) :
    runProgram (withOutput ss sg R) i e fuel s = Result.select (wanted ss sg) (runProgram (withOutput true true R) i e fuel s) := by
  have hph : physics (withOutput ss sg R) = physics (withOutput true true R) := rfl
  unfold runProgram
  by_cases ha : accepted i R.m.elastic R.m.plastic e = true
  · refine (if_pos ha).trans (Eq.trans ?_ (congrArg _ (if_pos ha).symm))
    unfold simulate
    refine (if_pos ha).trans (Eq.trans ?_ (congrArg _ (if_pos ha).symm))
    rw [hph]
    refine Eq.trans ?_ (loop_select ss sg fuel _)
    congr 1
    cases ss <;> cases sg <;> simp [withOutput, LoopState.select, wanted, hs] <;> rfl
  · refine (if_neg ha).trans (Eq.trans ?_ (congrArg _ (if_neg ha).symm))
    simp [Result.select, hs]
    cases s; simp_all

/-- **C109** A run with more frames begins like a run with fewer: for the frames that the shorter run completes, both write the same files
with the same contents. -/
theorem C109_frames {N M : ℕ} (hNM : N ≤ M) (hm : 0 ≤ R.C.minDt) (hfps : 0 ≤ R.C.fps) {i e : Bool} {fuel fuel' : ℕ} (hfuel : fuel ≤ fuel')
    {s r : LoopState (d + 2) (World (d + 2))} (h : runProgram (withFrames N R) i e fuel s = .finished r)
    (hub : runProgram (withFrames M R) i e fuel' s ≠ .ub) (n : ℕ) (hn : n ≤ r.frame) (t : ℝ) (w : World (d + 2)) :
    (.particles n t w ∈ filesOf (runProgram (withFrames M R) i e fuel' s) ↔ .particles n t w ∈ r.out) ∧
    (.grid n t w ∈ filesOf (runProgram (withFrames M R) i e fuel' s) ↔ .grid n t w ∈ r.out) := by
  have hph : physics (withFrames N R) = physics (withFrames M R) := rfl
  unfold runProgram at h hub ⊢
  by_cases ha : accepted i R.m.elastic R.m.plastic e = true
  swap
  · exact absurd ((if_neg ha).symm.trans h) (by simp)
  replace h := (if_pos ha).symm.trans h
  have e2 : (if accepted i (withFrames M R).m.elastic (withFrames M R).m.plastic e = true then
      simulate (withFrames M R).C (physics (withFrames M R)) i (withFrames M R).m.elastic (withFrames M R).m.plastic e fuel'
        { s with w := fillMuI (withFrames M R).m (withFrames M R).S.P.useMibf s.w } else .refused s) =
      simulate (withFrames M R).C (physics (withFrames M R)) i (withFrames M R).m.elastic (withFrames M R).m.plastic e fuel'
        { s with w := fillMuI (withFrames M R).m (withFrames M R).S.P.useMibf s.w } := if_pos ha
  rw [e2] at hub ⊢
  have ha' : accepted i (withFrames M R).m.elastic (withFrames M R).m.plastic e = true := ha
  have ha'' : accepted i (withFrames N R).m.elastic (withFrames N R).m.plastic e = true := ha
  rw [simulate_eq ha'] at hub ⊢
  rw [simulate_eq ha'', hph] at h
  have hfd : 0 ≤ R.C.frameDt := by rw [TimeConfig.frameDt]; positivity
  have key := loop_frames (C := R.C) hNM hm hfd fuel fuel' _ r hfuel h hub
  exact ⟨key _ hn, key _ hn⟩

end run
namespace RunEx

/-- Two particles at rest, for any number of frames. -/
lemma rest_frames (musl : Bool) (pm : PlasticModel) {n : ℕ} (hn : 1 ≤ n) :
    ∃ r, runProgram (d := 0) (withFrames n (setup musl 3 pm)) true false (10 * n) (start pair 0) = .finished r ∧
    (∀ k ≤ n, ∃ t w, .particles k t w ∈ r.out) :=
  (C61_rest (R := setup musl n pm) (s := start pair 0) (deg := .two) (dx := 1) (fr := -19 / 20) (m := 3) (vol := 1)
    (i := true) (e := false) (fuel := 10 * n)
    rfl (by simp) one_pos (by norm_num) rfl rfl rfl rfl rfl (by simp [start, pair]) rfl
    (fun _ _ => by simp [setup]) (mat_stressFree pm) (fun _ => by simp [setup, Ex.mat]) rfl
    (fun m0 h => by simpa [start] using pair_noTiny m0 h)
    (by norm_num [setup, cfg, exConfig]) (by omega) (by simp [setup, cfg, exConfig]; linarith)
    (by norm_num [setup, cfg, exConfig]) rfl (by simp [setup, cfg, exConfig]; omega)
    someSvd_isSvd rfl pair_rest).imp fun r h => ⟨h.1, h.2.1⟩

/-- The files of frames 0 to 3 of a run over 5 frames are those of the run over 3 frames. -/
example (musl : Bool) (pm : PlasticModel) :
    ∃ r r', runProgram (d := 0) (withFrames 3 (setup musl 3 pm)) true false 30 (start pair 0) = .finished r ∧
      runProgram (d := 0) (withFrames 5 (setup musl 3 pm)) true false 50 (start pair 0) = .finished r' ∧
      (∀ k ≤ r.frame, ∀ t w, .particles k t w ∈ r'.out ↔ .particles k t w ∈ r.out) ∧ ∀ k ≤ 3, ∃ t w, .particles k t w ∈ r.out := by
  obtain ⟨r, h, hf⟩ := rest_frames musl pm (n := 3) (by norm_num)
  obtain ⟨r', h', -⟩ := rest_frames musl pm (n := 5) (by norm_num)
  refine ⟨r, r', h, h', fun k hk t w => ?_, hf⟩
  have := (C109_frames (R := setup musl 3 pm) (N := 3) (M := 5) (by norm_num) (by norm_num [setup, cfg, exConfig])
    (by norm_num [setup, cfg, exConfig]) (fuel := 30) (fuel' := 50) (by norm_num) h (by rw [h']; simp) k hk t w).1
  rwa [h'] at this

/-- Without saving the same run takes place and writes nothing. -/
example (musl : Bool) (pm : PlasticModel) : ∃ r, runProgram (d := 0) (withOutput true true (setup musl 3 pm)) true false 30 (start pair 0) = .finished r ∧
    r.out ≠ [] ∧ runProgram (d := 0) (withOutput false true (setup musl 3 pm)) true false 30 (start pair 0) = .finished { r with out := [] } := by
  obtain ⟨r, h, hf, -⟩ := rest_run musl pm
  have h' : runProgram (d := 0) (withOutput true true (setup musl 3 pm)) true false 30 (start pair 0) = .finished r := h
  refine ⟨r, h', fun h0 => ?_, ?_⟩
  · obtain ⟨t, w, hw⟩ := hf 0 (by norm_num)
    rw [h0] at hw; simp at hw
  · rw [C109_output (R := setup musl 3 pm) false true true false 30 (s := start pair 0) rfl, h']
    have : r.out.filter (wanted false true) = [] := by
      rw [List.filter_eq_nil_iff]; intro ev _; cases ev <;> simp [wanted]
    simp [Result.select, this]

end RunEx
end Verif.Props
